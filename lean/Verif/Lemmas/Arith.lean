import Verif.Model.Alu
import Verif.Spec.Arith
import Mathlib.Tactic.Common

/-! Helper lemmas on 64-bit words and the ALU. -/

namespace T86
open Spec

theorem toInt_bounds (x : Word) : -(2^63 : Int) ≤ x.toInt ∧ x.toInt < 2^63 := by
  constructor
  · have := BitVec.le_toInt x; simpa using this
  · have := BitVec.toInt_lt (x := x); simpa using this

theorem toInt_cases (x : Word) :
    (x.toInt = x.toNat ∧ x.toNat < 2^63) ∨ (x.toInt = x.toNat - 2^64 ∧ 2^63 ≤ x.toNat) := by
  have h := BitVec.toInt_eq_toNat_cond x
  have := x.isLt
  split at h <;> omega

theorem bmod64_cases (z : Int) (h1 : -(2^64 : Int) ≤ z) (h2 : z < 2^64) :
    (z < -2^63 ∧ Int.bmod z (2^64) = z + 2^64) ∨
    (-2^63 ≤ z ∧ z < 2^63 ∧ Int.bmod z (2^64) = z) ∨
    (2^63 ≤ z ∧ Int.bmod z (2^64) = z - 2^64) := by
  have h := @Int.bmod_def z (2^64)
  omega

theorem wordOf_toInt (w : Word) : WordOf w w.toInt := by
  unfold WordOf; rcases toInt_cases w with h | h <;> omega

theorem wordOf_iff_bmod (w : Word) (z : Int) : WordOf w z ↔ w.toInt = Int.bmod z (2^64) := by
  unfold WordOf
  have h := @Int.bmod_def z (2^64)
  rcases toInt_cases w with h' | h' <;> omega

theorem wordOf_add (x y : Word) : WordOf (x + y) (x.toInt + y.toInt) := by
  rw [wordOf_iff_bmod, BitVec.toInt_add]
theorem wordOf_sub (x y : Word) : WordOf (x - y) (x.toInt - y.toInt) := by
  rw [wordOf_iff_bmod, BitVec.toInt_sub]
theorem wordOf_mul (x y : Word) : WordOf (x * y) (x.toInt * y.toInt) := by
  rw [wordOf_iff_bmod, BitVec.toInt_mul]
theorem wordOf_neg (x : Word) : WordOf (-x) (-x.toInt) := by
  rw [wordOf_iff_bmod, BitVec.toInt_neg]

theorem sadd_wrap (x y : Word) : sadd .wrap x y = .ok (x + y) := if_neg (by simp)
theorem ssub_wrap (x y : Word) : ssub .wrap x y = .ok (x - y) := if_neg (by simp)
theorem smul_wrap (x y : Word) : smul .wrap x y = .ok (x * y) := if_neg (by simp)
theorem sneg_wrap (x : Word) : sneg .wrap x = .ok (-x) := if_neg (by simp)
theorem sadd_strict_ok {x y : Word} (h : FitsSigned (x.toInt + y.toInt)) : sadd .strict x y = .ok (x + y) :=
  if_neg (fun hh => hh.2 h)
theorem sadd_strict_err {x y : Word} (h : ¬ FitsSigned (x.toInt + y.toInt)) : sadd .strict x y = .error .ub :=
  if_pos ⟨rfl, h⟩
theorem ssub_strict_ok {x y : Word} (h : FitsSigned (x.toInt - y.toInt)) : ssub .strict x y = .ok (x - y) :=
  if_neg (fun hh => hh.2 h)
theorem ssub_strict_err {x y : Word} (h : ¬ FitsSigned (x.toInt - y.toInt)) : ssub .strict x y = .error .ub :=
  if_pos ⟨rfl, h⟩
theorem smul_strict_ok {x y : Word} (h : FitsSigned (x.toInt * y.toInt)) : smul .strict x y = .ok (x * y) :=
  if_neg (fun hh => hh.2 h)
theorem smul_strict_err {x y : Word} (h : ¬ FitsSigned (x.toInt * y.toInt)) : smul .strict x y = .error .ub :=
  if_pos ⟨rfl, h⟩

theorem flags_roundtrip (f : Flags) : Alu.flagsOfWord (Alu.flagsToWord f) = f := by
  rcases f with ⟨a, b, c, d⟩; cases a <;> cases b <;> cases c <;> cases d <;> decide

theorem word_zero_iff (w : Word) : w = 0 ↔ w.toNat = 0 := by
  rw [← BitVec.toNat_inj]; simp
theorem intMin_iff (x : Word) : x = BitVec.intMin 64 ↔ x.toInt = -2^63 := by rw [← BitVec.toInt_inj]; rfl
theorem negOne_iff (x : Word) : x = -1 ↔ x.toInt = -1 := by rw [← BitVec.toInt_inj]; rfl
theorem zero_iff_toInt (x : Word) : x = 0 ↔ x.toInt = 0 := by rw [← BitVec.toInt_inj]; rfl

theorem plain_zero (w : Word) : (Alu.plain w).flags.zero = true ↔ w.toNat = 0 := by
  simp only [Alu.plain, decide_eq_true_eq]; exact word_zero_iff w
theorem plain_sign (w : Word) : (Alu.plain w).flags.sign = true ↔ w.toInt < 0 := by
  simp only [Alu.plain, decide_eq_true_eq]
theorem dec_zero (w : Word) : decide (w = 0) = true ↔ w.toNat = 0 := by
  simp only [decide_eq_true_eq]; exact word_zero_iff w

end T86
