import Verif.Model.Expr
import Verif.Spec.Eval
import Verif.Lemmas.Arith

set_option linter.unusedSimpArgs false
set_option linter.unusedVariables false

/-! # Integers in debugger expressions -/

namespace T86
namespace Ex
open Spec Dbg

/-- A result of the evaluator that agrees with the meaning. -/
def Agrees (m : Mode) (r : Except Err Val) : Meaning → Prop
  | .number v => ∃ w l, r = .ok (.int w l) ∧ w.toInt = v
  | .rejected => r = .error .debugger
  | .undefined => m = .strict → r = .error .ub

theorem word_ext {x y : Word} (h : x.toInt = y.toInt) : x = y := BitVec.eq_of_toInt_eq h

theorem agrees_fit {m : Mode} {x y z : Word} {v : Int} {f : Mode → Res Word}
    (hs : FitsSigned v → f .strict = .ok z) (he : ¬ FitsSigned v → f .strict = .error .ub) (hw : f .wrap = .ok z)
    (hz : z.toInt = Int.bmod v (2 ^ 64)) {l : Option Loc} :
    Agrees m (do let r ← ub (f m); return .int r l) (fit v) := by
  unfold fit
  split
  · rename_i hf
    refine ⟨z, l, ?_, ?_⟩
    · cases m
      · rw [hs hf]; rfl
      · rw [hw]; rfl
    · rw [hz]
      unfold FitsSigned at hf
      have := bmod64_cases v (by omega) (by omega)
      omega
  · rename_i hf
    intro hm
    subst hm
    rw [he hf]
    rfl

theorem agrees_truth {m : Mode} {p : Prop} [Decidable p] {b : Bool} (h : b = decide p) {l : Option Loc} :
    Agrees m (.ok (.int (ofBool b) l)) (truth p) := by
  refine ⟨_, _, rfl, ?_⟩
  subst h
  by_cases hp : p <;> simp [ofBool, hp]

theorem ofInt_toInt (x : Word) : BitVec.ofInt 64 x.toInt = x := BitVec.ofInt_toInt

theorem shl_toInt (x : Word) (k : Nat) : (x <<< k).toInt = Int.bmod (x.toInt * 2 ^ k) (2 ^ 64) := by
  apply (wordOf_iff_bmod _ _).1
  show (2 ^ 64 : Int) ∣ _
  rw [BitVec.toNat_shiftLeft, Nat.shiftLeft_eq]
  have h1 : ((x.toNat * 2 ^ k % 2 ^ 64 : Nat) : Int) = (x.toNat : Int) * 2 ^ k - 2 ^ 64 * ((x.toNat * 2 ^ k / 2 ^ 64 : Nat) : Int) := by
    have := Nat.div_add_mod (x.toNat * 2 ^ k) (2 ^ 64)
    have h : ((2 ^ 64 * (x.toNat * 2 ^ k / 2 ^ 64) + x.toNat * 2 ^ k % 2 ^ 64 : Nat) : Int) = ((x.toNat * 2 ^ k : Nat) : Int) :=
      congrArg _ this
    rw [Int.natCast_add, Int.natCast_mul (x.toNat), Int.natCast_mul] at h
    rw [Int.natCast_pow 2 k] at h
    have e2 : (((2 ^ 64 : Nat)) : Int) = 2 ^ 64 := rfl
    rw [e2] at h
    have e3 : (((2 : Nat)) : Int) = 2 := rfl
    rw [e3] at h
    omega
  rw [h1]
  have h2 : (2 ^ 64 : Int) ∣ (x.toNat : Int) - x.toInt := wordOf_toInt x
  have h3 : (2 ^ 64 : Int) ∣ ((x.toNat : Int) - x.toInt) * 2 ^ k := Int.dvd_mul_of_dvd_left h2
  have h4 : (2 ^ 64 : Int) ∣ 2 ^ 64 * ((x.toNat * 2 ^ k / 2 ^ 64 : Nat) : Int) := Int.dvd_mul_right _ _
  have := Int.dvd_sub h3 h4
  rw [Int.sub_mul] at this
  have e : (x.toNat : Int) * 2 ^ k - x.toInt * 2 ^ k - 2 ^ 64 * ((x.toNat * 2 ^ k / 2 ^ 64 : Nat) : Int) =
    (x.toNat : Int) * 2 ^ k - 2 ^ 64 * ((x.toNat * 2 ^ k / 2 ^ 64 : Nat) : Int) - x.toInt * 2 ^ k := by omega
  rw [← e]
  exact this

theorem zero_iff' (x : Word) : x = 0#64 ↔ x.toInt = 0 := zero_iff_toInt x

theorem binary_agrees (m : Mode) (fo : Floats) (e : Env) (o : BOp) (ho : o ≠ .assign) (x y : Word) (lx ly : Option Loc) :
    Agrees m (binaryValue m fo e o (.int x lx) (.int y ly)) (o.meaning x.toInt y.toInt) := by
  cases o with
  | add =>
    exact agrees_fit (x := x) (y := y) (z := x + y) (f := fun m => sadd m x y) (fun h => sadd_strict_ok h) (fun h => sadd_strict_err h)
      (sadd_wrap x y) (BitVec.toInt_add x y)
  | sub =>
    exact agrees_fit (x := x) (y := y) (z := x - y) (f := fun m => ssub m x y) (fun h => ssub_strict_ok h) (fun h => ssub_strict_err h)
      (ssub_wrap x y) (BitVec.toInt_sub)
  | mul =>
    exact agrees_fit (x := x) (y := y) (z := x * y) (f := fun m => smul m x y) (fun h => smul_strict_ok h) (fun h => smul_strict_err h)
      (smul_wrap x y) (BitVec.toInt_mul x y)
  | div =>
    simp only [binaryValue, BOp.meaning, checkZero, divValues]
    by_cases hy : y = 0
    · subst hy; simp [Agrees]
    · have hy' : y.toInt ≠ 0 := fun h => hy ((zero_iff_toInt y).2 h)
      simp only [if_neg hy', bne_iff_ne, ne_eq, hy, not_false_eq_true, if_true]
      by_cases hm : x = BitVec.intMin 64 ∧ y = -1
      · have h1 := (intMin_iff x).1 hm.1
        have h2 := (negOne_iff y).1 hm.2
        have hfit : ¬ FitsSigned (x.toInt.tdiv y.toInt) := by
          rw [h1, h2]; decide
        simp only [fit, if_neg hfit, Agrees, sdivC, if_pos (Or.inr hm)]
        intro _; rfl
      · have hs : (x.sdiv y).toInt = x.toInt.tdiv y.toInt := by
          apply BitVec.toInt_sdiv_of_ne_or_ne
          by_cases hx : x = BitVec.intMin 64
          · exact Or.inr fun h => hm ⟨hx, h⟩
          · exact Or.inl hx
        have hb := toInt_bounds (x.sdiv y)
        have hfit : FitsSigned (x.toInt.tdiv y.toInt) := by rw [← hs]; exact hb
        simp only [fit, if_pos hfit, Agrees, sdivC]
        rw [if_neg (by rintro (h | h); exacts [hy h, hm h])]
        exact ⟨_, _, rfl, hs⟩
  | mod =>
    simp only [binaryValue, BOp.meaning, checkZero, bitValues]
    by_cases hy : y = 0
    · subst hy; simp [Agrees]
    · have hy' : y.toInt ≠ 0 := fun h => hy ((zero_iff_toInt y).2 h)
      simp only [if_neg hy', bne_iff_ne, ne_eq, hy, not_false_eq_true, if_true]
      have hiff : (x.toInt = -2 ^ 63 ∧ y.toInt = -1) ↔ (x = BitVec.intMin 64 ∧ y = -1) := by
        rw [intMin_iff, negOne_iff]
      by_cases hm : x = BitVec.intMin 64 ∧ y = -1
      · simp only [if_pos (hiff.2 hm), Agrees, smodC, if_pos (Or.inr hm)]
        intro _; rfl
      · simp only [if_neg (mt hiff.1 hm), Agrees, smodC]
        rw [if_neg (by rintro (h | h); exacts [hy h, hm h])]
        exact ⟨_, _, rfl, BitVec.toInt_srem x y⟩
  | eq => exact agrees_truth (by
      show (x == y) = _
      by_cases h : x = y
      · simp [h]
      · simp [h, mt word_ext h])
  | neq => exact agrees_truth (by
      show (x != y) = _
      by_cases h : x = y
      · simp [h]
      · simp [h, mt word_ext h])
  | less => exact agrees_truth rfl
  | greater => exact agrees_truth rfl
  | leq => exact agrees_truth rfl
  | geq => exact agrees_truth rfl
  | and => exact agrees_truth (by
      show (x != 0 && y != 0) = _
      rw [Bool.eq_iff_iff]
      simp [zero_iff'])
  | or => exact agrees_truth (by
      show (x != 0 || y != 0) = _
      rw [Bool.eq_iff_iff]
      simp [zero_iff'])
  | iand => exact ⟨_, _, rfl, by rw [ofInt_toInt, ofInt_toInt]⟩
  | ior => exact ⟨_, _, rfl, by rw [ofInt_toInt, ofInt_toInt]⟩
  | ixor => exact ⟨_, _, rfl, by rw [ofInt_toInt, ofInt_toInt]⟩
  | lshift =>
    simp only [binaryValue, BOp.meaning, bitValues, shlC]
    by_cases h : 0 ≤ y.toInt ∧ y.toInt < 64
    · simp only [if_pos h]
      refine ⟨_, _, rfl, ?_⟩
      have hk : y.toInt.toNat = y.toNat := by have := toInt_cases y; omega
      rw [hk]
      exact shl_toInt x _
    · simp only [if_neg h]
      intro _; rfl
  | rshift =>
    simp only [binaryValue, BOp.meaning, bitValues, sarC]
    by_cases h : 0 ≤ y.toInt ∧ y.toInt < 64
    · simp only [if_pos h]
      refine ⟨_, _, rfl, ?_⟩
      have hk : y.toInt.toNat = y.toNat := by have := toInt_cases y; omega
      rw [hk, BitVec.toInt_sshiftRight, Int.shiftRight_eq_div_pow]
      simp
    · simp only [if_neg h]
      intro _; rfl
  | assign => exact absurd rfl ho

theorem unary_agrees (m : Mode) (e : Env) (v : View) (o : UOp) (x : Word) (lx : Option Loc) :
    Agrees m (unaryValue m e v o (.int x lx)) (o.meaning x.toInt) := by
  cases o with
  | negate =>
    refine agrees_fit (x := x) (y := x) (z := -x) (f := fun m => sneg m x) (fun h => ?_) (fun h => ?_) (sneg_wrap x) (BitVec.toInt_neg (x := x))
    · have : x ≠ BitVec.intMin 64 := fun hx => by
        rw [(intMin_iff x).1 hx] at h
        exact absurd h (by decide)
      exact if_neg (by simp [this])
    · have : x = BitVec.intMin 64 := by
        rw [intMin_iff]
        have := toInt_bounds x
        unfold FitsSigned at h
        omega
      exact if_pos ⟨rfl, this⟩
  | lnot => exact agrees_truth (by
      show (x == 0) = _
      rw [Bool.eq_iff_iff]
      simp [zero_iff'])
  | not =>
    refine ⟨_, _, rfl, ?_⟩
    rw [BitVec.toInt_not]
    have hb := toInt_bounds x
    have := toInt_cases x
    have hbm := bmod64_cases (2 ^ 64 - 1 - x.toNat)
    omega
  | deref => rfl

end Ex
end T86
