import Verif.Lemmas.Arith

/-! # C01–C05: flags, comparisons and arithmetic -/

namespace T86
open Spec

set_option linter.unusedSimpArgs false

/-- C01. After `CMP x, y` (whose flags go through the FLAGS register) each signed jump is taken exactly when the
signed comparison holds, whenever the VM's subtraction is defined at all. -/
theorem C01_signed_jumps (m : Mode) (x y : Word) (r : Alu.Result) (h : Alu.subtract m x y = .ok r) :
    (Cond.jl.taken (Alu.flagsToWord r.flags) = true ↔ x.toInt < y.toInt) ∧
    (Cond.jle.taken (Alu.flagsToWord r.flags) = true ↔ x.toInt ≤ y.toInt) ∧
    (Cond.jg.taken (Alu.flagsToWord r.flags) = true ↔ x.toInt > y.toInt) ∧
    (Cond.jge.taken (Alu.flagsToWord r.flags) = true ↔ x.toInt ≥ y.toInt) ∧
    (Cond.je.taken (Alu.flagsToWord r.flags) = true ↔ x = y) ∧
    (Cond.jz.taken (Alu.flagsToWord r.flags) = true ↔ x = y) ∧
    (Cond.jne.taken (Alu.flagsToWord r.flags) = true ↔ x ≠ y) ∧
    (Cond.jnz.taken (Alu.flagsToWord r.flags) = true ↔ x ≠ y) := by
  have hz : (x - y = 0) ↔ x.toInt = y.toInt := by
    rw [BitVec.toInt_inj]
    constructor
    · intro h; exact (BitVec.sub_eq_iff_eq_add.mp h).trans (by simp)
    · intro h; subst h; simp
  have hs := BitVec.toInt_sub (x := x) (y := y)
  have bx := toInt_bounds x
  have by' := toInt_bounds y
  have hb := bmod64_cases (x.toInt - y.toInt) (by omega) (by omega)
  have hxy : x = y ↔ x.toInt = y.toInt := BitVec.toInt_inj.symm
  unfold Alu.subtract ssub at h
  split at h
  · simp [bind, Except.bind] at h
  · simp only [bind, Except.bind, pure, Except.pure, Except.ok.injEq] at h
    subst h
    simp only [Cond.taken, flags_roundtrip, Cond.holds, hz, hs, hxy, ne_eq]
    generalize Int.bmod (x.toInt - y.toInt) (2 ^ 64) = b at hb ⊢
    generalize x.toInt = X at *
    generalize y.toInt = Y at *
    refine ⟨?_, ?_, ?_, ?_, ?_, ?_, ?_, ?_⟩
    all_goals
      simp only [bne_iff_ne, beq_iff_eq, Bool.and_eq_true, Bool.or_eq_true, Bool.not_eq_true', decide_eq_true_eq,
        decide_eq_false_iff_not, ne_eq, ← Bool.decide_and, ← Bool.decide_or, decide_eq_decide]
    all_goals try unfold Alu.int64Max Alu.int64Min
    all_goals constructor
    all_goals intro h'
    all_goals omega

/-- C01, definedness: with wrap-around compilation the comparison is always defined; under ISO C++ exactly when the
mathematical difference fits in 64 bits. -/
theorem C01_compare_defined (x y : Word) :
    (∃ r, Alu.subtract .wrap x y = .ok r) ∧
    ((∃ r, Alu.subtract .strict x y = .ok r) ↔ FitsSigned (x.toInt - y.toInt)) := by
  unfold Alu.subtract
  refine ⟨⟨_, by rw [ssub_wrap]; rfl⟩, ?_⟩
  by_cases h : FitsSigned (x.toInt - y.toInt)
  · simp only [ssub_strict_ok h, h, iff_true]; exact ⟨_, rfl⟩
  · simp [ssub_strict_err h, h, bind, Except.bind]

/-- Non-vacuity of C01: the most negative word against 1, where the subtraction wraps. -/
example : ∃ r, Alu.subtract .wrap (BitVec.intMin 64) 1 = .ok r ∧
    Cond.jl.taken (Alu.flagsToWord r.flags) = true ∧ r.flags.overflow = true ∧ r.flags.sign = false :=
  ⟨_, rfl, by decide, by decide, by decide⟩

/-- C02. After `CMP x, y` each unsigned jump is taken exactly when the unsigned comparison holds. -/
theorem C02_unsigned_jumps (m : Mode) (x y : Word) (r : Alu.Result) (h : Alu.subtract m x y = .ok r) :
    (Cond.ja.taken (Alu.flagsToWord r.flags) = true ↔ x.toNat > y.toNat) ∧
    (Cond.jae.taken (Alu.flagsToWord r.flags) = true ↔ x.toNat ≥ y.toNat) ∧
    (Cond.jb.taken (Alu.flagsToWord r.flags) = true ↔ x.toNat < y.toNat) ∧
    (Cond.jbe.taken (Alu.flagsToWord r.flags) = true ↔ x.toNat ≤ y.toNat) := by
  have hz : (x - y = 0) ↔ x.toNat = y.toNat := by
    rw [BitVec.toNat_inj]
    constructor
    · intro h; exact (BitVec.sub_eq_iff_eq_add.mp h).trans (by simp)
    · intro h; subst h; simp
  unfold Alu.subtract ssub at h
  split at h
  · simp [bind, Except.bind] at h
  · simp only [bind, Except.bind, pure, Except.pure, Except.ok.injEq] at h
    subst h
    simp only [Cond.taken, flags_roundtrip, Cond.holds, hz]
    refine ⟨?_, ?_, ?_, ?_⟩
    all_goals
      simp only [bne_iff_ne, beq_iff_eq, Bool.and_eq_true, Bool.or_eq_true, Bool.not_eq_true', decide_eq_true_eq,
        decide_eq_false_iff_not, ne_eq, Bool.or_eq_false_iff]
    all_goals omega

/-- Non-vacuity of C02: -1 (the largest unsigned word) is above 1 although it is less when signed. -/
example : ∃ r, Alu.subtract .strict (-1) 1 = .ok r ∧ Cond.ja.taken (Alu.flagsToWord r.flags) = true ∧
    Cond.jl.taken (Alu.flagsToWord r.flags) = true := ⟨_, rfl, by decide, by decide⟩

/-- What C03 demands of the result and flags of an operation with mathematical value `sz` on signed operands and
`uz` on unsigned ones. -/
structure ArithOk (r : Alu.Result) (sz uz : Int) : Prop where
  value : WordOf r.value sz
  sign : r.flags.sign = true ↔ r.value.toInt < 0
  zero : r.flags.zero = true ↔ r.value.toNat = 0
  carry : r.flags.carry = true ↔ ¬ FitsUnsigned uz
  overflow : r.flags.overflow = true ↔ ¬ FitsSigned sz

/-- C03 (ADD, INC with y = 1). -/
theorem C03_add (m : Mode) (x y : Word) (r : Alu.Result) (h : Alu.add m x y = .ok r) :
    ArithOk r (x.toInt + y.toInt) (x.toNat + y.toNat) := by
  have bx := toInt_bounds x
  have by' := toInt_bounds y
  have nx := x.isLt
  have ny := y.isLt
  have hv := wordOf_add x y
  unfold Alu.add sadd at h
  split at h
  · simp [bind, Except.bind] at h
  · simp only [bind, Except.bind, pure, Except.pure, Except.ok.injEq] at h
    subst h
    refine ⟨hv, by simp, dec_zero _, ?_, ?_⟩
    · simp only [decide_eq_true_eq, FitsUnsigned]; omega
    · simp only [Bool.or_eq_true, Bool.and_eq_true, decide_eq_true_eq, FitsSigned]
      unfold Alu.int64Max Alu.int64Min
      constructor <;> intro h' <;> omega

/-- C03 (SUB, CMP, DEC with y = 1). -/
theorem C03_sub (m : Mode) (x y : Word) (r : Alu.Result) (h : Alu.subtract m x y = .ok r) :
    ArithOk r (x.toInt - y.toInt) (x.toNat - y.toNat) := by
  have bx := toInt_bounds x
  have by' := toInt_bounds y
  have nx := x.isLt
  have ny := y.isLt
  have hv := wordOf_sub x y
  unfold Alu.subtract ssub at h
  split at h
  · simp [bind, Except.bind] at h
  · simp only [bind, Except.bind, pure, Except.pure, Except.ok.injEq] at h
    subst h
    refine ⟨hv, by simp, dec_zero _, ?_, ?_⟩
    · simp only [decide_eq_true_eq, FitsUnsigned]; omega
    · simp only [Bool.or_eq_true, Bool.and_eq_true, decide_eq_true_eq, FitsSigned]
      unfold Alu.int64Max Alu.int64Min
      constructor <;> intro h' <;> omega

/-- C03 (NEG): value, sign and zero as documented; carry and overflow always cleared (also for INT64_MIN, where the
mathematical result does not fit; see `C03_neg_overflow_not_reported`). -/
theorem C03_neg (m : Mode) (x : Word) (r : Alu.Result) (h : Alu.negate m x = .ok r) :
    WordOf r.value (-x.toInt) ∧ (r.flags.sign = true ↔ r.value.toInt < 0) ∧
    (r.flags.zero = true ↔ r.value.toNat = 0) ∧ r.flags.carry = false ∧ r.flags.overflow = false := by
  have hv := wordOf_neg x
  unfold Alu.negate sneg at h
  split at h
  · simp [bind, Except.bind] at h
  · simp only [bind, Except.bind, pure, Except.pure, Except.ok.injEq] at h
    subst h
    exact ⟨hv, plain_sign _, plain_zero _, rfl, rfl⟩

/-- Finding: NEG INT64_MIN overflows but clears the overflow flag. -/
theorem C03_neg_overflow_not_reported :
    ∃ x r, Alu.negate .wrap x = .ok r ∧ ¬ FitsSigned (-x.toInt) ∧ r.flags.overflow = false :=
  ⟨BitVec.intMin 64, _, rfl, by decide, by decide⟩

/-- C03, definedness under ISO C++: ADD, SUB and NEG are free of undefined behaviour exactly when the mathematical
result fits in a signed word; with wrap-around they always are. -/
theorem C03_defined (x y : Word) :
    ((∃ r, Alu.add .strict x y = .ok r) ↔ FitsSigned (x.toInt + y.toInt)) ∧
    ((∃ r, Alu.subtract .strict x y = .ok r) ↔ FitsSigned (x.toInt - y.toInt)) ∧
    ((∃ r, Alu.negate .strict x = .ok r) ↔ FitsSigned (-x.toInt)) ∧
    (∃ r, Alu.add .wrap x y = .ok r) ∧ (∃ r, Alu.subtract .wrap x y = .ok r) ∧ (∃ r, Alu.negate .wrap x = .ok r) := by
  refine ⟨?_, (C01_compare_defined x y).2, ?_, ?_, (C01_compare_defined x y).1, ?_⟩
  · unfold Alu.add
    by_cases h : FitsSigned (x.toInt + y.toInt)
    · simp only [sadd_strict_ok h, h, iff_true]; exact ⟨_, rfl⟩
    · simp [sadd_strict_err h, h, bind, Except.bind]
  · have hm : x = BitVec.intMin 64 ↔ x.toInt = -2^63 := by rw [← BitVec.toInt_inj]; rfl
    have := toInt_bounds x
    unfold Alu.negate sneg FitsSigned
    by_cases h : x = BitVec.intMin 64
    · have h' := hm.mp h
      have h2 : ¬ (-(2^63 : Int) ≤ -x.toInt ∧ -x.toInt < 2^63) := by omega
      rw [if_pos ⟨rfl, h⟩]
      simp only [h2, bind, Except.bind]
      simp
    · have h' := fun e => h (hm.mpr e)
      have h2 : (-(2^63 : Int) ≤ -x.toInt ∧ -x.toInt < 2^63) := by
        by_contra hc
        exact h' (by omega)
      simp only [bind, Except.bind, pure, Except.pure, h, h2, and_false, if_false, Except.ok.injEq, exists_eq', and_self]
  · exact ⟨_, by unfold Alu.add sadd; simp [bind, Except.bind, pure, Except.pure]; rfl⟩
  · exact ⟨_, by unfold Alu.negate sneg; simp [bind, Except.bind, pure, Except.pure]; rfl⟩

/-- Non-vacuity of C03: unsigned carry without signed overflow, and the reverse. -/
example : (∃ r, Alu.add .strict (-1) 5 = .ok r ∧ r.flags.carry = true ∧ r.flags.overflow = false ∧ r.value = 4) ∧
    (∃ r, Alu.add .wrap 0x7fffffffffffffff 1 = .ok r ∧ r.flags.carry = false ∧ r.flags.overflow = true) :=
  ⟨⟨_, rfl, by decide, by decide, by decide⟩, ⟨_, rfl, by decide, by decide⟩⟩

/-! ## C04 -/

/-- C04 (MUL): always defined; the product modulo 2^64; carry exactly when the unsigned product does not fit. -/
theorem C04_mul (x y : Word) : ∃ r, Alu.multiply x y = .ok r ∧
    WordOf r.value (x.toNat * y.toNat) ∧
    (r.flags.sign = true ↔ r.value.toInt < 0) ∧ (r.flags.zero = true ↔ r.value.toNat = 0) ∧
    (r.flags.carry = true ↔ ¬ FitsUnsigned (x.toNat * y.toNat)) ∧ r.flags.overflow = false := by
  have nx := x.isLt
  have ny := y.isLt
  have hval : WordOf (x * y) (x.toNat * y.toNat) := by
    unfold WordOf; rw [BitVec.toNat_mul, Int.natCast_emod, Int.natCast_mul]
    generalize (x.toNat : Int) * y.toNat = p
    omega
  by_cases hx : x = 0
  · subst hx
    refine ⟨_, by simp [Alu.multiply, bind, Except.bind, pure, Except.pure]; rfl, ?_⟩
    simp [WordOf, FitsUnsigned]
  by_cases hy : y = 0
  · subst hy
    refine ⟨_, by simp [Alu.multiply, bind, Except.bind, pure, Except.pure]; rfl, ?_⟩
    simp [WordOf, FitsUnsigned]
  refine ⟨⟨x * y, ⟨decide ((x*y).toInt < 0), decide (x * y = 0), decide (x ≠ (x * y).udiv y), false⟩⟩, ?_, hval, by simp,
    dec_zero _, ?_, rfl⟩
  · simp only [Alu.multiply, bind, Except.bind, pure, Except.pure, hx, hy, udivC, ne_eq, not_false_eq_true, and_self,
      if_true, if_false, decide_true, Bool.true_and]
  · simp only [decide_eq_true_eq, FitsUnsigned]
    have hy' : 0 < y.toNat := by
      rcases Nat.eq_zero_or_pos y.toNat with h | h
      · exact absurd ((word_zero_iff y).mpr h) hy
      · exact h
    rw [ne_eq, ← BitVec.toNat_inj, BitVec.udiv_eq, BitVec.toNat_udiv, BitVec.toNat_mul]
    have hcast : ((x.toNat : Int) * y.toNat) = ((x.toNat * y.toNat : Nat) : Int) := by push_cast; rfl
    rw [hcast]
    constructor
    · intro h hf
      apply h
      rw [Nat.mod_eq_of_lt (by omega), Nat.mul_div_cancel _ hy']
    · intro h he
      apply h
      refine ⟨by omega, ?_⟩
      have h1 : x.toNat * y.toNat ≤ x.toNat * y.toNat % 2^64 := by
        have := Nat.div_mul_le_self (x.toNat * y.toNat % 2^64) y.toNat
        rw [← he] at this; exact this
      have h2 := Nat.mod_lt (x.toNat * y.toNat) (show 2^64 > 0 by decide)
      omega

/-- C04 (DIV): undefined exactly for a zero divisor, otherwise the unsigned quotient with cleared carry/overflow. -/
theorem C04_div (x y : Word) :
    (y.toNat = 0 → Alu.divide x y = .error .ub) ∧
    (y.toNat ≠ 0 → ∃ r, Alu.divide x y = .ok r ∧ r.value.toNat = x.toNat / y.toNat ∧
      (r.flags.sign = true ↔ r.value.toInt < 0) ∧ (r.flags.zero = true ↔ r.value.toNat = 0) ∧
      r.flags.carry = false ∧ r.flags.overflow = false) := by
  constructor
  · intro h
    have := (word_zero_iff y).mpr h
    simp [Alu.divide, udivC, this, bind, Except.bind]
  · intro h
    have h' : y ≠ 0 := fun e => h ((word_zero_iff y).mp e)
    refine ⟨Alu.plain (x.udiv y), by simp only [Alu.divide, udivC, h', if_false]; rfl, ?_⟩
    exact ⟨BitVec.toNat_udiv, plain_sign _, plain_zero _, rfl, rfl⟩

/-- C04 (IDIV): undefined exactly for a zero divisor and for INT64_MIN / -1, otherwise the quotient rounded
towards zero. -/
theorem C04_idiv (x y : Word) :
    ((y.toInt = 0 ∨ ¬ FitsSigned (x.toInt.tdiv y.toInt)) → Alu.signedDivide x y = .error .ub) ∧
    (¬ (y.toInt = 0 ∨ ¬ FitsSigned (x.toInt.tdiv y.toInt)) → ∃ r, Alu.signedDivide x y = .ok r ∧
      r.value.toInt = x.toInt.tdiv y.toInt ∧
      (r.flags.sign = true ↔ r.value.toInt < 0) ∧ (r.flags.zero = true ↔ r.value.toNat = 0) ∧
      r.flags.carry = false ∧ r.flags.overflow = false) := by
  have bx := toInt_bounds x
  have hcond : (y.toInt = 0 ∨ ¬ FitsSigned (x.toInt.tdiv y.toInt)) ↔ (y = 0 ∨ (x = BitVec.intMin 64 ∧ y = -1)) := by
    rw [intMin_iff, negOne_iff, zero_iff_toInt]
    by_cases hy : y.toInt = 0
    · simp [hy]
    simp only [hy, false_or]
    constructor
    · intro h
      have hab := Int.natAbs_tdiv x.toInt y.toInt
      have hle : (x.toInt.tdiv y.toInt).natAbs ≤ x.toInt.natAbs := by
        rw [hab]; exact Nat.div_le_self _ _
      unfold FitsSigned at h
      have hx : x.toInt.natAbs = 2^63 := by omega
      have hq : x.toInt.tdiv y.toInt = 2^63 := by omega
      have hx' : x.toInt = -2^63 := by omega
      refine ⟨hx', ?_⟩
      rw [hq, hx] at hab
      have hy1 : y.toInt.natAbs = 1 := by
        by_contra hne
        have h2 : 2 ≤ y.toInt.natAbs := by omega
        have : (2^63 : Nat) / y.toInt.natAbs ≤ 2^63 / 2 := Nat.div_le_div_left h2 (by decide)
        have e : (2^63 : Int).natAbs = 2^63 := by decide
        rw [e] at hab
        have h3 : (2^63 : Nat) / y.toInt.natAbs = 2^63 := hab.symm
        omega
      rcases (show y.toInt = 1 ∨ y.toInt = -1 by omega) with h1 | h1
      · rw [h1, Int.tdiv_one, hx'] at hq; exact absurd hq (by decide)
      · exact h1
    · rintro ⟨h1, h2⟩
      rw [h1, h2]; decide
  rw [hcond]
  constructor
  · intro h
    simp only [Alu.signedDivide, sdivC, h, if_true, bind, Except.bind]
  · intro h
    refine ⟨Alu.plain (x.sdiv y), by simp only [Alu.signedDivide, sdivC, h, if_false]; rfl, ?_⟩
    refine ⟨?_, plain_sign _, plain_zero _, rfl, rfl⟩
    show (x.sdiv y).toInt = _
    have := BitVec.toInt_sdiv_of_ne_or_ne x y (by
      by_cases h1 : x = BitVec.intMin 64
      · right; intro h2; exact h (Or.inr ⟨h1, h2⟩)
      · left; exact h1)
    exact this

/-- C04 (MOD): undefined exactly where IDIV is, otherwise the remainder with the sign of the dividend. -/
theorem C04_mod (x y : Word) :
    (Alu.mod x y = .error .ub ↔ Alu.signedDivide x y = .error .ub) ∧
    (∀ r, Alu.mod x y = .ok r → r.value.toInt = x.toInt.tmod y.toInt ∧
      (r.flags.sign = true ↔ r.value.toInt < 0) ∧ (r.flags.zero = true ↔ r.value.toNat = 0) ∧
      r.flags.carry = false ∧ r.flags.overflow = false) := by
  constructor
  · unfold Alu.mod Alu.signedDivide smodC sdivC
    split <;> simp [bind, Except.bind, pure, Except.pure]
  · intro r h
    unfold Alu.mod smodC at h
    split at h
    · simp [bind, Except.bind] at h
    · simp only [bind, Except.bind, pure, Except.pure, Except.ok.injEq] at h
      subst h
      exact ⟨BitVec.toInt_srem x y, plain_sign _, plain_zero _, rfl, rfl⟩

/-- C04 (IMUL): when defined, the signed product modulo 2^64 with the overflow flag set exactly when it does not fit,
and carry cleared. -/
theorem C04_imul (m : Mode) (x y : Word) (r : Alu.Result) (h : Alu.signedMultiply m x y = .ok r) :
    WordOf r.value (x.toInt * y.toInt) ∧
    (r.flags.sign = true ↔ r.value.toInt < 0) ∧ (r.flags.zero = true ↔ r.value.toNat = 0) ∧
    (r.flags.overflow = true ↔ ¬ FitsSigned (x.toInt * y.toInt)) ∧ r.flags.carry = false := by
  have hv := wordOf_mul x y
  have hm := BitVec.toInt_mul x y
  have bx := toInt_bounds x
  unfold Alu.signedMultiply smul at h
  split at h
  · simp [bind, Except.bind] at h
  rename_i hst
  simp only [bind, Except.bind, pure, Except.pure] at h
  by_cases hx : x = 0
  · subst hx
    simp at h
    subst h
    simp [WordOf, FitsSigned]
  by_cases hy : y = 0
  · subst hy
    simp at h
    subst h
    simp [WordOf, FitsSigned]
  simp only [hx, hy, ne_eq, not_false_eq_true, and_self, if_true, decide_true, Bool.true_and] at h
  unfold sdivC at h
  by_cases hdef : y = 0 ∨ (x * y = BitVec.intMin 64 ∧ y = -1)
  · rw [if_pos hdef] at h; simp at h
  rw [if_neg hdef] at h
  simp only [Except.ok.injEq] at h
  subst h
  refine ⟨hv, by simp, dec_zero _, ?_, rfl⟩
  simp only [decide_eq_true_eq]
  have hq : ((x * y).sdiv y).toInt = (x * y).toInt.tdiv y.toInt := by
    apply BitVec.toInt_sdiv_of_ne_or_ne
    by_cases h1 : x * y = BitVec.intMin 64
    · right; intro h2; exact hdef (Or.inr ⟨h1, h2⟩)
    · left; exact h1
  rw [← BitVec.toInt_inj, hq]
  have hy' : y.toInt ≠ 0 := fun e => hy ((zero_iff_toInt y).mpr e)
  have bm := toInt_bounds (x * y)
  constructor
  · intro hne hfit
    apply hne
    have : (x * y).toInt = x.toInt * y.toInt := by
      rw [hm]; unfold FitsSigned at hfit
      have := bmod64_cases (x.toInt * y.toInt) (by omega) (by omega)
      omega
    rw [this, Int.mul_tdiv_cancel _ hy']
  · intro hnf he
    apply hnf
    -- |x*y as integer| ≤ |stored product| since x = stored / y
    have h1 : x.toInt * y.toInt = (x * y).toInt - (x * y).toInt.tmod y.toInt := by
      have := Int.tdiv_mul_add_tmod (x * y).toInt y.toInt
      rw [← he] at this; omega
    have hr : (x * y).toInt.tmod y.toInt = 0 := by
      -- stored ≡ x*y (mod 2^64) and |stored - x*y| < |y| ≤ 2^63
      have hlt : ((x * y).toInt.tmod y.toInt).natAbs < y.toInt.natAbs := by
        rw [Int.natAbs_tmod]; exact Nat.mod_lt _ (by omega)
      have by' := toInt_bounds y
      have hd := (wordOf_iff_bmod (x*y) (x.toInt * y.toInt)).mpr hm
      have hd2 := wordOf_toInt (x*y)
      unfold WordOf at hd hd2
      omega
    unfold FitsSigned; omega

/-- C04 (IMUL), definedness. Under ISO C++ exactly when the product fits; with wrap-around compilation always except
for INT64_MIN times -1 (where the overflow test itself divides INT64_MIN by -1), see the finding below. -/
theorem C04_imul_defined (x y : Word) :
    ((∃ r, Alu.signedMultiply .strict x y = .ok r) ↔ FitsSigned (x.toInt * y.toInt)) ∧
    ((∃ r, Alu.signedMultiply .wrap x y = .ok r) ↔ ¬ (x.toInt = -2^63 ∧ y.toInt = -1)) := by
  have bx := toInt_bounds x
  have hm := BitVec.toInt_mul x y
  have key : y = -1 → x * y = BitVec.intMin 64 → x = BitVec.intMin 64 := by
    intro h1 h2
    subst h1
    have : x = -(BitVec.intMin 64) := by
      rw [← h2]; simp only [BitVec.mul_neg]; simp
    rw [this]; decide
  constructor
  · unfold Alu.signedMultiply
    by_cases h : FitsSigned (x.toInt * y.toInt)
    · simp only [h, smul_strict_ok h, bind, Except.bind, pure, Except.pure, iff_true]
      by_cases hxy : x ≠ 0 ∧ y ≠ 0
      · rw [if_pos hxy]; simp only [sdivC]
        have hno : ¬ (y = 0 ∨ (x * y = BitVec.intMin 64 ∧ y = -1)) := by
          rintro (h0 | ⟨h1, h2⟩)
          · exact hxy.2 h0
          · have := key h2 h1
            rw [(intMin_iff x).mp this, (negOne_iff y).mp h2] at h
            unfold FitsSigned at h
            omega
        rw [if_neg hno]; exact ⟨_, rfl⟩
      · rw [if_neg hxy]; exact ⟨_, rfl⟩
    · simp [bind, Except.bind, h, smul_strict_err h]
  · unfold Alu.signedMultiply
    simp only [smul_wrap, bind, Except.bind, pure, Except.pure]
    by_cases hxy : x ≠ 0 ∧ y ≠ 0
    · rw [if_pos hxy]; simp only [sdivC]
      by_cases hb : y = 0 ∨ (x * y = BitVec.intMin 64 ∧ y = -1)
      · have : x.toInt = -2^63 ∧ y.toInt = -1 := by
          rcases hb with h0 | ⟨h1, h2⟩
          · exact absurd h0 hxy.2
          · exact ⟨(intMin_iff x).mp (key h2 h1), (negOne_iff y).mp h2⟩
        rw [if_pos hb]; simp [this]
      · have : ¬ (x.toInt = -2^63 ∧ y.toInt = -1) := by
          rintro ⟨h1, h2⟩
          apply hb; right
          have e1 := (intMin_iff x).mpr h1
          have e2 := (negOne_iff y).mpr h2
          rw [e1, e2]; decide
        rw [if_neg hb]; exact ⟨fun _ => this, fun _ => ⟨_, rfl⟩⟩
    · have : ¬ (x.toInt = -2^63 ∧ y.toInt = -1) := by
        rintro ⟨h1, h2⟩
        apply hxy
        rw [ne_eq, zero_iff_toInt, ne_eq, zero_iff_toInt]; omega
      rw [if_neg hxy]; exact ⟨fun _ => this, fun _ => ⟨_, rfl⟩⟩

/-- Finding: IMUL INT64_MIN, -1 kills the VM even when signed overflow wraps. -/
theorem C04_imul_min_neg_one_undefined : Alu.signedMultiply .wrap (BitVec.intMin 64) (-1) = .error .ub := by decide

/-- C04 (AND, OR, XOR, NOT): bit by bit, carry and overflow cleared. -/
theorem C04_bitwise (x y : Word) :
    (∃ r, Alu.bitAnd x y = .ok r ∧ (∀ i, bit r.value i = (bit x i && bit y i)) ∧
      (r.flags.sign = true ↔ r.value.toInt < 0) ∧ (r.flags.zero = true ↔ r.value.toNat = 0) ∧
      r.flags.carry = false ∧ r.flags.overflow = false) ∧
    (∃ r, Alu.bitOr x y = .ok r ∧ (∀ i, bit r.value i = (bit x i || bit y i)) ∧
      (r.flags.sign = true ↔ r.value.toInt < 0) ∧ (r.flags.zero = true ↔ r.value.toNat = 0) ∧
      r.flags.carry = false ∧ r.flags.overflow = false) ∧
    (∃ r, Alu.bitXor x y = .ok r ∧ (∀ i, bit r.value i = (bit x i ^^ bit y i)) ∧
      (r.flags.sign = true ↔ r.value.toInt < 0) ∧ (r.flags.zero = true ↔ r.value.toNat = 0) ∧
      r.flags.carry = false ∧ r.flags.overflow = false) ∧
    (∃ r, Alu.bitNot x = .ok r ∧ (∀ i, i < 64 → bit r.value i = !bit x i) ∧
      (r.flags.sign = true ↔ r.value.toInt < 0) ∧ (r.flags.zero = true ↔ r.value.toNat = 0) ∧
      r.flags.carry = false ∧ r.flags.overflow = false) := by
  refine ⟨⟨_, rfl, ?_, plain_sign _, plain_zero _, rfl, rfl⟩,
    ⟨_, rfl, ?_, plain_sign _, plain_zero _, rfl, rfl⟩,
    ⟨_, rfl, ?_, plain_sign _, plain_zero _, rfl, rfl⟩,
    ⟨_, rfl, ?_, plain_sign _, plain_zero _, rfl, rfl⟩⟩
  · intro i; simp [Alu.plain, bit]
  · intro i; simp [Alu.plain, bit]
  · intro i; simp [Alu.plain, bit]
  · intro i hi
    have : (~~~x).getLsbD i = !x.getLsbD i := by simp [hi]
    simpa [Alu.plain, bit, BitVec.getLsbD] using this

/-- C04 (LSH): defined exactly for counts 1..63; the result is `x * 2^y` modulo 2^64 and carry is the last bit
shifted out. -/
theorem C04_lsh (x y : Word) :
    (¬ (1 ≤ y.toInt ∧ y.toInt ≤ 63) → Alu.bitLeftShift x y = .error .ub) ∧
    (1 ≤ y.toInt ∧ y.toInt ≤ 63 → ∃ r, Alu.bitLeftShift x y = .ok r ∧
      WordOf r.value (x.toInt * 2 ^ y.toNat) ∧
      (r.flags.sign = true ↔ r.value.toInt < 0) ∧ (r.flags.zero = true ↔ r.value.toNat = 0) ∧
      r.flags.carry = bit x (64 - y.toNat) ∧ r.flags.overflow = false) := by
  have hy1 : (y - 1).toInt = Int.bmod (y.toInt - 1) (2^64) := by rw [BitVec.toInt_sub]; rfl
  have by' := toInt_bounds y
  have hb := bmod64_cases (y.toInt - 1) (by omega) (by omega)
  constructor
  · intro h
    unfold Alu.bitLeftShift shlC
    by_cases h0 : 0 ≤ y.toInt ∧ y.toInt < 64
    · have : ¬ (0 ≤ (y - 1).toInt ∧ (y - 1).toInt < 64) := by omega
      have h64 : y.toInt ≤ 64 := by omega
      rw [if_pos h0, if_neg this]; simp only [h64, if_true]; rfl
    · simp [h0, bind, Except.bind]
  · intro h
    have h0 : 0 ≤ y.toInt ∧ y.toInt < 64 := by omega
    have h1 : 0 ≤ (y - 1).toInt ∧ (y - 1).toInt < 64 := by omega
    have h64 : y.toInt ≤ 64 := by omega
    have hyn : y.toInt = y.toNat := by rcases toInt_cases y with h | h <;> omega
    have hyn1 : (y - 1).toNat = y.toNat - 1 := by
      rcases toInt_cases (y - 1) with h | h <;> omega
    refine ⟨⟨x <<< y.toNat, ⟨decide ((x <<< y.toNat).toInt < 0), decide (x <<< y.toNat = 0),
      decide ((x <<< (y - 1).toNat).toInt < 0), false⟩⟩, ?_, ?_, by simp, dec_zero _,
      ?_, rfl⟩
    · simp only [Alu.bitLeftShift, shlC, h0, h1, h64, bind, Except.bind, pure, Except.pure]
      simp
    · show WordOf (x <<< y.toNat) _
      rw [wordOf_iff_bmod, BitVec.toInt_shiftLeft, Nat.shiftLeft_eq]
      rcases toInt_cases x with ⟨h, -⟩ | ⟨h, -⟩
      · rw [h, Int.natCast_mul, Int.natCast_pow]; rfl
      · rw [h, Int.sub_mul]
        have : (x.toNat : Int) * 2 ^ y.toNat - 2 ^ 64 * 2 ^ y.toNat = (x.toNat : Int) * 2 ^ y.toNat + ((2^64 : Nat) : Int) * (-(2 ^ y.toNat)) := by
          rw [Int.mul_neg, ← Int.sub_eq_add_neg]; rfl
        rw [this, Int.natCast_mul, Int.natCast_pow]
        exact (Int.add_mul_bmod_self_left _ _ _).symm
    · show decide ((x <<< (y - 1).toNat).toInt < 0) = _
      have := BitVec.msb_eq_toInt (x := x <<< (y - 1).toNat)
      rw [← this, BitVec.msb_shiftLeft, BitVec.getMsbD, hyn1]
      have h2 : y.toNat - 1 < 64 := by omega
      have h3 : 64 - 1 - (y.toNat - 1) = 64 - y.toNat := by omega
      simp [h2, h3, bit, BitVec.getLsbD]

/-- C04 (RSH): defined exactly for counts 1..63; the result is the signed value divided by `2^y` rounded down and
carry is the last bit shifted out. -/
theorem C04_rsh (x y : Word) :
    (¬ (1 ≤ y.toInt ∧ y.toInt ≤ 63) → Alu.bitRightShift x y = .error .ub) ∧
    (1 ≤ y.toInt ∧ y.toInt ≤ 63 → ∃ r, Alu.bitRightShift x y = .ok r ∧
      r.value.toInt = x.toInt / 2 ^ y.toNat ∧
      (r.flags.sign = true ↔ r.value.toInt < 0) ∧ (r.flags.zero = true ↔ r.value.toNat = 0) ∧
      r.flags.carry = bit x (y.toNat - 1) ∧ r.flags.overflow = false) := by
  have hy1 : (y - 1).toInt = Int.bmod (y.toInt - 1) (2^64) := by rw [BitVec.toInt_sub]; rfl
  have by' := toInt_bounds y
  have hb := bmod64_cases (y.toInt - 1) (by omega) (by omega)
  constructor
  · intro h
    unfold Alu.bitRightShift sarC
    by_cases h0 : 0 ≤ y.toInt ∧ y.toInt < 64
    · have : ¬ (0 ≤ (y - 1).toInt ∧ (y - 1).toInt < 64) := by omega
      have h64 : y.toInt ≤ 64 := by omega
      rw [if_pos h0, if_neg this]; simp only [h64, if_true]; rfl
    · simp [h0, bind, Except.bind]
  · intro h
    have h0 : 0 ≤ y.toInt ∧ y.toInt < 64 := by omega
    have h1 : 0 ≤ (y - 1).toInt ∧ (y - 1).toInt < 64 := by omega
    have h64 : y.toInt ≤ 64 := by omega
    have hyn : y.toInt = y.toNat := by rcases toInt_cases y with h | h <;> omega
    have hyn1 : (y - 1).toNat = y.toNat - 1 := by
      rcases toInt_cases (y - 1) with h | h <;> omega
    refine ⟨⟨x.sshiftRight y.toNat, ⟨decide ((x.sshiftRight y.toNat).toInt < 0), decide (x.sshiftRight y.toNat = 0),
      decide (x.sshiftRight (y - 1).toNat &&& 1 ≠ 0), false⟩⟩, ?_, ?_, by simp, dec_zero _,
      ?_, rfl⟩
    · simp only [Alu.bitRightShift, sarC, h0, h1, h64, bind, Except.bind, pure, Except.pure]
      simp
    · show (x.sshiftRight y.toNat).toInt = _
      rw [BitVec.toInt_sshiftRight, Int.shiftRight_eq_div_pow, Int.natCast_pow]; rfl
    · show decide (x.sshiftRight (y - 1).toNat &&& 1 ≠ 0) = _
      have hw : ∀ w : Word, decide (w &&& 1 ≠ 0) = w.getLsbD 0 := by
        intro w
        have e : (w &&& 1).toNat = w.toNat % 2 := by
          rw [BitVec.toNat_and]; exact Nat.and_one_is_mod _
        rw [Bool.eq_iff_iff, decide_eq_true_eq, ne_eq, word_zero_iff, e]
        show _ ↔ w.toNat.testBit 0 = true
        rw [Nat.testBit_zero, decide_eq_true_eq]; omega
      rw [hw, BitVec.getLsbD_sshiftRight, hyn1]
      have h2 : y.toNat - 1 < 64 := by omega
      simp [h2, bit, BitVec.getLsbD]

/-- Non-vacuity of C04 on non-trivial operands. -/
example : (∃ r, Alu.bitRightShift (-5) 1 = .ok r ∧ r.value.toInt = -3 ∧ r.flags.carry = true) ∧
    (∃ r, Alu.signedMultiply .wrap 0x4000000000000000 2 = .ok r ∧ r.flags.overflow = true) ∧
    (∃ r, Alu.multiply 0x8000000000000000 2 = .ok r ∧ r.flags.carry = true ∧ r.flags.zero = true) ∧
    (∃ r, Alu.mod (-7) 3 = .ok r ∧ r.value.toInt = -1) ∧
    (∃ r, Alu.bitLeftShift 0x4000000000000001 2 = .ok r ∧ r.value = 4 ∧ r.flags.carry = true) := by
  refine ⟨⟨_, rfl, by decide, by decide⟩, ⟨_, rfl, by decide⟩, ⟨_, rfl, by decide, by decide⟩, ⟨_, rfl, by decide⟩, ⟨_, rfl, by decide, by decide⟩⟩

/-! ## C05 -/

/-- C05. Encoding into the FLAGS register and decoding gives back the four flags. -/
theorem C05_flags_roundtrip (f : Flags) : Alu.flagsOfWord (Alu.flagsToWord f) = f := flags_roundtrip f

/-- C05. The encoding is the documented bit layout: sign, zero, carry, overflow in bits 0..3, nothing else. -/
theorem C05_layout (f : Flags) :
    bit (Alu.flagsToWord f) 0 = f.sign ∧ bit (Alu.flagsToWord f) 1 = f.zero ∧
    bit (Alu.flagsToWord f) 2 = f.carry ∧ bit (Alu.flagsToWord f) 3 = f.overflow ∧
    ∀ i, 4 ≤ i → bit (Alu.flagsToWord f) i = false := by
  have key : ∀ i, 4 ≤ i → (Alu.flagsToWord f).toNat.testBit i = false := by
    intro i hi
    apply Nat.testBit_lt_two_pow
    refine Nat.lt_of_lt_of_le (show _ < 2^4 from ?_) (Nat.pow_le_pow_right (by decide) hi)
    rcases f with ⟨a, b, c, d⟩; cases a <;> cases b <;> cases c <;> cases d <;> decide
  refine ⟨?_, ?_, ?_, ?_, key⟩ <;>
    (rcases f with ⟨a, b, c, d⟩; cases a <;> cases b <;> cases c <;> cases d <;> decide)

/-- C05. Decoding reads bits 0..3 of the word and nothing else. -/
theorem C05_decode (w : Word) : Alu.flagsOfWord w = ⟨bit w 0, bit w 1, bit w 2, bit w 3⟩ := by
  have h : ∀ (i : Nat) (k : Word), i < 64 → k = BitVec.twoPow 64 i → ((w &&& k) != 0) = bit w i := by
    intro i k hi hk
    subst hk
    rw [Bool.eq_iff_iff, bne_iff_ne, ne_eq, BitVec.and_twoPow]
    by_cases hb : w.getLsbD i
    · simp only [hb, bit]
      have : w.toNat.testBit i = true := hb
      simp only [this, iff_true, if_true]
      intro hc
      have h2 : (BitVec.twoPow 64 i).getLsbD i = true := by simp [hi]
      rw [hc] at h2
      simp at h2
    · have : w.toNat.testBit i = false := by simpa [BitVec.getLsbD] using hb
      simp [hb, bit, this]
  unfold Alu.flagsOfWord
  rw [h 0 0x1 (by decide) (by decide), h 1 0x2 (by decide) (by decide), h 2 0x4 (by decide) (by decide),
    h 3 0x8 (by decide) (by decide)]

/-- Non-vacuity of C05: two words agreeing in the low four bits decode alike. -/
example : Alu.flagsOfWord 0xfffffffffffffff5 = ⟨true, false, true, false⟩ ∧ Alu.flagsToWord ⟨true, false, true, false⟩ = 5 := by
  decide

/-- C05. For every content of the FLAGS register, after whatever instruction, each conditional jump tests the flags as the table
in docs/t86-isa.md:191-270 says; SF, ZF, CF, OF are bits 0 to 3. For JLE the table says `ZF == 1 && SF != OF`, which is a misprint
for what is stated here (`C05_jle_table`). -/
theorem C05_conditions (w : Word) :
    Cond.jz.taken w = (bit w 1 == true) ∧ Cond.jnz.taken w = (bit w 1 == false) ∧
    Cond.je.taken w = (bit w 1 == true) ∧ Cond.jne.taken w = (bit w 1 != true) ∧
    Cond.jg.taken w = (bit w 1 == false && bit w 0 == bit w 3) ∧ Cond.jge.taken w = (bit w 0 == bit w 3) ∧
    Cond.jl.taken w = (bit w 0 != bit w 3) ∧ Cond.jle.taken w = (bit w 1 == true || bit w 0 != bit w 3) ∧
    Cond.ja.taken w = (bit w 2 == false && bit w 1 == false) ∧ Cond.jae.taken w = (bit w 2 == false) ∧
    Cond.jb.taken w = (bit w 2 == true) ∧ Cond.jbe.taken w = (bit w 2 == true || bit w 1 == true) ∧
    Cond.jo.taken w = (bit w 3 == true) ∧ Cond.jno.taken w = (bit w 3 == false) ∧
    Cond.js.taken w = (bit w 0 == true) ∧ Cond.jns.taken w = (bit w 0 == false) := by
  simp only [Cond.taken, C05_decode]
  generalize bit w 0 = a
  generalize bit w 1 = b
  generalize bit w 2 = c
  generalize bit w 3 = d
  revert a b c d
  decide

/-- The condition the table gives for JLE is not the one the machine tests, and would be wrong: after comparing 1 with 1 or 1 with
2 the jump is taken, as it should be, although not both of `ZF == 1` and `SF != OF` hold. -/
theorem C05_jle_table : ∃ x y : Word, ∃ r, Alu.subtract .strict x y = .ok r ∧ x.toInt ≤ y.toInt ∧
    Cond.jle.taken (Alu.flagsToWord r.flags) = true ∧
    (bit (Alu.flagsToWord r.flags) 1 == true && bit (Alu.flagsToWord r.flags) 0 != bit (Alu.flagsToWord r.flags) 3) = false :=
  ⟨1, 2, _, rfl, by decide, by decide, by decide⟩

end T86
