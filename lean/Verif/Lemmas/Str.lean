import Verif.Model.Str

/-! # Facts about the string helpers -/

set_option linter.unusedSimpArgs false
set_option linter.unusedVariables false

namespace T86
namespace Str

theorem takeWhile_not_mem (d : Char) (s : Str) : ∀ x ∈ s.takeWhile (· != d), (x == d) = false := by
  induction s with
  | nil => simp
  | cons c s ih =>
    intro x hx
    by_cases h : c = d
    · subst h; simp at hx
    · have : (c != d) = true := by simp [h]
      rw [List.takeWhile_cons_of_pos (by simpa using h)] at hx
      rcases List.mem_cons.1 hx with hx | hx
      · subst hx; simpa using h
      · exact ih x hx

theorem dropWhile_head (d : Char) (s : Str) (x : Char) (r : Str) (h : s.dropWhile (· != d) = x :: r) : x = d := by
  induction s with
  | nil => simp at h
  | cons c s ih =>
    by_cases hc : c = d
    · subst hc
      rw [List.dropWhile_cons_of_neg (by simp)] at h
      exact (List.cons.inj h).1.symm
    · rw [List.dropWhile_cons_of_pos (by simpa using hc)] at h
      exact ih h

theorem split_parts (d : Char) (s : Str) (x : Char) (r : Str) (h : s.dropWhile (· != d) = x :: r) :
    s = s.takeWhile (· != d) ++ d :: r := by
  have h1 := dropWhile_head d s x r h
  subst h1
  conv => lhs; rw [← List.takeWhile_append_dropWhile (p := (· != x)) (l := s)]
  rw [h]

theorem split_all (d : Char) (s : Str) (h : s.dropWhile (· != d) = []) : s.takeWhile (· != d) = s := by
  conv => rhs; rw [← List.takeWhile_append_dropWhile (p := (· != d)) (l := s)]
  rw [h, List.append_nil]

theorem splitLoop_eq (d : Char) : ∀ (n : Nat) (s : Str), s.length < n →
    splitLoop d n s = (s.splitOn d).filter (fun l => !l.isEmpty) := by
  intro n
  induction n with
  | zero => intro s h; omega
  | succ n ih =>
    intro s hs
    rw [splitLoop]
    by_cases h0 : s = []
    · subst h0; simp
    · have h0' : s.isEmpty = false := by cases s <;> simp_all
      simp only [h0', Bool.false_eq_true, if_false]
      cases hd : s.dropWhile (· != d) with
      | nil =>
        have hall := split_all d s hd
        have := takeWhile_not_mem d s
        rw [hall] at this
        simp only
        rw [List.splitOn_eq_singleton_of_beq_eq_false this]
        simp [h0']
      | cons x r =>
        have hp := split_parts d s x r hd
        have hm := takeWhile_not_mem d s
        simp only
        have hr : r.length < n := by
          have := congrArg List.length hp
          simp at this
          omega
        rw [ih r hr]
        conv => rhs; rw [hp]
        rw [List.splitOn_append_cons_self, List.splitOn_eq_singleton_of_beq_eq_false hm]
        simp only [List.singleton_append, List.filter_cons]
        cases s.takeWhile (· != d) <;> simp

theorem join_eq (j : Str) : ∀ l : List Str, join j l = j.intercalate l
  | [] => by simp [join, List.intercalate]
  | [x] => by simp [join, List.intercalate]
  | x :: y :: l => by
    have := join_eq j (y :: l)
    rw [join]
    simp only [List.length_cons, Nat.add_eq_zero_iff, Nat.succ_ne_self, and_false, bne_iff_ne, ne_eq, not_false_eq_true,
      if_true, this, List.intercalate, List.intersperse, List.flatten_cons, List.append_assoc]

theorem prefixLoop_iff (p o : Str) (l : List Nat) : prefixLoop p o l = true ↔ ∀ i ∈ l, p[i]? = o[i]? := by
  induction l with
  | nil => simp [prefixLoop]
  | cons i l ih =>
    rw [prefixLoop]
    by_cases h : p[i]? = o[i]?
    · simp [h, ih]
    · simp [h]

theorem isPrefixOf_iff (p o : Str) : isPrefixOf p o = true ↔ p <+: o := by
  unfold isPrefixOf
  by_cases h : p.length > o.length
  · rw [if_pos h]
    simp only [Bool.false_eq_true, false_iff]
    intro hp
    have := hp.length_le
    omega
  · rw [if_neg h, prefixLoop_iff]
    constructor
    · intro hi
      rw [List.prefix_iff_eq_take]
      apply List.ext_getElem?
      intro i
      by_cases hlt : i < p.length
      · rw [List.getElem?_take_of_lt hlt]
        exact hi i (List.mem_range.2 hlt)
      · rw [List.getElem?_eq_none (by omega), List.getElem?_eq_none (by simp; omega)]
    · rintro ⟨t, rfl⟩ i hi
      rw [List.mem_range] at hi
      rw [List.getElem?_append_left hi]

/-! ## Blanks -/

theorem squash_filter (b : Bool) (s : Str) : (squash b s).filter (fun c => !isSpace c) = s.filter (fun c => !isSpace c) := by
  induction s generalizing b with
  | nil => rfl
  | cons c s ih =>
    rw [squash]
    cases h : isSpace c
    · simp [h, ih]
    · cases b <;> simp [h, ih]

/-! ## Decimal numbers -/

theorem digit_ofNat (n : Nat) (h : n < 10) : digit (Char.ofNat (48 + n)) = n := by
  have : ∀ n : Fin 10, digit (Char.ofNat (48 + n.val)) = n.val := by decide
  exact this ⟨n, h⟩

theorem isDigit_ofNat (n : Nat) (h : n < 10) : isDigit (Char.ofNat (48 + n)) = true := by
  have : ∀ n : Fin 10, isDigit (Char.ofNat (48 + n.val)) = true := by decide
  exact this ⟨n, h⟩

theorem digits_append (a : Str) (c : Char) : digits (a ++ [c]) = 10 * digits a + digit c := by
  simp [digits, List.foldl_append]

theorem natLoop_digits : ∀ (fuel n : Nat), n < fuel → digits (natLoop fuel n) = n := by
  intro fuel
  induction fuel with
  | zero => intro n h; omega
  | succ f ih =>
    intro n h
    rw [natLoop]
    by_cases h10 : n < 10
    · rw [if_pos h10]
      simp [digits, digit_ofNat n h10]
    · rw [if_neg h10, digits_append, ih (n / 10) (by omega), digit_ofNat _ (by omega)]
      omega

theorem natLoop_isDigit : ∀ (fuel n : Nat), ∀ c ∈ natLoop fuel n, isDigit c = true := by
  intro fuel
  induction fuel with
  | zero => simp [natLoop]
  | succ f ih =>
    intro n c hc
    rw [natLoop] at hc
    by_cases h10 : n < 10
    · rw [if_pos h10] at hc
      simp at hc; subst hc
      exact isDigit_ofNat n h10
    · rw [if_neg h10] at hc
      rcases List.mem_append.1 hc with hc | hc
      · exact ih _ c hc
      · simp at hc; subst hc
        exact isDigit_ofNat _ (by omega)

theorem ofNat_digits (n : Nat) : digits (ofNat n) = n := natLoop_digits _ _ (by omega)

theorem ofNat_isDigit (n : Nat) : ∀ c ∈ ofNat n, isDigit c = true := natLoop_isDigit _ _

theorem ofNat_ne_nil (n : Nat) : ofNat n ≠ [] := by
  unfold ofNat
  rw [natLoop]
  split <;> simp

theorem takeWhile_all {p : Char → Bool} {s : Str} (h : ∀ c ∈ s, p c = true) : s.takeWhile p = s := by
  induction s with
  | nil => rfl
  | cons c s ih =>
    rw [List.takeWhile_cons_of_pos (h c (by simp)), ih (fun x hx => h x (by simp [hx]))]

theorem takeWhile_append_stop {p : Char → Bool} {s t : Str} (h : ∀ c ∈ s, p c = true) (ht : ∀ c t', t = c :: t' → p c = false) :
    (s ++ t).takeWhile p = s := by
  induction s with
  | nil =>
    cases t with
    | nil => rfl
    | cons c t => simp [ht c t rfl]
  | cons c s ih =>
    rw [List.cons_append, List.takeWhile_cons_of_pos (h c (by simp)), ih (fun x hx => h x (by simp [hx]))]

theorem dropWhile_append_stop {p : Char → Bool} {s t : Str} (h : ∀ c ∈ s, p c = true) (ht : ∀ c t', t = c :: t' → p c = false) :
    (s ++ t).dropWhile p = t := by
  induction s with
  | nil =>
    cases t with
    | nil => rfl
    | cons c t => simp [ht c t rfl]
  | cons c s ih =>
    rw [List.cons_append, List.dropWhile_cons_of_pos (h c (by simp)), ih (fun x hx => h x (by simp [hx]))]

/-- Reading a printed unsigned number, whatever follows it (unless a digit). -/
theorem toUnsigned_ofNat (n : Nat) (h : n < 2 ^ 64) (t : Str) (ht : ∀ c t', t = c :: t' → isDigit c = false) :
    toUnsigned (ofNat n ++ t) = some n := by
  unfold toUnsigned
  rw [takeWhile_append_stop (ofNat_isDigit n) ht]
  simp only [ofNat_digits, if_pos h]
  cases h : ofNat n with
  | nil => exact absurd h (ofNat_ne_nil n)
  | cons c s => simp

theorem ofNat_head (n : Nat) : ∃ c s, ofNat n = c :: s ∧ isDigit c = true := by
  cases h : ofNat n with
  | nil => exact absurd h (ofNat_ne_nil n)
  | cons c s => exact ⟨c, s, rfl, ofNat_isDigit n c (by rw [h]; simp)⟩

/-- Reading a printed signed number, whatever follows it (unless a digit). -/
theorem toSigned_ofInt (n : Int) (h : -(2 ^ 63) ≤ n ∧ n < 2 ^ 63) (t : Str) (ht : ∀ c t', t = c :: t' → isDigit c = false) :
    toSigned (ofInt n ++ t) = some n := by
  have key : ∀ m : Nat, (ofNat m ++ t).takeWhile isDigit = ofNat m := fun m => takeWhile_append_stop (ofNat_isDigit m) ht
  unfold ofInt
  by_cases hn : n < 0
  · rw [if_pos hn, List.cons_append, toSigned]
    simp only [key, ofNat_digits]
    have h1 : (ofNat n.natAbs).isEmpty = false := by
      cases h : ofNat n.natAbs with
      | nil => exact absurd h (ofNat_ne_nil _)
      | cons c s => rfl
    have h2 : n.natAbs ≤ 2 ^ 63 := by omega
    simp only [h1, Bool.false_eq_true, if_false, if_pos h2]
    congr 1; omega
  · rw [if_neg hn]
    obtain ⟨c, s, hc, hd⟩ := ofNat_head n.natAbs
    have hk := key n.natAbs
    have hm : c ≠ '-' := by rintro rfl; exact absurd hd (by decide)
    have h2 : n.natAbs < 2 ^ 63 := by omega
    have hdg := ofNat_digits n.natAbs
    rw [hc] at hk hdg ⊢
    simp only [List.cons_append] at hk ⊢
    unfold toSigned
    split
    · rename_i heq; exact absurd (List.cons.inj heq).1 hm
    · rw [hk]
      simp only [hdg, if_pos h2, List.isEmpty_cons, Bool.false_eq_true, if_false]
      congr 1; omega

end Str
end T86
