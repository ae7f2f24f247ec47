import Verif.Lemmas.Str

/-! # C25: the string helpers -/

set_option linter.unusedSimpArgs false
set_option linter.unusedVariables false

namespace T86
open Str

/-- C25, split: the pieces between delimiters (`List.splitOn` of Lean's library) without the empty ones. -/
theorem C25_split (s : Str) (d : Char) : split s d = (s.splitOn d).filter (fun l => !l.isEmpty) :=
  splitLoop_eq d _ s (by omega)

/-- C25, join: the pieces with the separator between neighbours (`List.intercalate` of Lean's library). -/
theorem C25_join (j : Str) (l : List Str) : join j l = j.intercalate l := join_eq j l

/-- C25: splitting the join of non-empty pieces without the delimiter gives the pieces back. -/
theorem C25_split_join (d : Char) (l : List Str) (hl : ∀ p ∈ l, p ≠ [] ∧ d ∉ p) : split (join [d] l) d = l := by
  rw [C25_split, C25_join]
  by_cases h : l = []
  · subst h; simp [List.intercalate]
  · rw [List.splitOn_intercalate d (fun p hp => (hl p hp).2) h]
    rw [List.filter_eq_self]
    intro p hp
    have := (hl p hp).1
    cases p <;> simp_all

/-- C25: and a delimiter after every piece, as in the replies of the debug interface, changes nothing. -/
theorem C25_split_terminated (d : Char) (l : List Str) (hl : ∀ p ∈ l, p ≠ [] ∧ d ∉ p) :
    split ((l.map (· ++ [d])).flatten) d = l := by
  rw [C25_split]
  induction l with
  | nil => simp
  | cons p l ih =>
    have hp := hl p (by simp)
    rw [List.map_cons, List.flatten_cons, List.append_assoc, List.singleton_append,
      List.splitOn_append_cons_self, List.splitOn_eq_singleton hp.2, List.singleton_append,
      List.filter_cons, ih (fun q hq => hl q (by simp [hq]))]
    have := hp.1
    cases p <;> simp_all

/-- C25: `is_prefix_of` decides the prefix relation. -/
theorem C25_prefix (p o : Str) : isPrefixOf p o = true ↔ ∃ r, o = p ++ r := by
  rw [isPrefixOf_iff]
  exact ⟨fun ⟨r, h⟩ => ⟨r, h.symm⟩, fun ⟨r, h⟩ => ⟨r, h.symm⟩⟩

/-- The words of a text: its maximal runs of characters that are not blank. -/
def words (s : Str) : List Str := (s.splitOnP isSpace).filter (fun l => !l.isEmpty)

theorem words_space (c : Char) (s : Str) (h : isSpace c = true) : words (c :: s) = words s := by
  unfold words
  rw [List.splitOnP_cons_eq_if_modifyHead, if_pos h]
  simp

theorem words_dropWhile (s : Str) : words (s.dropWhile isSpace) = words s := by
  induction s with
  | nil => rfl
  | cons c s ih =>
    cases h : isSpace c
    · rw [List.dropWhile_cons_of_neg (by simp [h])]
    · rw [List.dropWhile_cons_of_pos h, ih, words_space c s h]

theorem words_append_space (s : Str) (c : Char) (h : isSpace c = true) : words (s ++ [c]) = words s := by
  unfold words
  rw [List.splitOnP_append_cons s [] h]
  simp

theorem words_reverse_dropWhile (s : Str) : words (s.reverse.dropWhile isSpace).reverse = words s := by
  have : ∀ r : Str, words (r.dropWhile isSpace).reverse = words r.reverse := by
    intro r
    induction r with
    | nil => rfl
    | cons c r ih =>
      cases h : isSpace c
      · rw [List.dropWhile_cons_of_neg (by simp [h])]
      · rw [List.dropWhile_cons_of_pos h, ih, List.reverse_cons, words_append_space _ c h]
  have h := this s.reverse
  rwa [List.reverse_reverse] at h

theorem words_squash (s : Str) : words (squash true s) = words s ∧
    ((squash false s).splitOnP isSpace).head? = (s.splitOnP isSpace).head? ∧
    ((squash false s).splitOnP isSpace).tail.filter (fun l => !l.isEmpty) =
      (s.splitOnP isSpace).tail.filter (fun l => !l.isEmpty) := by
  induction s with
  | nil => exact ⟨rfl, rfl, rfl⟩
  | cons c s ih =>
    obtain ⟨i1, i2, i3⟩ := ih
    cases h : isSpace c
    · have hn : squash true (c :: s) = c :: squash false s := by rw [squash]; simp [h]
      have hn' : squash false (c :: s) = c :: squash false s := by rw [squash]; simp [h]
      have e1 : ∀ t, (c :: t).splitOnP isSpace = (t.splitOnP isSpace).modifyHead (c :: ·) := by
        intro t
        rw [List.splitOnP_cons_eq_if_modifyHead, if_neg (by simp [h])]
      have e2 : ∃ x l l', (squash false s).splitOnP isSpace = x :: l ∧ s.splitOnP isSpace = x :: l' ∧
          l.filter (fun l => !l.isEmpty) = l'.filter (fun l => !l.isEmpty) := by
        cases h1 : (squash false s).splitOnP isSpace with
        | nil => exact absurd h1 (List.splitOnP_ne_nil _ _)
        | cons x l =>
          cases h2 : s.splitOnP isSpace with
          | nil => exact absurd h2 (List.splitOnP_ne_nil _ _)
          | cons x' l' =>
            rw [h1, h2] at i2 i3
            simp at i2 i3
            exact ⟨x, l, l', rfl, by rw [i2], i3⟩
      obtain ⟨x, l, l', h1, h2, h3⟩ := e2
      rw [hn, hn']
      unfold words
      rw [e1, e1, h1, h2]
      simp [h3]
    · have hn : squash true (c :: s) = squash true s := by rw [squash]; simp [h]
      have hn' : squash false (c :: s) = c :: squash true s := by rw [squash]; simp [h]
      have e1 : ∀ t, (c :: t).splitOnP isSpace = [] :: t.splitOnP isSpace := by
        intro t
        rw [List.splitOnP_cons_eq_if_modifyHead, if_pos h]
      rw [hn, hn', words_space c s h, e1, e1]
      exact ⟨i1, rfl, i1⟩

/-- C25: squashing keeps the words of the text. -/
theorem C25_squash_words (s : Str) : words (squashStrip s) = words s := by
  unfold squashStrip
  rw [(words_squash _).1, words_dropWhile, words_reverse_dropWhile]

/-- A text without leading, trailing and adjacent blanks. -/
def Tidy (s : Str) : Prop :=
  (∀ c t, s = c :: t → isSpace c = false) ∧ (∀ c t, s = t ++ [c] → isSpace c = false) ∧
  ∀ a b t u, s = t ++ a :: b :: u → isSpace a = true → isSpace b = false

theorem squash_true_head (s : Str) : ∀ c t, squash true s = c :: t → isSpace c = false := by
  induction s with
  | nil => intro c t h; simp [squash] at h
  | cons x s ih =>
    intro c t h
    rw [squash] at h
    cases hx : isSpace x
    · simp [hx] at h; rw [← h.1, hx]
    · simp [hx] at h; exact ih c t h

theorem squash_adjacent (s : Str) : ∀ b0 a b t u, squash b0 s = t ++ a :: b :: u → isSpace a = true → isSpace b = false := by
  induction s with
  | nil => intro b0 a b t u h; simp [squash] at h
  | cons x s ih =>
    intro b0 a b t u h ha
    rw [squash] at h
    cases hx : isSpace x
    · simp [hx] at h
      cases t with
      | nil => simp at h; rw [h.1] at hx; exact absurd (hx.symm.trans ha) (by simp)
      | cons y t => simp at h; exact ih _ a b t u h.2 ha
    · cases b0
      · simp [hx] at h
        cases t with
        | nil => simp at h; exact squash_true_head s b u h.2
        | cons y t => simp at h; exact ih _ a b t u h.2 ha
      · simp [hx] at h
        exact ih _ a b t u h ha

theorem squash_last (s : Str) : ∀ b0, (∀ c t, s = t ++ [c] → isSpace c = false) →
    ∀ c t, squash b0 s = t ++ [c] → isSpace c = false := by
  induction s with
  | nil => intro b0 hs c t h; simp [squash] at h
  | cons x s ih =>
    intro b0 hs c t h
    have hs' : ∀ c t, s = t ++ [c] → isSpace c = false := fun c t e => hs c (x :: t) (by rw [e]; rfl)
    rw [squash] at h
    cases hx : isSpace x
    · simp [hx] at h
      cases t with
      | nil => simp at h; rw [← h.1, hx]
      | cons y t => simp at h; exact ih _ hs' c t h.2
    · have hne : s ≠ [] := by
        rintro rfl
        have := hs x [] rfl
        rw [hx] at this; exact absurd this (by simp)
      have hex : ∃ c t, s = t ++ [c] := by
        refine ⟨s.getLast hne, s.dropLast, ?_⟩
        rw [List.dropLast_concat_getLast hne]
      cases b0
      · simp [hx] at h
        cases t with
        | nil =>
          simp at h
          -- a blank is never the last one: `s` has a character that is kept
          obtain ⟨c', t', rfl⟩ := hex
          have hc' := hs' c' t' rfl
          have : words (squash true (t' ++ [c'])) = words (t' ++ [c']) := (words_squash _).1
          rw [h.2] at this
          have h0 : (t' ++ [c']).filter (fun c => !isSpace c) = [] := by
            rw [← squash_filter true, h.2]; rfl
          simp [hc'] at h0
        | cons y t => simp at h; exact ih _ hs' c t h.2
      · simp [hx] at h
        exact ih _ hs' c t h

theorem dropWhile_last (s : Str) : (∀ c t, s = t ++ [c] → isSpace c = false) →
    ∀ c t, s.dropWhile isSpace = t ++ [c] → isSpace c = false := by
  induction s with
  | nil => intro _ c t h; simp at h
  | cons x s ih =>
    intro hs c t h
    cases hx : isSpace x
    · rw [List.dropWhile_cons_of_neg (by simp [hx])] at h
      exact hs c t h
    · rw [List.dropWhile_cons_of_pos hx] at h
      exact ih (fun c t e => hs c (x :: t) (by rw [e]; rfl)) c t h

theorem strip_last (s : Str) : ∀ c t, (s.reverse.dropWhile isSpace).reverse = t ++ [c] → isSpace c = false := by
  intro c t h
  have h' : s.reverse.dropWhile isSpace = c :: t.reverse := by
    have := congrArg List.reverse h
    simpa using this
  have : ∀ r : Str, ∀ c t, r.dropWhile isSpace = c :: t → isSpace c = false := by
    intro r
    induction r with
    | nil => intro c t h; simp at h
    | cons x r ih =>
      intro c t h
      cases hx : isSpace x
      · rw [List.dropWhile_cons_of_neg (by simp [hx])] at h
        rw [← (List.cons.inj h).1, hx]
      · rw [List.dropWhile_cons_of_pos hx] at h
        exact ih c t h
  exact this _ c _ h'

/-- C25: the squashed text has no leading, trailing or adjacent blanks. -/
theorem C25_squash_tidy (s : Str) : Tidy (squashStrip s) := by
  refine ⟨?_, ?_, ?_⟩
  · exact fun c t h => squash_true_head _ c t h
  · exact fun c t h => squash_last _ true (dropWhile_last _ (strip_last s)) c t h
  · exact fun a b t u h ha => squash_adjacent _ _ a b t u h ha

theorem squash_id (s : Str) : ∀ b0, (b0 = true → ∀ c t, s = c :: t → isSpace c = false) →
    (∀ a b t u, s = t ++ a :: b :: u → isSpace a = true → isSpace b = false) → squash b0 s = s := by
  induction s with
  | nil => intro _ _ _; rfl
  | cons x s ih =>
    intro b0 h1 h2
    rw [squash]
    have h2' : ∀ a b t u, s = t ++ a :: b :: u → isSpace a = true → isSpace b = false :=
      fun a b t u e => h2 a b (x :: t) u (by rw [e]; rfl)
    cases hx : isSpace x
    · simp only [Bool.not_false, if_true]
      rw [ih false (fun h => by simp at h) h2']
    · have hb : b0 = false := by
        cases b0
        · rfl
        · have := h1 rfl x s rfl
          rw [hx] at this; exact absurd this (by simp)
      subst hb
      simp only [Bool.not_true, Bool.false_eq_true, if_false, Bool.not_false, if_true]
      rw [ih true (fun _ c t e => h2 x c [] t (by rw [e]; rfl) hx) h2']

theorem dropWhile_id (s : Str) (h : ∀ c t, s = c :: t → isSpace c = false) : s.dropWhile isSpace = s := by
  cases s with
  | nil => rfl
  | cons c t => rw [List.dropWhile_cons_of_neg (by simp [h c t rfl])]

/-- C25: tidy texts are left alone. -/
theorem C25_squash_of_tidy (s : Str) (h : Tidy s) : squashStrip s = s := by
  unfold squashStrip
  have h1 : s.reverse.dropWhile isSpace = s.reverse :=
    dropWhile_id _ (fun c t e => h.2.1 c t.reverse (by have := congrArg List.reverse e; simpa using this))
  rw [h1, List.reverse_reverse]
  show squash true (s.dropWhile isSpace) = s
  rw [dropWhile_id s h.1]
  exact squash_id s true (fun _ => h.1) h.2.2

/-- C25: squashing is idempotent. -/
theorem C25_squash_idempotent (s : Str) : squashStrip (squashStrip s) = squashStrip s :=
  C25_squash_of_tidy _ (C25_squash_tidy s)

/-- C25: numbers written by the one side of the debug protocol are read by the other, also with text behind them. -/
theorem C25_unsigned (n : Nat) (h : n < 2 ^ 64) (t : Str) (ht : ∀ c t', t = c :: t' → isDigit c = false) :
    toUnsigned (ofNat n ++ t) = some n := toUnsigned_ofNat n h t ht

theorem C25_signed (n : Int) (h : -(2 ^ 63) ≤ n ∧ n < 2 ^ 63) (t : Str) (ht : ∀ c t', t = c :: t' → isDigit c = false) :
    toSigned (ofInt n ++ t) = some n := toSigned_ofInt n h t ht

/-! Instances. -/

example : split "POKETEXT  5 MOV R0, 1".toList ' ' = ["POKETEXT".toList, "5".toList, "MOV".toList, "R0,".toList, "1".toList] := by
  decide
example : squashStrip "  ab \t c ".toList = "ab c".toList := by decide
example : toSigned (ofInt (-9223372036854775808) ++ "\n".toList) = some (-9223372036854775808) :=
  C25_signed _ (by omega) _ (by intro c t h; cases h; decide)
example : split (join [' '] ["a".toList, "bc".toList]) ' ' = ["a".toList, "bc".toList] :=
  C25_split_join ' ' _ (by decide)

end T86
