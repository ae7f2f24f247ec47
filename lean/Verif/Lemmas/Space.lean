import Verif.Lemmas.Lexer
import Verif.Props.Str

/-! Runs of spaces do not matter to the readers of one instruction. -/

set_option linter.unusedSimpArgs false
set_option linter.unusedVariables false

namespace T86
open Dbg Str

/-- The two texts differ only in the lengths of runs of spaces and in spaces at the end. -/
inductive Sq : Str → Str → Prop
  | nil : Sq [] []
  | cons {c : Char} {s t : Str} (h : Sq s t) : Sq (c :: s) (c :: t)
  | more {s t : Str} (h : Sq s (' ' :: t)) : Sq (' ' :: s) (' ' :: t)
  | left {s : Str} (h : Sq s []) : Sq (' ' :: s) []
  | right : Sq [] [' ']

theorem Sq.nil_left {t : Str} (h : Sq [] t) : t = [] ∨ t = [' '] := by
  cases h with
  | nil => exact Or.inl rfl
  | right => exact Or.inr rfl

namespace Lexer

theorem skip_space (i : Bool) (s : Str) : skip i false (' ' :: s) = skip i false s := by
  rw [skip, if_neg (by decide), if_pos (by decide)]

/-- What is left after skipping is related in the same way and starts with the same character. -/
def SameStart (s t : Str) : Prop := (s = [] ∧ t = []) ∨ ∃ c s' t', s = c :: s' ∧ t = c :: t' ∧ Sq s' t'

theorem sq_skip (i : Bool) {s t : Str} (h : Sq s t) : ∀ b, SameStart (skip i b s) (skip i b t) := by
  induction h with
  | nil => intro b; cases b <;> exact Or.inl ⟨rfl, rfl⟩
  | @cons c s t h ih =>
    intro b
    cases b with
    | true =>
      rw [skip, skip]
      split
      · exact ih false
      · exact ih true
    | false =>
      rw [skip, skip]
      split
      · exact ih true
      · split
        · exact ih false
        · split
          · exact ih false
          · exact Or.inr ⟨c, s, t, rfl, rfl, h⟩
  | @more s t h ih =>
    intro b
    cases b with
    | true =>
      have := ih true
      rw [skip, if_neg (by decide)]
      exact this
    | false =>
      have := ih false
      rw [skip_space]
      exact this
  | @left s h ih =>
    intro b
    cases b with
    | true =>
      have := ih true
      have e : skip i true (' ' :: s) = skip i true s := by rw [skip, if_neg (by decide)]
      rw [e]
      exact this
    | false =>
      have := ih false
      rw [skip_space]
      exact this
  | right =>
    intro b
    cases b with
    | true => rw [skip, skip, if_neg (by decide)]; exact Or.inl ⟨rfl, rfl⟩
    | false => rw [skip_space]; exact Or.inl ⟨rfl, rfl⟩

theorem sq_takeWhile {p : Char → Bool} (hp : p ' ' = false) {s t : Str} (h : Sq s t) : s.takeWhile p = t.takeWhile p := by
  induction h with
  | nil => rfl
  | @cons c s t h ih => rw [List.takeWhile_cons, List.takeWhile_cons, ih]
  | more h ih => rw [List.takeWhile_cons, List.takeWhile_cons, hp]; rfl
  | left h ih => rw [List.takeWhile_cons, hp]; rfl
  | right => rw [List.takeWhile_cons, hp]; rfl

theorem sq_dropWhile {p : Char → Bool} (hp : p ' ' = false) {s t : Str} (h : Sq s t) : Sq (s.dropWhile p) (t.dropWhile p) := by
  induction h with
  | nil => exact .nil
  | @cons c s t h ih =>
    rw [List.dropWhile_cons, List.dropWhile_cons]
    split
    · exact ih
    · exact .cons h
  | more h ih =>
    rw [List.dropWhile_cons, List.dropWhile_cons, hp, if_neg (by decide), if_neg (by decide)]
    exact .more h
  | left h ih =>
    rw [List.dropWhile_cons, hp, if_neg (by decide)]
    exact .left h
  | right => rw [List.dropWhile_cons, hp, if_neg (by decide)]; exact .right

/-- The results of reading a token from the two texts. -/
def SameTok (x y : Except Err (Tok × Str)) : Prop :=
  match x, y with
  | .ok (t, r), .ok (t', r') => t = t' ∧ Sq r r'
  | .error e, .error e' => e = e'
  | _, _ => False

theorem no_space {c : Char} {t : Tok} {l : List (Char × Tok)} (h : double c = some (t, l)) : l.find? (·.1 = ' ') = none := by
  unfold double at h
  split at h <;> cases h <;> rfl

theorem sq_lex (stod : Str → Except Err Word) (i : Bool) {s t : Str} (h : Sq s t) (hq : ∀ c s', skip i false s = c :: s' → c ≠ '"') :
    SameTok (lex stod i s) (lex stod i t) := by
  rcases sq_skip i h false with ⟨h1, h2⟩ | ⟨c, s', t', h1, h2, h3⟩
  · unfold lex
    rw [h1, h2]
    exact ⟨rfl, .nil⟩
  · have hc := hq c s' h1
    unfold lex
    rw [h1, h2]
    simp only
    cases hs : single c with
    | some t => exact ⟨rfl, h3⟩
    | none =>
      simp only
      cases hd : double c with
      | some x =>
        obtain ⟨t, l⟩ := x
        have hn := no_space hd
        simp only
        cases h3 with
        | nil => exact ⟨rfl, .nil⟩
        | @cons d s' t' h3 =>
          simp only
          cases l.find? (·.1 = d) with
          | some e => exact ⟨rfl, h3⟩
          | none => exact ⟨rfl, .cons h3⟩
        | more h3 => simp only [hn]; exact ⟨rfl, .more h3⟩
        | left h3 => simp only [hn]; exact ⟨rfl, .left h3⟩
        | right => simp only [hn]; exact ⟨rfl, .right⟩
      | none =>
        simp only
        rw [if_neg hc, if_neg hc]
        split
        · rw [sq_takeWhile (by decide) h3]
          cases number stod (c :: t'.takeWhile isNumChar) with
          | error e => exact rfl
          | ok x => exact ⟨rfl, sq_dropWhile (by decide) h3⟩
        · split
          · rw [sq_takeWhile (by decide) h3]
            exact ⟨rfl, sq_dropWhile (by decide) h3⟩
          · exact rfl

theorem skip_mem (i : Bool) : ∀ (s : Str) (b : Bool) (c : Char), c ∈ skip i b s → c ∈ s
  | [], b, c, h => by cases b <;> exact h
  | d :: s, true, c, h => by
    rw [skip] at h
    split at h
    · exact List.mem_cons_of_mem _ (skip_mem i s false c h)
    · exact List.mem_cons_of_mem _ (skip_mem i s true c h)
  | d :: s, false, c, h => by
    rw [skip] at h
    split at h
    · exact List.mem_cons_of_mem _ (skip_mem i s true c h)
    · split at h
      · exact List.mem_cons_of_mem _ (skip_mem i s false c h)
      · split at h
        · exact List.mem_cons_of_mem _ (skip_mem i s false c h)
        · exact h

theorem lex_no_quote {stod : Str → Except Err Word} {i : Bool} {s r : Str} {t : Tok} (hq : '"' ∉ s) (h : lex stod i s = .ok (t, r)) :
    '"' ∉ r := by
  have hsk : '"' ∉ skip i false s := fun h => hq (skip_mem i s false _ h)
  unfold lex at h
  cases hs : skip i false s with
  | nil => rw [hs] at h; cases h; simp
  | cons c q =>
    rw [hs] at h hsk
    have hq : '"' ∉ q := fun h => hsk (List.mem_cons_of_mem _ h)
    have hc : c ≠ '"' := fun h => hsk (by rw [h]; exact List.mem_cons_self ..)
    simp only at h
    cases h1 : single c with
    | some t' => rw [h1] at h; cases h; exact hq
    | none =>
      rw [h1] at h
      simp only at h
      cases h2 : double c with
      | some p =>
        rw [h2] at h
        simp only at h
        cases q with
        | nil => cases h; simp
        | cons d q =>
          simp only at h
          split at h
          · cases h; exact fun h => hq (List.mem_cons_of_mem _ h)
          · cases h; exact hq
      | none =>
        rw [h2] at h
        simp only at h
        rw [if_neg hc] at h
        have hd : ∀ p : Char → Bool, '"' ∉ q.dropWhile p := fun p h => hq ((List.dropWhile_sublist p).subset h)
        split at h
        · cases hn : number stod (c :: q.takeWhile isNumChar) with
          | error e => rw [hn] at h; cases h
          | ok x => rw [hn] at h; cases h; exact hd _
        · split at h
          · cases h; exact hd _
          · cases h

end Lexer

/-- Readers of tokens do not notice runs of spaces. -/
theorem Reader.run_sq {α : Type} {Q : α → Prop} {stod : Str → Except Err Word} {x : Reader α} (h : x.All Q) {s t : Str} (hl : Sq s t)
    (hq : '"' ∉ s) : x.run stod s = x.run stod t := by
  induction x generalizing s t with
  | pure a => rfl
  | fail e => rfl
  | next i k ih =>
    have := Lexer.sq_lex stod i hl fun c s' hs hc => hq (Lexer.skip_mem i s false _ (by rw [hs, hc]; exact List.mem_cons_self ..))
    rw [run, run]
    cases h1 : Lexer.lex stod i s with
    | error e =>
      rw [h1] at this
      cases h2 : Lexer.lex stod i t with
      | error e' => rw [h2] at this; cases this; rfl
      | ok y => rw [h2] at this; exact this.elim
    | ok y =>
      obtain ⟨u, r⟩ := y
      rw [h1] at this
      cases h2 : Lexer.lex stod i t with
      | error e' => rw [h2] at this; exact this.elim
      | ok z =>
        obtain ⟨v, r'⟩ := z
        rw [h2] at this
        obtain ⟨rfl, hr⟩ := this
        exact ih u (h u (Lexer.lex_valid h1)) hr (Lexer.lex_no_quote hq h1)
  | raw k ih => exact h.elim

/-- Spaces at the beginning do not matter. -/
theorem Reader.start_space {α : Type} {stod : Str → Except Err Word} {x : Pars α} (s : Str) :
    (Pars.start x).run stod (' ' :: s) = (Pars.start x).run stod s := by
  unfold Pars.start
  rw [run, run]
  have : Lexer.lex stod false (' ' :: s) = Lexer.lex stod false s := by
    unfold Lexer.lex
    rw [Lexer.skip_space]
  rw [this]

theorem Reader.start_spaces {α : Type} {stod : Str → Except Err Word} {x : Pars α} (s : Str) :
    (Pars.start x).run stod (s.dropWhile (· = ' ')) = (Pars.start x).run stod s := by
  induction s with
  | nil => rfl
  | cons c s ih =>
    rw [List.dropWhile_cons]
    split
    · rename_i hc
      simp only [decide_eq_true_eq] at hc
      subst hc
      rw [ih, start_space]
    · rfl

/-! ## Words -/

theorem split_nil (d : Char) : split [] d = [] := by rw [C25_split]; rfl

theorem split_space (s : Str) : split (' ' :: s) ' ' = split s ' ' := by
  rw [C25_split, C25_split]
  have := List.splitOn_append_cons_self (a := ' ') [] s
  rw [List.nil_append] at this
  rw [this]
  simp

theorem split_spaces (s : Str) : split (s.dropWhile (· = ' ')) ' ' = split s ' ' := by
  induction s with
  | nil => rfl
  | cons c s ih =>
    rw [List.dropWhile_cons]
    split
    · rename_i hc
      simp only [decide_eq_true_eq] at hc
      subst hc
      rw [ih, split_space]
    · rfl

theorem split_word {w : Str} (hw : w ≠ []) (hs : ' ' ∉ w) (s : Str) : split (w ++ ' ' :: s) ' ' = w :: split s ' ' := by
  rw [C25_split, C25_split]
  rw [List.splitOn_append_cons_self, List.splitOn_eq_singleton hs]
  simp [hw]

theorem split_last {w : Str} (hw : w ≠ []) (hs : ' ' ∉ w) : split w ' ' = [w] := by
  have := C25_split_join ' ' [w] (by simp [hw, hs])
  simpa [join] using this

/-- Everything before the first space, and what is after it. -/
theorem word_cases (s : Str) : (' ' ∉ s) ∨ ∃ w r, s = w ++ ' ' :: r ∧ ' ' ∉ w := by
  induction s with
  | nil => exact Or.inl (by simp)
  | cons c s ih =>
    by_cases hc : c = ' '
    · exact Or.inr ⟨[], s, by rw [hc]; rfl, by simp⟩
    · rcases ih with h | ⟨w, r, h1, h2⟩
      · exact Or.inl (by simp [h, Ne.symm hc])
      · exact Or.inr ⟨c :: w, r, by rw [h1]; rfl, by simp [h2, Ne.symm hc]⟩

theorem Sq.append {s t : Str} (w : Str) (h : Sq s t) : Sq (w ++ s) (w ++ t) := by
  induction w with
  | nil => exact h
  | cons c w ih => exact .cons ih

theorem Sq.spaces {s t : Str} (h : Sq (s.dropWhile (· = ' ')) t) : Sq (' ' :: s) (' ' :: t) := by
  induction s with
  | nil => exact .cons h
  | cons c s ih =>
    rw [List.dropWhile_cons] at h
    split at h
    · rename_i hc
      simp only [decide_eq_true_eq] at hc
      subst hc
      exact .more (ih h)
    · exact .cons h

theorem Sq.blanks {s : Str} (h : s.dropWhile (· = ' ') = []) : Sq s [] := by
  induction s with
  | nil => exact .nil
  | cons c s ih =>
    rw [List.dropWhile_cons] at h
    split at h
    · rename_i hc
      simp only [decide_eq_true_eq] at hc
      subst hc
      exact .left (ih h)
    · cases h

theorem Sq.blanks' {s : Str} (h : s.dropWhile (· = ' ') = []) : Sq s [' '] := by
  cases s with
  | nil => exact .right
  | cons c s =>
    rw [List.dropWhile_cons] at h
    split at h
    · rename_i hc
      simp only [decide_eq_true_eq] at hc
      subst hc
      exact .cons (.blanks h)
    · cases h

/-- The words of a text with single spaces between them, and the same with a space after a single word. -/
theorem sq_words : ∀ (n : Nat) (s : Str), s.length ≤ n →
    (split s ' ' = [] ∧ s.dropWhile (· = ' ') = []) ∨
    ∃ w l, split s ' ' = w :: l ∧ Sq (s.dropWhile (· = ' ')) (join " ".toList (w :: l)) ∧
      Sq (s.dropWhile (· = ' ')) (w ++ " ".toList ++ join " ".toList l) := by
  intro n
  induction n with
  | zero =>
    intro s hs
    have : s = [] := List.eq_nil_of_length_eq_zero (by omega)
    subst this
    exact Or.inl ⟨split_nil _, rfl⟩
  | succ n ih =>
    intro s hs
    rw [← split_spaces]
    have hlen : (s.dropWhile (· = ' ')).length ≤ n + 1 := by
      have := (List.dropWhile_sublist (fun c => decide (c = ' ')) (l := s)).length_le
      omega
    have hhead : ∀ c r, s.dropWhile (· = ' ') = c :: r → c ≠ ' ' := by
      intro c r h hc
      have := List.head?_dropWhile_not (fun c => decide (c = ' ')) s
      rw [h] at this
      simp [hc] at this
    generalize s.dropWhile (· = ' ') = t at hlen hhead
    rcases word_cases t with h | ⟨w, r, h1, h2⟩
    · cases t with
      | nil => exact Or.inl ⟨split_nil _, rfl⟩
      | cons c t =>
        refine Or.inr ⟨c :: t, [], split_last (by simp) h, ?_, ?_⟩
        · have := Sq.append (c :: t) Sq.nil
          simpa [join] using this
        · have := Sq.append (c :: t) Sq.right
          simpa [join] using this
    · have hw : w ≠ [] := by
        rintro rfl
        exact hhead ' ' r h1 rfl
      rw [h1, split_word hw h2]
      have hr : r.length ≤ n := by
        rw [h1] at hlen
        simp at hlen
        omega
      refine Or.inr ⟨w, split r ' ', rfl, ?_⟩
      rcases ih r hr with ⟨e1, e2⟩ | ⟨w', l', e1, e2, e3⟩
      · rw [e1]
        refine ⟨?_, ?_⟩
        · have := Sq.append w (Sq.left (Sq.blanks e2))
          simpa [join] using this
        · have := Sq.append w (Sq.cons (c := ' ') (Sq.blanks e2))
          simpa [join] using this
      · rw [e1]
        have hj : join " ".toList (w :: w' :: l') = w ++ " ".toList ++ join " ".toList (w' :: l') := by
          rw [join, if_pos (by simp)]
        have := Sq.append w (Sq.spaces e2)
        refine ⟨?_, ?_⟩
        · rw [hj]; simpa using this
        · simpa using this

end T86
