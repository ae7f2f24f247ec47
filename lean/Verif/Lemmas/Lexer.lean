import Verif.Spec.Asm
import Verif.Lemmas.Str

/-! # Facts about the lexer -/

set_option linter.unusedSimpArgs false
set_option linter.unusedVariables false

namespace T86
open Dbg Str

namespace Lexer

theorem skip_comment (i : Bool) : ∀ (b g : Str), '\n' ∉ b → skip i true (b ++ '\n' :: g) = skip i false g
  | [], g, _ => by simp [skip]
  | c :: b, g, h => by
    simp only [List.mem_cons, not_or] at h
    rw [List.cons_append, skip, if_neg (fun hc => h.1 hc.symm), skip_comment i b g h.2]

theorem skip_open (i : Bool) : ∀ (b : Str), '\n' ∉ b → skip i true b = []
  | [], _ => by simp [skip]
  | c :: b, h => by
    simp only [List.mem_cons, not_or] at h
    rw [skip, if_neg (fun hc => h.1 hc.symm), skip_open i b h.2]

theorem skip_gap (i : Bool) {g : Str} (hg : Gap g) (s : Str) : skip i false (g ++ s) = skip i false s := by
  induction hg with
  | nil => rfl
  | @blank c g h hg ih =>
    have hc : c ≠ '#' := by rintro rfl; exact absurd h (by decide)
    rw [List.cons_append, skip, if_neg hc, if_pos h, ih]
  | @comment b g h hg ih =>
    rw [List.append_assoc, List.cons_append, skip, if_pos rfl, List.cons_append, skip_comment i b _ h, ih]

theorem skip_ending (i : Bool) {e : Str} (he : Ending e) : skip i false e = [] := by
  cases he with
  | gap h =>
    have := skip_gap i h []
    rw [List.append_nil] at this
    rw [this]; simp [skip]
  | @comment g b hg h =>
    rw [skip_gap i hg, skip, if_pos rfl, skip_open i b h]

theorem skip_start (i : Bool) {c : Char} (s : Str) (h : startsToken c = true) (hs : isSpace c = false) (hc : c ≠ '#') :
    skip i false (c :: s) = c :: s := by
  rw [skip, if_neg hc, hs, h]
  simp

theorem isNumChar_iff (c : Char) : isNumChar c = true ↔ isDigit c = true ∨ c = '.' := by simp [isNumChar]

theorem stringTail_quoted {w s : Str} (h : Quoted w s) : ∀ (acc rest : Str),
    stringTail acc (w ++ '"' :: rest) = .ok (.str (acc ++ s), rest) := by
  induction h with
  | nil => intro acc rest; simp [stringTail]
  | @plain c w s h1 h2 h ih =>
    intro acc rest
    rw [List.cons_append, stringTail.eq_def]
    split
    · rename_i heq; simp at heq
    · rename_i heq; simp at heq; exact absurd heq.1 h1
    · rename_i heq; simp at heq; exact absurd heq.1 h2
    · rename_i heq
      simp at heq
      rw [← heq.1, ← heq.2, ih]
      simp
  | newline h ih => intro acc rest; simp [stringTail, escape, ih]
  | tab h ih => intro acc rest; simp [stringTail, escape, ih]
  | backslash h ih => intro acc rest; simp [stringTail, escape, ih]
  | quote h ih => intro acc rest; simp [stringTail, escape, ih]

theorem digit_cases {c : Char} (h : isDigit c = true) :
    c = '0' ∨ c = '1' ∨ c = '2' ∨ c = '3' ∨ c = '4' ∨ c = '5' ∨ c = '6' ∨ c = '7' ∨ c = '8' ∨ c = '9' := by
  simp [isDigit] at h
  have h1 : 48 ≤ c.toNat := by have := h.1; exact this
  have h2 : c.toNat ≤ 57 := by have := h.2; exact this
  have hc : c = Char.ofNat c.toNat := by simp
  have : ∀ n : Fin 10, (Char.ofNat (48 + n.val)) = '0' ∨ Char.ofNat (48 + n.val) = '1' ∨ Char.ofNat (48 + n.val) = '2' ∨ Char.ofNat (48 + n.val) = '3' ∨ Char.ofNat (48 + n.val) = '4' ∨ Char.ofNat (48 + n.val) = '5' ∨ Char.ofNat (48 + n.val) = '6' ∨ Char.ofNat (48 + n.val) = '7' ∨ Char.ofNat (48 + n.val) = '8' ∨ Char.ofNat (48 + n.val) = '9' := by decide
  have := this ⟨c.toNat - 48, by omega⟩
  simp only [show 48 + (c.toNat - 48) = c.toNat by omega] at this
  rw [← hc] at this
  exact this

theorem digit_not_special {c : Char} (h : isDigit c = true) :
    single c = none ∧ double c = none ∧ c ≠ '"' ∧ c ≠ '#' ∧ isSpace c = false := by
  rcases digit_cases h with h | h | h | h | h | h | h | h | h | h <;> subst h <;> decide

/-- The letters and `_`. -/
theorem idStart_not_special {c : Char} (h : isIdStart c = true) :
    single c = none ∧ double c = none ∧ c ≠ '"' ∧ c ≠ '#' ∧ isSpace c = false ∧ isDigit c = false := by
  have hc : c = Char.ofNat c.toNat := by simp
  have hb : c.toNat < 128 := by
    simp [isIdStart, isAlpha] at h
    rcases h with h | h
    · rcases h with h | h
      · have := h.2
        have : c.toNat ≤ 122 := this
        omega
      · have : c.toNat ≤ 90 := h.2
        omega
    · subst h; decide
  have : ∀ n : Fin 128, isIdStart (Char.ofNat n.val) = true → single (Char.ofNat n.val) = none ∧ double (Char.ofNat n.val) = none ∧ Char.ofNat n.val ≠ '"' ∧ Char.ofNat n.val ≠ '#' ∧ isSpace (Char.ofNat n.val) = false ∧ isDigit (Char.ofNat n.val) = false := by
    decide +kernel
  have := this ⟨c.toNat, hb⟩
  simp only at this
  rw [← hc] at this
  exact this h

theorem lex_single (stod : Str → Except Err Word) (i : Bool) {c : Char} {t : Tok} (h : single c = some t)
    (h2 : isSpace c = false) (h3 : c ≠ '#') (rest : Str) : lex stod i (c :: rest) = .ok (t, rest) := by
  unfold lex
  rw [skip_start i rest (by simp [startsToken, h]) h2 h3]
  simp only [h]

theorem lex_double1 (stod : Str → Except Err Word) (i : Bool) {c : Char} {t : Tok} {l : List (Char × Tok)}
    (h1 : single c = none) (h : double c = some (t, l)) (h2 : isSpace c = false) (h3 : c ≠ '#') (rest : Str)
    (hs : ∀ d r, rest = d :: r → l.find? (·.1 = d) = none) : lex stod i (c :: rest) = .ok (t, rest) := by
  unfold lex
  rw [skip_start i rest (by simp [startsToken, h]) h2 h3]
  simp only [h1, h]
  cases rest with
  | nil => rfl
  | cons d r => simp only [hs d r rfl]

theorem lex_double2 (stod : Str → Except Err Word) (i : Bool) {c d : Char} {t t' : Tok} {l : List (Char × Tok)}
    (h1 : single c = none) (h : double c = some (t, l)) (h2 : isSpace c = false) (h3 : c ≠ '#') (rest : Str)
    (hs : l.find? (·.1 = d) = some (d, t')) : lex stod i (c :: d :: rest) = .ok (t', rest) := by
  unfold lex
  rw [skip_start i _ (by simp [startsToken, h]) h2 h3]
  simp only [h1, h, hs]

theorem grows_id (s : Str) (c : Char) : Tok.grows (.id s) c ↔ isIdChar c = true := Iff.rfl
theorem grows_num (n : Nat) (c : Char) : Tok.grows (.num n) c ↔ isDigit c = true ∨ c = '.' := Iff.rfl
theorem grows_float (x : Word) (c : Char) : Tok.grows (.float x) c ↔ isDigit c = true ∨ c = '.' := Iff.rfl
theorem grows_bang (c : Char) : Tok.grows .bang c ↔ c = '=' := Iff.rfl
theorem grows_assign (c : Char) : Tok.grows .assign c ↔ c = '=' := Iff.rfl
theorem grows_minus (c : Char) : Tok.grows .minus c ↔ c = '>' := Iff.rfl
theorem grows_greater (c : Char) : Tok.grows .greater c ↔ c = '=' ∨ c = '>' := Iff.rfl
theorem grows_less (c : Char) : Tok.grows .less c ↔ c = '=' ∨ c = '<' := Iff.rfl
theorem grows_band (c : Char) : Tok.grows .band c ↔ c = '&' := Iff.rfl
theorem grows_bor (c : Char) : Tok.grows .bor c ↔ c = '|' := Iff.rfl

theorem lex_symbol (stod : Str → Except Err Word) (i : Bool) {t : Tok} {w : String} (h : t.symbol = some w) (rest : Str)
    (hs : ∀ c r, rest = c :: r → ¬ t.grows c) : lex stod i (w.toList ++ rest) = .ok (t, rest) := by
  cases t <;> simp only [Tok.symbol, Option.some.injEq, reduceCtorEq] at h <;> subst h <;>
    first
    | exact lex_single stod i (c := _) rfl rfl (by decide) rest
    | exact lex_double2 stod i (c := _) (d := _) rfl rfl rfl (by decide) rest rfl
    | (refine lex_double1 stod i (c := _) rfl rfl rfl (by decide) rest fun d r hd => ?_
       have := hs d r hd
       simp only [grows_bang, grows_assign, grows_minus, grows_greater, grows_less, grows_band, grows_bor,
         not_or] at this
       refine List.find?_eq_none.2 fun x hx => ?_
       simp only [List.mem_cons, List.not_mem_nil, or_false] at hx
       first
       | (subst hx; simpa using fun h => this h.symm)
       | (rcases hx with hx | hx <;> subst hx
          · simpa using fun h => this.1 h.symm
          · simpa using fun h => this.2 h.symm))

theorem lex_spells (stod : Str → Except Err Word) (i : Bool) {t : Tok} {w : Str} (h : Spells stod t w) (rest : Str)
    (hs : ∀ c r, rest = c :: r → ¬ t.grows c) : lex stod i (w ++ rest) = .ok (t, rest) := by
  cases h with
  | symbol h => exact lex_symbol stod i h rest hs
  | @id c w h hw =>
    obtain ⟨h1, h2, h3, h4, h5, h6⟩ := idStart_not_special h
    unfold lex
    rw [List.cons_append, skip_start i _ (by unfold startsToken; rw [h, Bool.or_true]) h5 h4]
    have hst : ∀ c r, rest = c :: r → isIdChar c = false := fun c r hr => by
      have := hs c r hr
      rw [grows_id] at this
      simpa using this
    simp only [h1, h2, if_neg h3, h6, Bool.false_eq_true, if_false, h, if_true, takeWhile_append_stop hw hst,
      dropWhile_append_stop hw hst]
  | @num w h0 h hn =>
    cases w with
    | nil => exact absurd rfl h0
    | cons c w =>
      have hc := h c (by simp)
      obtain ⟨h1, h2, h3, h4, h5⟩ := digit_not_special hc
      unfold lex
      rw [List.cons_append, skip_start i _ (by unfold startsToken; rw [hc, Bool.or_true, Bool.true_or]) h5 h4]
      have hst : ∀ c r, rest = c :: r → isNumChar c = false := fun c r hr => by
        have := hs c r hr
        rw [grows_num, ← isNumChar_iff] at this
        simpa using this
      have hw : ∀ d ∈ w, isNumChar d = true := fun d hd => (isNumChar_iff d).2 (Or.inl (h d (by simp [hd])))
      simp only [h1, h2, if_neg h3, hc, if_true, takeWhile_append_stop hw hst, dropWhile_append_stop hw hst]
      have hdot : '.' ∉ c :: w := fun hd => absurd (h '.' hd) (by decide)
      simp only [number, if_neg hdot, if_pos hn]
      rfl
  | @float c w x hc hw hd hx =>
    obtain ⟨h1, h2, h3, h4, h5⟩ := digit_not_special hc
    unfold lex
    rw [List.cons_append, skip_start i _ (by unfold startsToken; rw [hc, Bool.or_true, Bool.true_or]) h5 h4]
    have hst : ∀ c r, rest = c :: r → isNumChar c = false := fun c r hr => by
      have := hs c r hr
      rw [grows_float, ← isNumChar_iff] at this
      simpa using this
    have hw' : ∀ d ∈ w, isNumChar d = true := fun d hd => (isNumChar_iff d).2 (hw d hd)
    simp only [h1, h2, if_neg h3, hc, if_true, takeWhile_append_stop hw' hst, dropWhile_append_stop hw' hst]
    have hdot : '.' ∈ c :: w := by simp [hd]
    simp only [number, if_pos hdot, hx]
    rfl
  | @str w s h =>
    unfold lex
    rw [List.append_assoc, List.cons_append, skip_start i _ (by decide) (by decide) (by decide)]
    have : stringTail [] (w ++ ('"' :: rest)) = .ok (.str s, rest) := by
      rw [stringTail_quoted h]; rfl
    have h1 : single '"' = none := rfl
    have h2 : double '"' = none := rfl
    simp only [h1, h2, if_true, List.append_assoc, List.cons_append, List.nil_append]
    exact this

/-- A character the token begins with. -/
theorem spells_cons {stod : Str → Except Err Word} {t : Tok} {w : Str} (h : Spells stod t w) : w ≠ [] := by
  cases h with
  | symbol h => cases t <;> simp only [Tok.symbol, Option.some.injEq, reduceCtorEq] at h <;> subst h <;> decide
  | id => simp
  | num h0 => exact h0
  | float => simp
  | str => simp

theorem lex_gap (stod : Str → Except Err Word) (i : Bool) {g : Str} (hg : Gap g) (s : Str) :
    lex stod i (g ++ s) = lex stod i s := by
  unfold lex; rw [skip_gap i hg]

theorem lex_nil {stod : Str → Except Err Word} (i : Bool) {s : Str} (h : Layout stod [] s) : lex stod i s = .ok (.eof, []) := by
  cases h with
  | nil h => unfold lex; rw [skip_ending i h]

theorem lex_cons {stod : Str → Except Err Word} (i : Bool) {t : Tok} {ts : List Tok} {s : Str} (h : Layout stod (t :: ts) s) :
    ∃ rest, lex stod i s = .ok (t, rest) ∧ Layout stod ts rest := by
  cases h with
  | @cons _ _ g w rest hg hw hr hs =>
    exact ⟨rest, by rw [lex_gap stod i hg, lex_spells stod i hw rest hs], hr⟩

end Lexer

/-! ## Readers -/

/-- A token the lexer can give. -/
def Tok.Valid : Tok → Prop
  | .num n => n < 2 ^ 31
  | _ => True

theorem Spells.valid {stod : Str → Except Err Word} {t : Tok} {w : Str} (h : Spells stod t w) : t.Valid := by
  cases h with
  | symbol h => cases t <;> simp [Tok.symbol] at h <;> trivial
  | num _ _ hn => exact hn
  | _ => trivial

theorem Layout.valid {stod : Str → Except Err Word} : ∀ {ts : List Tok} {s : Str}, Layout stod ts s → ∀ t ∈ ts, t.Valid
  | [], _, _ => by simp
  | t :: ts, s, h => by
    cases h with
    | cons hg hw hr hs =>
      intro t' ht
      rcases List.mem_cons.1 ht with h | h
      · subst h; exact hw.valid
      · exact hr.valid t' h

theorem Lexer.lex_valid {stod : Str → Except Err Word} {i : Bool} {s : Str} {t : Tok} {r : Str} (h : lex stod i s = .ok (t, r)) :
    t.Valid := by
  have hst : ∀ (s acc : Str) (t : Tok) (r : Str), stringTail acc s = .ok (t, r) → t.Valid := by
    intro s
    induction hn : s.length using Nat.strongRecOn generalizing s with
    | _ n ih =>
    subst hn
    intro acc t r h
    rw [stringTail.eq_def] at h
    split at h
    · cases h
    · cases h; trivial
    · split at h
      · cases h
      · split at h
        · exact ih _ (by simp; omega) _ rfl _ _ _ h
        · cases h
    · exact ih _ (by simp) _ rfl _ _ _ h
  unfold lex at h
  cases hs : skip i false s with
  | nil => rw [hs] at h; cases h; trivial
  | cons c q =>
    rw [hs] at h
    simp only at h
    cases h1 : single c with
    | some t' =>
      simp only [h1] at h
      cases h
      unfold single at h1
      split at h1 <;> cases h1 <;> trivial
    | none =>
      simp only [h1] at h
      cases h2 : double c with
      | some p =>
        obtain ⟨t', l⟩ := p
        simp only [h2] at h
        unfold double at h2
        split at h2 <;> cases h2 <;> (cases q with
          | nil => cases h; trivial
          | cons d q =>
            simp only [List.find?] at h
            repeat' split at h
            all_goals first
              | (cases h; trivial)
              | (rename_i heq
                 repeat' split at heq
                 all_goals (cases heq <;> cases h <;> trivial)))
      | none =>
        simp only [h2] at h
        split at h
        · exact hst _ _ _ _ h
        · split at h
          · simp only [number] at h
            split at h
            · cases hx : stod (c :: q.takeWhile isNumChar) with
              | error e => rw [hx] at h; cases h
              | ok x => rw [hx] at h; cases h; trivial
            · split at h
              · rename_i hlt; cases h; exact hlt
              · cases h
          · split at h
            · cases h; trivial
            · cases h

namespace Reader

/-- Every result, on any valid tokens, has the property; no raw text is asked for. -/
def All {α : Type} (Q : α → Prop) : Reader α → Prop
  | .pure a => Q a
  | .fail _ => True
  | .next _ k => ∀ t : Tok, t.Valid → (k t).All Q
  | .raw _ => False

theorem All.bind {α β : Type} {Q : α → Prop} {R : β → Prop} {x : Reader α} {f : α → Reader β} (h : x.All Q)
    (hf : ∀ a, Q a → (f a).All R) : (x.bind f).All R := by
  induction x with
  | pure a => exact hf a h
  | fail e => trivial
  | next i k ih => intro t ht; exact ih t (h t ht)
  | raw k ih => exact h.elim

theorem All.mono {α : Type} {Q R : α → Prop} {x : Reader α} (h : x.All Q) (hr : ∀ a, Q a → R a) : x.All R := by
  induction x with
  | pure a => exact hr a h
  | fail e => trivial
  | next i k ih => intro t ht; exact ih t (h t ht)
  | raw k ih => exact h.elim

theorem All.run {α : Type} {Q : α → Prop} {stod : Str → Except Err Word} {x : Reader α} (h : x.All Q) {s : Str} {a : α}
    (hr : x.run stod s = .ok a) : Q a := by
  induction x generalizing s with
  | pure b => cases hr; exact h
  | fail e => cases hr
  | next i k ih =>
    rw [Reader.run] at hr
    cases hl : Lexer.lex stod i s with
    | error e => rw [hl] at hr; cases hr
    | ok p =>
      obtain ⟨t, r⟩ := p
      rw [hl] at hr
      exact ih t (h t (Lexer.lex_valid hl)) hr
  | raw k ih => exact h.elim

/-- Reading a text is reading its tokens. -/
theorem run_layout {α : Type} {Q : α → Prop} {stod : Str → Except Err Word} {x : Reader α} (h : x.All Q) {ts : List Tok} {s : Str}
    (hl : Layout stod ts s) : x.run stod s = x.onToks ts := by
  induction x generalizing ts s with
  | pure a => cases ts <;> rfl
  | fail e => cases ts <;> rfl
  | next i k ih =>
    cases ts with
    | nil =>
      rw [run, Lexer.lex_nil i hl, onToks]
      exact ih .eof (h .eof trivial) (.nil (.gap .nil))
    | cons t ts =>
      obtain ⟨rest, h1, h2⟩ := Lexer.lex_cons i hl
      rw [run, h1, onToks]
      exact ih t (h t (hl.valid t (by simp))) h2
  | raw k ih => exact h.elim

end Reader
end T86
