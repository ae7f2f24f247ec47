import Verif.Lemmas.ExprBack

/-! # C42: reading debugger expressions -/

set_option linter.unusedSimpArgs false
set_option linter.unusedVariables false

namespace T86
open Dbg Str Ex

/-- C42 (all but `<=` and `>=`). Whatever the grammar derives is parsed as derived: any tree with any parentheses, provided no
operator in it is `<=` or `>=` (see `C42_comparison_lost`), from any text that consists of these tokens. -/
theorem C42_grammar_partial {stod : Str → Except Err Word} {ts : List Tok} {e : Expr} {s : Str} (h : Gram 0 ts e) (hk : e.Known)
    (hl : Layout stod ts s) : parse stod s = .ok e := by
  rw [parse_layout hl]
  have := hl.length
  exact expr_parses h hk (by omega)

/-- C42 (all but `<=` and `>=`). Every expression that is written down with the parentheses its operators require, in any layout,
is read back as the same expression. -/
theorem C42_round_trip_partial {stod : Str → Except Err Word} {e : Expr} {s : Str} (hw : e.Writable) (hk : e.Known)
    (hl : Layout stod e.toks s) : parse stod s = .ok e :=
  C42_grammar_partial ((gram_toks hw).down (Nat.zero_le _)) hk hl

/-- C42. If an expression is read from a text, the text begins with tokens of that expression. -/
theorem C42_sound {stod : Str → Except Err Word} {ts : List Tok} {e : Expr} {s : Str} (hl : Layout stod ts s)
    (h : parse stod s = .ok e) : ∃ us vs, ts = us ++ vs ∧ Gram 0 us e := by
  rw [parse_layout hl] at h
  refine expr_sound ?_ h
  clear h
  induction hl with
  | nil => simp
  | cons hg hw hr hs ih =>
    simp only [List.mem_cons, not_or]
    refine ⟨?_, ih⟩
    rintro rfl
    cases hw with
    | symbol h => cases h

/-- C42. No text has two meanings: the grammar derives at most one expression (without `<=` and `>=`) from the tokens. -/
theorem C42_unambiguous {ts : List Tok} {e e' : Expr} (h : Gram 0 ts e) (h' : Gram 0 ts e') (hk : e.Known) (hk' : e'.Known) :
    e = e' := by
  have h1 := expr_parses h hk (Nat.lt_succ_self _)
  have h2 := expr_parses h' hk' (Nat.lt_succ_self _)
  rw [h1] at h2
  injection h2

/-- C42. Reading an expression always ends, for every text. -/
theorem C42_terminates {stod : Str → Except Err Word} (hst : ∀ w, stod w ≠ .error .diverge) (s : Str) :
    parse stod s ≠ .error .diverge :=
  (live_start (n := s.length) (by omega)).run hst (Nat.le_refl _)

/-! ### The hypotheses are met -/

/-- No floating point number can be read. -/
private def noStod : Str → Except Err Word := fun _ => .error .outOfRange

private theorem space {c : Char} (h : Str.isSpace c = true) : Gap [c] := .blank h .nil

/-- `-(a - b) * c[1].x` -/
private def sampleE : Expr :=
  .bin .mul (.un .negate (.bin .sub (.ident "a".toList) (.ident "b".toList)))
    (.member (.index (.ident "c".toList) (.int 1)) "x".toList)

example : sampleE.Writable ∧ sampleE.Known := by
  refine ⟨⟨⟨rfl, trivial, trivial⟩, trivial, trivial⟩, by decide, by decide, ⟨by decide, by decide, trivial, trivial⟩, trivial, trivial⟩

private theorem sampleL : Layout noStod sampleE.toks "-(a - b)*c[1].x".toList := by
  have sym : ∀ {t : Tok} {ts : List Tok} {w : String} {rest : Str} (h : t.symbol = some w), Layout noStod ts rest →
      (∀ c r, rest = c :: r → ¬ t.grows c) → Layout noStod (t :: ts) (w.toList ++ rest) := fun h hr hs =>
    Layout.cons (g := []) .nil (.symbol h) hr hs
  have idt : ∀ {ts : List Tok} {c : Char} {rest : Str}, Lexer.isIdStart c = true → Layout noStod ts rest →
      (∀ d r, rest = d :: r → ¬ Lexer.isIdChar d = true) → Layout noStod (.id [c] :: ts) ([c] ++ rest) := fun h hr hs =>
    Layout.cons (g := []) .nil (.id h (by simp)) hr hs
  have gapped : ∀ {t : Tok} {ts : List Tok} {s : Str}, Layout noStod (t :: ts) s → Layout noStod (t :: ts) (' ' :: s) := by
    intro t ts s h
    cases h with
    | cons hg hw hr hs => exact Layout.cons (.blank (c := ' ') rfl hg) hw hr hs
  have g : ∀ {P : Char → Prop} (d : Char) (l : Str), ¬ P d → ∀ c r, d :: l = c :: r → ¬ P c := by
    intro P d l h c r e
    cases e
    exact h
  refine sym (t := .minus) (w := "-") rfl ?_ (g '(' _ (show ¬ ('(' = '>') by decide))
  refine sym (t := .lparen) (w := "(") rfl ?_ (g 'a' _ id)
  refine idt (c := 'a') (by decide) ?_ (g ' ' _ (by decide))
  refine gapped (sym (t := .minus) (w := "-") rfl ?_ (g ' ' _ (show ¬ (' ' = '>') by decide)))
  refine gapped (idt (c := 'b') (by decide) ?_ (g ')' _ (by decide)))
  refine sym (t := .rparen) (w := ")") rfl ?_ (g '*' _ id)
  refine sym (t := .times) (w := "*") rfl ?_ (g 'c' _ id)
  refine idt (c := 'c') (by decide) ?_ (g '[' _ (by decide))
  refine sym (t := .lbrack) (w := "[") rfl ?_ (g '1' _ id)
  refine Layout.cons (t := .num 1) (g := []) (w := ['1']) .nil (.num (w := ['1']) (by decide) (by decide) (by decide)) ?_
    (g ']' _ (show ¬ (isDigit ']' = true ∨ ']' = '.') by decide))
  refine sym (t := .rbrack) (w := "]") rfl ?_ (g '.' _ id)
  refine sym (t := .dot) (w := ".") rfl ?_ (g 'x' _ id)
  exact idt (c := 'x') (by decide) (.nil (.gap .nil)) (by simp)

example : parse noStod "-(a - b)*c[1].x".toList = .ok sampleE :=
  C42_round_trip_partial (by refine ⟨⟨rfl, trivial, trivial⟩, trivial, trivial⟩)
    (by refine ⟨by decide, by decide, ⟨by decide, by decide, trivial, trivial⟩, trivial, trivial⟩) sampleL

/-! ### What is missing, and what else the parser does -/

set_option maxRecDepth 100000 in
/-- `<=` and `>=` are in the documented grammar but not in the parser. They end the expression, and as nothing is checked after it
the rest of the text is ignored: `1 <= 2` is read as `1`, and so is `1 >= 2`. -/
theorem C42_comparison_lost :
    parse noStod "1 <= 2".toList = .ok (.int 1) ∧ parse noStod "1 >= 2".toList = .ok (.int 1) ∧
    Gram 0 [.num 1, .leq, .num 2] (.bin .leq (.int 1) (.int 2)) := by
  refine ⟨by decide +kernel, by decide +kernel, ?_⟩
  have h1 : Gram 10 [.num 1] (.int 1) := .int
  have h2 : Gram 10 [.num 2] (.int 2) := .int
  exact (Gram.bin (o := .leq) (n := 3) rfl (h1.down (by decide)) (h2.down (by decide))).down (Nat.zero_le _)

set_option maxRecDepth 100000 in
/-- What follows a complete expression is ignored, whatever it is: `a b ) ]` is read as `a`. -/
theorem C42_trailing_ignored : parse noStod "a b ) ]".toList = .ok (.ident "a".toList) := by decide +kernel

set_option maxRecDepth 100000 in
/-- The logical operators bind tighter than `==`, unlike in C: `a == b && c == d` compares `a`, `b && c` and `d` in a row. -/
theorem C42_logical_binds_tighter : parse noStod "a == b && c == d".toList =
    .ok (.bin .eq (.bin .eq (.ident "a".toList) (.bin .and (.ident "b".toList) (.ident "c".toList))) (.ident "d".toList)) := by
  decide +kernel

set_option maxRecDepth 100000 in
/-- Assignments are grouped from the left, unlike in C: `a = b = 1` assigns 1 to the result of `a = b`. -/
theorem C42_assign_left : parse noStod "a = b = 1".toList =
    .ok (.bin .assign (.bin .assign (.ident "a".toList) (.ident "b".toList)) (.int 1)) := by
  decide +kernel

end T86
