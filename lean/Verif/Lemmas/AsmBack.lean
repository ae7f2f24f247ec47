import Verif.Lemmas.AsmSound

/-! # Printed instructions are read back -/

set_option linter.unusedSimpArgs false
set_option linter.unusedVariables false

namespace T86
open Dbg Str

/-! ## Running on tokens -/

namespace Reader
variable {α β : Type}

/-- Running on a list of tokens, with the tokens left over. -/
def left : Reader α → List Tok → Except Err (α × List Tok)
  | .pure a, ts => .ok (a, ts)
  | .fail e, _ => .error e
  | .next _ k, [] => (k .eof).left []
  | .next _ k, t :: ts => (k t).left ts
  | .raw _, _ => .error .parser

theorem onToks_eq (x : Reader α) (ts : List Tok) : x.onToks ts = (x.left ts).map (·.1) := by
  induction x generalizing ts with
  | pure a => cases ts <;> rfl
  | fail e => cases ts <;> rfl
  | next i k ih => cases ts <;> exact ih _ _
  | raw k ih => cases ts <;> rfl

theorem onToks_eof (x : Reader α) (ts : List Tok) : x.onToks (ts ++ [.eof]) = x.onToks ts := by
  induction x generalizing ts with
  | pure a => cases ts <;> rfl
  | fail e => cases ts <;> rfl
  | next i k ih =>
    cases ts with
    | nil => rfl
    | cons t ts => exact ih _ _
  | raw k ih => cases ts <;> rfl

theorem left_bind (x : Reader α) (f : α → Reader β) (ts : List Tok) :
    (x.bind f).left ts = match x.left ts with
      | .error e => .error e
      | .ok r => (f r.1).left r.2 := by
  induction x generalizing ts with
  | pure a => cases ts <;> rfl
  | fail e => cases ts <;> rfl
  | next i k ih => cases ts <;> exact ih _ _
  | raw k ih => cases ts <;> rfl

end Reader

namespace Pars
variable {α β : Type}

/-- The current token, if a number or an identifier, is the last one. -/
def Num (s : PState) : Prop := (∀ k, s.tok = .num k → s.num = k) ∧ ∀ n, s.tok = .id n → s.id = n

theorem num_advance (s : PState) (t : Tok) : Num (advance s t) := by
  refine ⟨fun k hk => ?_, fun n hn => ?_⟩
  · have : t = .num k := hk
    subst this; rfl
  · have : t = .id n := hn
    subst this; rfl

/-- From these tokens, followed by a token with the given property, the function makes the given result and stops at that
token. -/
def Parses (x : Pars α) (ts : List Tok) (a : α) (look : Tok → Prop) : Prop :=
  ∀ (s : PState) (l : List Tok) (t : Tok) (rest : List Tok), s.tok :: l = ts ++ t :: rest → Num s → look t →
    ∃ s', (x s).left l = .ok ((a, s'), rest) ∧ s'.tok = t ∧ Num s'

/-- The token after some tokens that come before others. -/
def Head (us : List Tok) (look1 look2 : Tok → Prop) : Prop :=
  match us with
  | [] => ∀ t, look2 t → look1 t
  | u :: _ => look1 u

theorem Parses.pure (a : α) (look : Tok → Prop) : Parses (pure a) [] a look := by
  intro s l t rest h hn hl
  simp only [List.nil_append, List.cons.injEq] at h
  exact ⟨s, by rw [← h.2]; cases l <;> rfl, h.1, hn⟩

theorem Parses.bind {x : Pars α} {f : α → Pars β} {ts us : List Tok} {a : α} {b : β} {look1 look2 : Tok → Prop}
    (h1 : Parses x ts a look1) (h2 : Parses (f a) us b look2) (hh : Head us look1 look2) : Parses (x >>= f) (ts ++ us) b look2 := by
  intro s l t rest h hn hl
  have key : ∃ t1 rest1, us ++ t :: rest = t1 :: rest1 ∧ look1 t1 := by
    cases us with
    | nil => exact ⟨t, rest, rfl, hh t hl⟩
    | cons u us => exact ⟨u, us ++ t :: rest, rfl, hh⟩
  obtain ⟨t1, rest1, e1, hl1⟩ := key
  rw [List.append_assoc, e1] at h
  obtain ⟨s1, r1, r2, r3⟩ := h1 s l t1 rest1 h hn hl1
  obtain ⟨s2, q1, q2, q3⟩ := h2 s1 rest1 t rest (by rw [r2, e1]) r3 hl
  refine ⟨s2, ?_, q2, q3⟩
  show ((x s).bind fun r => f r.1 r.2).left l = _
  rw [Reader.left_bind, r1]
  exact q1

theorem Parses.mono {x : Pars α} {ts : List Tok} {a : α} {look1 look2 : Tok → Prop} (h : Parses x ts a look1)
    (hl : ∀ t, look2 t → look1 t) : Parses x ts a look2 := fun s l t rest e hn ht => h s l t rest e hn (hl t ht)

theorem Parses.tok {f : Tok → Pars β} {t : Tok} {ts : List Tok} {b : β} {look : Tok → Prop}
    (h : Parses (f t) (t :: ts) b look) : Parses (tok >>= f) (t :: ts) b look := by
  intro s l t' rest e hn hl
  obtain ⟨s', h1, h2⟩ := h s l t' rest e hn hl
  refine ⟨s', ?_, h2⟩
  have : s.tok = t := by simp at e; exact e.1
  show (f s.tok s).left l = _
  rw [this]; exact h1

theorem Parses.tokNil {f : Tok → Pars β} {b : β} {look : Tok → Prop}
    (h : ∀ t, look t → f t = Pure.pure b) : Parses (Pars.tok >>= f) [] b look := by
  intro s l t rest e hn hl
  simp only [List.nil_append, List.cons.injEq] at e
  refine ⟨s, ?_, e.1, hn⟩
  show (f s.tok s).left l = _
  rw [e.1, h t hl, e.2]
  cases rest <;> rfl

theorem Parses.next {f : Unit → Pars β} {i : Bool} {t : Tok} {ts : List Tok} {b : β} {look : Tok → Prop}
    (h : Parses (f ()) ts b look) : Parses (next i >>= f) (t :: ts) b look := by
  intro s l t' rest e hn hl
  simp only [List.cons_append, List.cons.injEq] at e
  obtain ⟨e1, e2⟩ := e
  cases l with
  | nil => simp at e2
  | cons u l =>
    obtain ⟨s', h1, h2⟩ := h (advance s u) l t' rest e2 (num_advance s u) hl
    exact ⟨s', h1, h2⟩

theorem Parses.nextLast {i : Bool} {t : Tok} {look : Tok → Prop} : Parses (Pars.next i) [t] () look := by
  intro s l t' rest e hn hl
  simp only [List.cons_append, List.nil_append, List.cons.injEq] at e
  obtain ⟨e1, e2⟩ := e
  subst e2
  exact ⟨advance s t', by cases rest <;> rfl, rfl, num_advance s t'⟩

theorem Parses.lastNum {f : Int → Pars β} {n : Nat} {ts : List Tok} {b : β} {look : Tok → Prop}
    (h : Parses (f n) (.num n :: ts) b look) : Parses (lastNum >>= f) (.num n :: ts) b look := by
  intro s l t' rest e hn hl
  obtain ⟨s', h1, h2⟩ := h s l t' rest e hn hl
  refine ⟨s', ?_, h2⟩
  have : s.tok = .num n := by simp at e; exact e.1
  show (f s.num s).left l = _
  rw [hn.1 n this]; exact h1

theorem Parses.start {x : Pars α} {ts : List Tok} {a : α} {look : Tok → Prop} (h : Parses x ts a look) (hl : look .eof) :
    (Pars.start x).onToks ts = .ok a := by
  rw [← Reader.onToks_eof]
  have key : ∃ u l, ts ++ [.eof] = u :: l := by cases ts <;> simp
  obtain ⟨u, l, e⟩ := key
  obtain ⟨s', h1, h2⟩ := h (advance ⟨.eof, -1, []⟩ u) l .eof [] e.symm (num_advance _ _) hl
  rw [e, Reader.onToks_eq]
  show ((((x (advance ⟨.eof, -1, []⟩ u)).bind fun r => Reader.pure r.1).left l).map (·.1)) = _
  rw [Reader.left_bind, h1]
  rfl

end Pars

/-! ## The text consists of the tokens -/

/-- The text ends, or goes on with a character that belongs to no token of a printed instruction. -/
def Safe (rest : Str) : Prop := ∀ c r, rest = c :: r → c = ' ' ∨ c = ',' ∨ c = ']' ∨ c = '\n'

theorem safe_grows (t : Tok) {c : Char} (h : c = ' ' ∨ c = ',' ∨ c = ']' ∨ c = '\n') : ¬ t.grows c := by
  intro hg
  rcases h with rfl | rfl | rfl | rfl <;> cases t <;> first
    | exact hg
    | exact absurd ((Lexer.grows_id _ _).1 hg) (by decide)
    | exact absurd ((Lexer.grows_num _ _).1 hg) (by decide)
    | exact absurd ((Lexer.grows_float _ _).1 hg) (by decide)
    | exact absurd ((Lexer.grows_greater _).1 hg) (by decide)
    | exact absurd ((Lexer.grows_less _).1 hg) (by decide)
    | exact absurd ((Lexer.grows_bang _).1 hg) (by decide)
    | exact absurd ((Lexer.grows_assign _).1 hg) (by decide)
    | exact absurd ((Lexer.grows_minus _).1 hg) (by decide)
    | exact absurd ((Lexer.grows_band _).1 hg) (by decide)
    | exact absurd ((Lexer.grows_bor _).1 hg) (by decide)

section
variable {stod : Str → Except Err Word}

/-- The text consists of the tokens, before any safe text. -/
def Prints (stod : Str → Except Err Word) (ts : List Tok) (w : Str) : Prop :=
  ∀ us rest, Layout stod us rest → Safe rest → Layout stod (ts ++ us) (w ++ rest)

theorem Prints.one {t : Tok} {w : Str} (h : Spells stod t w) : Prints stod [t] w := fun us rest hu hs =>
  Layout.cons (g := []) .nil h hu fun c r hc => safe_grows t (hs c r hc)

theorem Prints.free {t : Tok} {c : Char} {us : List Tok} {v : Str} (h : Spells stod t [c]) (hf : ∀ c, ¬ t.grows c)
    (hv : Prints stod us v) : Prints stod (t :: us) (c :: v) := fun xs rest hx hs =>
  Layout.cons (g := []) (w := [c]) .nil h (hv xs rest hx hs) fun c r hc => hf c

theorem Prints.gap {ts : List Tok} {w : Str} (h : Prints stod ts w) (hne : ts ≠ []) : Prints stod ts (' ' :: w) := by
  intro us rest hu hs
  have := h us rest hu hs
  cases ts with
  | nil => exact absurd rfl hne
  | cons t ts =>
    rw [List.cons_append] at this ⊢
    rw [List.cons_append]
    generalize w ++ rest = q at this
    cases this with
    | @cons _ _ g w' rest' hg hw hr hs' => exact Layout.cons (g := ' ' :: g) (.blank (by decide) hg) hw hr hs'

theorem Prints.append {ts us : List Tok} {w v : Str} (h1 : Prints stod ts w) (h2 : Prints stod us v)
    (hv : ∃ c r, v = c :: r ∧ (c = ' ' ∨ c = ',' ∨ c = ']' ∨ c = '\n')) : Prints stod (ts ++ us) (w ++ v) := by
  intro xs rest hx hs
  rw [List.append_assoc, List.append_assoc]
  refine h1 _ _ (h2 xs rest hx hs) ?_
  obtain ⟨c, r, rfl, hc⟩ := hv
  intro c' r' h
  cases h
  exact hc

theorem Prints.op {ts us : List Tok} {w v : Str} {t : Tok} {c : Char} (h1 : Prints stod ts w) (ht : Spells stod t [c])
    (h2 : Prints stod us v) (hne : us ≠ []) : Prints stod (ts ++ (t :: us)) (w ++ ' ' :: c :: ' ' :: v) := by
  refine h1.append (v := ' ' :: c :: ' ' :: v) ?_ ⟨' ', _, rfl, Or.inl rfl⟩
  refine Prints.gap ?_ (by simp)
  exact (Prints.one ht).append (h2.gap hne) ⟨' ', _, rfl, Or.inl rfl⟩

theorem spells_num {n : Nat} (h : n < 2 ^ 31) : Spells stod (.num n) (ofNat n) := by
  have := Spells.num (stod := stod) (ofNat_ne_nil n) (ofNat_isDigit n) (by rw [ofNat_digits]; exact h)
  rwa [ofNat_digits] at this

theorem prints_int {w : Word} (h : Word.Literal w) : Prints stod (intToks w) (ofInt w.toInt) := by
  unfold intToks ofInt
  have h1 := spells_num (stod := stod) (n := w.toInt.natAbs) h
  split
  · intro us rest hu hs
    refine Layout.cons (g := []) (w := ['-']) .nil (.symbol (t := .minus) (w := "-") rfl) (Prints.one h1 us rest hu hs) ?_
    intro c r hc hg
    have hg : c = '>' := hg
    obtain ⟨d, q, hq, hd⟩ := ofNat_head w.toInt.natAbs
    rw [hq] at hc
    have hc : d = c := (List.cons.inj hc).1
    rw [hc, hg] at hd
    exact absurd hd (by decide)
  · exact Prints.one h1

theorem isIdChar_digit {c : Char} (h : isDigit c = true) : Lexer.isIdChar c = true := by
  unfold Lexer.isIdChar
  rw [h, Bool.or_true, Bool.true_or]

theorem spells_reg (r : Reg) : Spells stod r.tk r.print := by
  cases r with
  | gp i => exact Spells.id (c := 'R') (by decide) fun d hd => isIdChar_digit (ofNat_isDigit i d hd)
  | _ => exact Spells.id (by decide) (by decide)

theorem prints_reg (r : Reg) : Prints stod [r.tk] r.print := Prints.one (spells_reg r)

theorem intToks_ne (w : Word) : intToks w ≠ [] := by unfold intToks; split <;> simp

theorem prints_expr {e : RegExpr} (h : e.Named) : Prints stod e.toks e.print := by
  have hp : Spells stod .plus ['+'] := .symbol (w := "+") rfl
  have hm : Spells stod .times ['*'] := .symbol (w := "*") rfl
  cases e with
  | reg r => exact prints_reg r
  | regImm r w =>
    have := (prints_reg r).op hp (prints_int h.2) (intToks_ne w)
    simpa [RegExpr.toks, RegExpr.print] using this
  | regReg r s =>
    have := (prints_reg r).op hp (prints_reg s) (by simp)
    simpa [RegExpr.toks, RegExpr.print] using this
  | regScaled r w =>
    have := (prints_reg r).op hm (prints_int h.2) (intToks_ne w)
    simpa [RegExpr.toks, RegExpr.print] using this
  | regImmReg r w s =>
    have := (prints_reg r).op hp ((prints_int h.2.1).op hp (prints_reg s) (by simp)) (by simp)
    simpa [RegExpr.toks, RegExpr.print] using this
  | regRegScaled r s w =>
    have := (prints_reg r).op hp ((prints_reg s).op hm (prints_int h.2.2) (intToks_ne w)) (by simp)
    simpa [RegExpr.toks, RegExpr.print] using this
  | regImmRegScaled r w s v =>
    have := (prints_reg r).op hp ((prints_int h.2.1).op hp ((prints_reg s).op hm (prints_int h.2.2.2) (intToks_ne v))
      (by simp)) (by simp)
    simpa [RegExpr.toks, RegExpr.print] using this

theorem prints_operand {ftos : Word → Str} {o : Operand} (h : o.Named) (hl : o.Legible stod ftos) :
    Prints stod o.toks (o.print ftos) := by
  have hb : Prints stod [.rbrack] [']'] := Prints.one (.symbol (w := "]") rfl)
  have ho : Spells stod .lbrack ['['] := .symbol (w := "[") rfl
  cases o with
  | imm w => exact prints_int h
  | fimm x => exact Prints.one hl
  | val e => exact prints_expr h
  | freg i => exact Prints.one (Spells.id (c := 'F') (by decide) fun d hd => isIdChar_digit (ofNat_isDigit i d hd))
  | memImm a =>
    have := Prints.free ho (fun c h => h) ((Prints.one (spells_num (stod := stod) hl)).append hb ⟨']', _, rfl, by simp⟩)
    simpa [Operand.toks, Operand.print] using this
  | mem e =>
    have := Prints.free ho (fun c h => h) ((prints_expr h).append hb ⟨']', _, rfl, by simp⟩)
    simpa [Operand.toks, Operand.print] using this

theorem toks_ne (o : Operand) : o.toks ≠ [] := by
  cases o with
  | imm w => exact intToks_ne w
  | val e => cases e <;> simp [Operand.toks, RegExpr.toks]
  | _ => simp [Operand.toks]

theorem prints_more {ftos : Word → Str} : ∀ {l : List Operand}, (∀ o ∈ l, o.Named) → (∀ o ∈ l, o.Legible stod ftos) →
    Prints stod (moreToks l) (printMore ftos l) ∧ ∀ c r, printMore ftos l = c :: r → c = ','
  | [], _, _ => ⟨fun us rest hu hs => hu, by simp [printMore]⟩
  | o :: l, h, hl => by
    have ih := prints_more (l := l) (fun x hx => h x (by simp [hx])) (fun x hx => hl x (by simp [hx]))
    have h1 := prints_operand (h o (by simp)) (hl o (by simp))
    refine ⟨?_, by intro c r h; exact ((List.cons.inj h).1).symm⟩
    have h2 : Prints stod (o.toks ++ moreToks l) (o.print ftos ++ printMore ftos l) := by
      cases hp : printMore ftos l with
      | nil =>
        intro us rest hu hs
        have := ih.1 us rest hu hs
        rw [hp] at this
        rw [List.append_assoc, List.append_nil]
        exact h1 _ _ this hs
      | cons c r =>
        rw [← hp]
        exact h1.append ih.1 ⟨c, r, hp, Or.inr (Or.inl (ih.2 c r hp))⟩
    have h3 := (h2.gap (by simp [toks_ne])).free (t := .comma) (c := ',') (.symbol (w := ",") rfl) (fun c h => h)
    simpa [moreToks, printMore] using h3

theorem name_id (i : Instr) : ∃ c w, i.name = c :: w ∧ Lexer.isIdStart c = true ∧ ∀ d ∈ w, Lexer.isIdChar d = true := by
  cases i with
  | bin op => cases op <;> exact ⟨_, _, rfl, by decide, by decide⟩
  | fbin op => cases op <;> exact ⟨_, _, rfl, by decide, by decide⟩
  | un op => cases op <;> exact ⟨_, _, rfl, by decide, by decide⟩
  | jcc c => cases c <;> exact ⟨_, _, rfl, by decide, by decide⟩
  | _ => exact ⟨_, _, rfl, by decide, by decide⟩

theorem prints_name (i : Instr) : Prints stod [.id i.name] i.name := by
  obtain ⟨c, w, h, h1, h2⟩ := name_id i
  rw [h]
  exact Prints.one (.id h1 h2)

/-- The text of an instruction consists of its tokens. -/
theorem prints_instr {ftos : Word → Str} {i : Instr} (h : i.Writable) (hl : ∀ o ∈ i.shown, o.Legible stod ftos) :
    Prints stod i.toks (i.print ftos) := by
  unfold Instr.toks Instr.print
  cases hs : i.shown with
  | nil => exact prints_name i
  | cons o l =>
    have hw := h.2
    rw [hs] at hw hl
    have ih := prints_more (l := l) (fun x hx => hw x (by simp [hx])) (fun x hx => hl x (by simp [hx]))
    have h1 := prints_operand (hw o (by simp)) (hl o (by simp))
    have h2 : Prints stod (o.toks ++ moreToks l) (o.print ftos ++ printMore ftos l) := by
      cases hp : printMore ftos l with
      | nil =>
        intro us rest hu hs
        have := ih.1 us rest hu hs
        rw [hp] at this
        rw [List.append_assoc, List.append_nil]
        exact h1 _ _ this hs
      | cons c r =>
        rw [← hp]
        exact h1.append ih.1 ⟨c, r, hp, Or.inr (Or.inl (ih.2 c r hp))⟩
    have h3 := (prints_name i).append (h2.gap (by simp [toks_ne])) ⟨' ', _, rfl, Or.inl rfl⟩
    simpa using h3

end

/-! ## The tokens are read back -/

/-- An address in brackets is an `int`. -/
def Operand.Short : Operand → Prop
  | .memImm a => a.toNat < 2 ^ 31
  | _ => True

theorem Operand.Legible.short {stod : Str → Except Err Word} {ftos : Word → Str} {o : Operand} (h : o.Legible stod ftos) :
    o.Short := by
  cases o with
  | memImm a => exact h
  | _ => trivial

namespace Asm
open Pars

theorem intToks_cases (w : Word) (h : Word.Literal w) :
    (∃ k : Nat, intToks w = [.num k] ∧ word k = w) ∨ (∃ k : Nat, intToks w = [.minus, .num k] ∧ word (-(k : Int)) = w) := by
  unfold intToks
  split
  · refine Or.inr ⟨_, rfl, ?_⟩
    rw [show (-((w.toInt.natAbs : Nat) : Int)) = w.toInt by omega]
    exact BitVec.ofInt_toInt
  · refine Or.inl ⟨_, rfl, ?_⟩
    rw [show ((w.toInt.natAbs : Nat) : Int) = w.toInt by omega]
    exact BitVec.ofInt_toInt

theorem intToks_eq {w : Word} : (w.toInt < 0 ∧ intToks w = [.minus, .num w.toInt.natAbs]) ∨
    (¬ w.toInt < 0 ∧ intToks w = [.num w.toInt.natAbs]) := by
  unfold intToks
  by_cases h : w.toInt < 0
  · rw [if_pos h]; exact Or.inl ⟨h, rfl⟩
  · rw [if_neg h]; exact Or.inr ⟨h, rfl⟩

/-- Any token. -/
def any : Tok → Prop := fun _ => True

theorem parses_imm (w : Word) : Parses imm (intToks w) w.toInt any := by
  unfold imm
  rcases intToks_eq (w := w) with ⟨h, e⟩ | ⟨h, e⟩ <;> rw [e]
  · refine Parses.tok (Parses.next (Parses.lastNum ?_))
    rw [show w.toInt = -((w.toInt.natAbs : Nat) : Int) by omega]
    simp only [Int.natAbs_neg, Int.natAbs_natCast]
    exact Parses.next (Parses.pure _ _)
  · refine Parses.tok (Parses.lastNum ?_)
    have : ((w.toInt.natAbs : Nat) : Int) = w.toInt := by omega
    rw [this]
    exact Parses.next (Parses.pure _ _)

theorem word_toInt (w : Word) : word w.toInt = w := BitVec.ofInt_toInt

theorem parses_immOperand (w : Word) : Parses immOperand (intToks w) (.imm w) any := by
  unfold immOperand
  have := (parses_imm w).bind (f := fun n => (pure (.imm (word n)) : Pars Operand)) (Parses.pure _ any) (fun _ h => h)
  rw [List.append_nil, word_toInt] at this
  exact this

theorem parses_atoi {i : Nat} (h : i < 2 ^ 31) : atoi (ofNat i) = pure i := by
  unfold atoi
  rw [takeWhile_all (ofNat_isDigit i)]
  simp only [ofNat_digits, if_pos h]

theorem pure_bind' {α β : Type} (a : α) (f : α → Pars β) : ((pure a : Pars α) >>= f) = f a := rfl

theorem getRegister_print {r : Reg} (h : r.Named) : getRegister r.print = pure r := by
  cases r with
  | gp i =>
    unfold getRegister Reg.print
    obtain ⟨c, s, hc, hd⟩ := ofNat_head i
    rw [if_neg (by simp), if_neg (by simp), if_neg (by simp)]
    simp only
    rw [parses_atoi h]
    rfl
  | flags => exact absurd h id
  | _ => rfl

theorem getFloatRegister_print {i : Nat} (h : i < 2 ^ 31) : getFloatRegister (printFloatReg i) = pure i := by
  unfold getFloatRegister printFloatReg
  exact parses_atoi h

theorem parses_register {r : Reg} (h : r.Named) : Parses register [r.tk] r any := by
  unfold register
  refine Parses.tok ?_
  show Parses (getRegister r.print >>= _) _ _ _
  rw [getRegister_print h, pure_bind']
  exact Parses.next (Parses.pure _ _)

theorem parses_innerReg {r : Reg} (h : r.Named) : Parses (innerReg r.print) [r.tk] r any := by
  unfold innerReg
  rw [getRegister_print h, pure_bind']
  exact Parses.next (Parses.pure _ _)

theorem parses_floatRegister {i : Nat} (h : i < 2 ^ 31) : Parses floatRegister [.id (printFloatReg i)] i any := by
  unfold floatRegister
  refine Parses.tok ?_
  show Parses (getFloatRegister (printFloatReg i) >>= _) _ _ _
  rw [getFloatRegister_print h, pure_bind']
  exact Parses.next (Parses.pure _ _)

theorem parses_regOperand {r : Reg} (h : r.Named) : Parses regOperand [r.tk] (.val (.reg r)) any := by
  unfold regOperand
  exact (parses_register h).bind (Parses.pure _ any) (fun _ h => h)

theorem parses_floatImm (x : Word) : Parses floatImm [.float x] (.fimm x) any := by
  unfold floatImm
  exact Parses.tok (Parses.next (Parses.pure _ _))

theorem parses_floatImmOrRegister {o : Operand} (h : o.Named) (hs : o.isFloatImmReg) :
    Parses floatImmOrRegister o.toks o any := by
  unfold floatImmOrRegister
  cases o with
  | fimm x => exact Parses.tok (parses_floatImm x)
  | freg i => exact Parses.tok ((parses_floatRegister h).bind (Parses.pure _ any) (fun _ h => h))
  | _ => exact hs.elim

theorem parses_immOrRegister {o : Operand} (h : o.Named) (hs : o.isImmReg) : Parses immOrRegister o.toks o any := by
  unfold immOrRegister
  cases o with
  | imm w =>
    have h1 := parses_immOperand w
    show Parses _ (intToks w) _ _
    rcases intToks_eq (w := w) with ⟨_, e⟩ | ⟨_, e⟩ <;> rw [e] at h1 ⊢ <;> exact Parses.tok h1
  | val e =>
    cases e with
    | reg r => exact Parses.tok (parses_regOperand h)
    | _ => exact hs.elim
  | _ => exact hs.elim

/-- Not a token that continues an expression. -/
def stop (t : Tok) : Prop := t ≠ .plus ∧ t ≠ .minus ∧ t ≠ .times

/-- A register followed by a choice on the next token. -/
theorem parses_immOrRegisterPlusImm {o : Operand} (h : o.Named) (hs : o.isImmReg ∨ o.isRegPlusImm) :
    Parses immOrRegisterPlusImm o.toks o stop := by
  unfold immOrRegisterPlusImm
  cases o with
  | imm w =>
    have h1 := (parses_immOperand w).mono (look2 := stop) fun _ _ => trivial
    show Parses _ (intToks w) _ _
    rcases intToks_eq (w := w) with ⟨_, e⟩ | ⟨_, e⟩ <;> rw [e] at h1 ⊢ <;> exact Parses.tok h1
  | val e =>
    cases e with
    | reg r =>
      refine Parses.tok ((parses_register h).bind (us := []) (look1 := any) (Parses.tokNil ?_) (fun _ _ => trivial))
      intro t ht
      cases t <;> first | rfl | exact absurd rfl ht.1 | exact absurd rfl ht.2.1
    | regImm r w =>
      refine Parses.tok ((parses_register h.1).bind (us := .plus :: intToks w) (look1 := any) (Parses.tok (Parses.next ?_)) trivial)
      have := (parses_imm w).bind (f := fun n => (pure (.val (.regImm r (word n))) : Pars Operand)) (Parses.pure _ stop)
        (fun _ _ => trivial)
      rw [List.append_nil, word_toInt] at this
      exact this
    | _ => exact (hs.elim id id).elim
  | _ => exact (hs.elim id id).elim

theorem parses_rbrack : Parses rbrack [.rbrack] () any := by
  unfold rbrack
  exact Parses.tok Parses.nextLast

theorem parses_comma : Parses comma [.comma] () any := by
  unfold comma
  exact Parses.tok Parses.nextLast

theorem parses_simpleMemory {o : Operand} (h : o.Named) (hs : o.isSimpleMem)
    (hl : o.Short) : Parses simpleMemory o.toks o any := by
  unfold simpleMemory
  cases o with
  | memImm a =>
    refine Parses.tok (Parses.next (Parses.tok ?_))
    have e : intToks a = [.num a.toNat] := by
      have hl : a.toNat < 2 ^ 31 := hl
      have : a.toInt = a.toNat := by rw [BitVec.toInt_eq_toNat_of_lt]; omega
      unfold intToks
      rw [this, if_neg (by omega)]
      simp
    have := (parses_imm a).bind (us := [.rbrack]) (b := Operand.memImm a)
      (f := fun n => rbrack >>= fun _ => (pure (.memImm (word n)) : Pars Operand)) (look2 := any)
      (by rw [word_toInt]; exact parses_rbrack.bind (Parses.pure _ any) (fun _ h => h)) trivial
    rw [e] at this
    exact this
  | mem e =>
    cases e with
    | reg r =>
      refine Parses.tok (Parses.next (Parses.tok ((parses_register h).bind (us := [.rbrack]) (Parses.tok ?_) trivial)))
      exact parses_rbrack.bind (Parses.pure _ any) (fun _ h => h)
    | regImm r w =>
      refine Parses.tok (Parses.next (Parses.tok ((parses_register h.1).bind (us := .plus :: (intToks w ++ [.rbrack]))
        (Parses.tok (Parses.next ?_)) trivial)))
      refine (parses_imm w).bind (us := [.rbrack]) ?_ trivial
      rw [word_toInt]
      exact parses_rbrack.bind (Parses.pure _ any) (fun _ h => h)
    | _ => exact hs.elim
  | _ => exact hs.elim

theorem parses_immOrRegisterOrMemory {o : Operand} (h : o.Named)
    (hs : o.isImmReg ∨ o.isSimpleMem) (hl : o.Short) : Parses immOrRegisterOrMemory o.toks o any := by
  unfold immOrRegisterOrMemory
  rcases hs with hs | hs
  · have h1 := parses_immOrRegister h hs
    cases o with
    | imm w =>
      change Parses _ (intToks w) _ _ at h1
      show Parses _ (intToks w) _ _
      rcases intToks_eq (w := w) with ⟨_, e⟩ | ⟨_, e⟩ <;> rw [e] at h1 ⊢ <;> exact Parses.tok h1
    | val e => cases e with
      | reg r => exact Parses.tok h1
      | _ => exact hs.elim
    | _ => exact hs.elim
  · have h1 := parses_simpleMemory h hs hl
    cases o with
    | memImm a => exact Parses.tok h1
    | mem e => exact Parses.tok h1
    | _ => exact hs.elim

theorem parses_immOrRegisterPlusImmOrMemory {o : Operand} (h : o.Named)
    (hs : o.isImmReg ∨ o.isRegPlusImm ∨ o.isSimpleMem) (hl : o.Short) :
    Parses immOrRegisterPlusImmOrMemory o.toks o stop := by
  unfold immOrRegisterPlusImmOrMemory
  rcases or_assoc.2 hs with hs | hs
  · have h1 := parses_immOrRegisterPlusImm h hs
    cases o with
    | imm w =>
      change Parses _ (intToks w) _ _ at h1
      show Parses _ (intToks w) _ _
      rcases intToks_eq (w := w) with ⟨_, e⟩ | ⟨_, e⟩ <;> rw [e] at h1 ⊢ <;> exact Parses.tok h1
    | val e => cases e with
      | reg r => exact Parses.tok h1
      | regImm r w => exact Parses.tok h1
      | _ => exact (hs.elim id id).elim
    | _ => exact (hs.elim id id).elim
  · have h1 := (parses_simpleMemory h hs hl).mono (look2 := stop) fun _ _ => trivial
    cases o with
    | memImm a => exact Parses.tok h1
    | mem e => exact Parses.tok h1
    | _ => exact hs.elim

/-- Exactly the closing bracket. -/
def close (t : Tok) : Prop := t = .rbrack

theorem parses_scaled {e : RegExpr} {w : Word} {f : Word → RegExpr} (he : f w = e) :
    Parses (imm >>= fun m => (pure (.mem (f (word m))) : Pars Operand)) (intToks w) (.mem e) close := by
  have := (parses_imm w).bind (f := fun m => (pure (.mem (f (word m))) : Pars Operand)) (Parses.pure _ close)
        (fun _ _ => trivial)
  rw [List.append_nil, word_toInt, he] at this
  exact this

theorem parses_offset {r : Reg} {w : Word} {us : List Tok} {o : Operand} (h : Parses (memoryOffset r w.toInt) us o close)
    (hd : Head us any close) :
    Parses (imm >>= fun n => memoryOffset r (if false = true then -n else n) >>= fun o => (pure (some o) : Pars (Option Operand)))
      (intToks w ++ us) (some o) close := by
  refine (parses_imm w).bind ?_ hd
  have := h.bind (f := fun o => (pure (some o) : Pars (Option Operand))) (Parses.pure _ close) (fun _ h => h)
  rw [List.append_nil] at this
  exact this

theorem parses_plusNum {r : Reg} {w : Word} {us : List Tok} {o : Operand} (h : Parses (memoryOffset r w.toInt) us o close)
    (hd : Head us any close) : Parses (memoryPlus r false) (.plus :: (intToks w ++ us)) (some o) close := by
  unfold memoryPlus
  refine Parses.next ?_
  have := parses_offset h hd
  rcases intToks_eq (w := w) with ⟨_, e⟩ | ⟨_, e⟩ <;> rw [e] at this ⊢ <;> exact Parses.tok this

theorem parses_memoryInner {e : RegExpr} (h : e.Named) : Parses memoryInner e.toks (some (.mem e)) close := by
  unfold memoryInner
  cases e with
  | reg r =>
    refine Parses.tok ((parses_innerReg h).bind (us := []) (Parses.tokNil ?_) (fun _ _ => trivial))
    intro t ht
    cases ht
    rfl
  | regImm r w =>
    refine Parses.tok ((parses_innerReg h.1).bind (us := .plus :: intToks w) (Parses.tok ?_) trivial)
    have := parses_plusNum (r := r) (w := w) (us := []) (o := .mem (.regImm r w)) (by
      unfold memoryOffset
      refine Parses.tokNil ?_
      intro t ht; cases ht
      rw [word_toInt]) (fun _ _ => trivial)
    rw [List.append_nil] at this
    exact this
  | regReg r s =>
    refine Parses.tok ((parses_innerReg h.1).bind (us := [.plus, s.tk]) (Parses.tok ?_) trivial)
    refine Parses.next (Parses.tok ((parses_innerReg h.2).bind (us := []) ?_ (fun _ _ => trivial)))
    unfold memoryReg
    refine Parses.tokNil ?_
    intro t ht; cases ht; rfl
  | regScaled r w =>
    refine Parses.tok ((parses_innerReg h.1).bind (us := .times :: intToks w) (Parses.tok (Parses.next ?_)) trivial)
    have := (parses_imm w).bind (f := fun m => (pure (some (.mem (.regScaled r (word m)))) : Pars (Option Operand)))
      (Parses.pure _ close) (fun _ _ => trivial)
    rw [List.append_nil, word_toInt] at this
    rcases intToks_eq (w := w) with ⟨_, e⟩ | ⟨_, e⟩ <;> rw [e] at this ⊢ <;> exact Parses.tok this
  | regImmReg r w s =>
    refine Parses.tok ((parses_innerReg h.1).bind (us := .plus :: (intToks w ++ [.plus, s.tk])) (Parses.tok ?_) trivial)
    refine parses_plusNum ?_ trivial
    unfold memoryOffset
    refine Parses.tok (Parses.next (Parses.tok ((parses_innerReg h.2.2).bind (us := []) (Parses.tokNil ?_) (fun _ _ => trivial))))
    intro t ht; cases ht
    rw [word_toInt]
  | regRegScaled r s w =>
    refine Parses.tok ((parses_innerReg h.1).bind (us := .plus :: s.tk :: .times :: intToks w) (Parses.tok ?_) trivial)
    refine Parses.next (Parses.tok ((parses_innerReg h.2.1).bind (us := .times :: intToks w) ?_ trivial))
    unfold memoryReg
    refine Parses.tok (Parses.next ?_)
    have := (parses_imm w).bind (f := fun m => (pure (some (.mem (.regRegScaled r s (word m)))) : Pars (Option Operand)))
      (Parses.pure _ close) (fun _ _ => trivial)
    rw [List.append_nil, word_toInt] at this
    rcases intToks_eq (w := w) with ⟨_, e⟩ | ⟨_, e⟩ <;> rw [e] at this ⊢ <;> exact Parses.tok this
  | regImmRegScaled r w s v =>
    refine Parses.tok ((parses_innerReg h.1).bind (us := .plus :: (intToks w ++ (.plus :: s.tk :: .times :: intToks v)))
      (Parses.tok ?_) trivial)
    refine parses_plusNum ?_ trivial
    unfold memoryOffset
    refine Parses.tok (Parses.next (Parses.tok ((parses_innerReg h.2.2.1).bind (us := .times :: intToks v)
      (Parses.tok (Parses.next ?_)) trivial)))
    have := (parses_imm v).bind (f := fun m => (pure (.mem (.regImmRegScaled r (word w.toInt) s (word m))) : Pars Operand))
      (Parses.pure _ close) (fun _ _ => trivial)
    rw [List.append_nil, word_toInt v] at this
    rw [word_toInt w] at this ⊢
    exact this

theorem parses_memory {o : Operand} (h : o.Named) (hs : o.isMem)
    (hl : o.Short) : Parses memory o.toks o any := by
  unfold memory
  have last : Parses (rbrack >>= fun _ => (pure o : Pars Operand)) [.rbrack] o any :=
    parses_rbrack.bind (Parses.pure _ any) (fun _ h => h)
  cases o with
  | memImm a =>
    refine Parses.tok (Parses.next ?_)
    have h1 : Parses memoryInner [.num a.toNat] (some (.memImm a)) close := by
      unfold memoryInner
      refine Parses.tok (Parses.lastNum (Parses.next ?_))
      have : word (a.toNat : Int) = a := by simp [word]
      rw [this]
      exact Parses.pure _ _
    exact h1.bind (us := [.rbrack]) last rfl
  | mem e =>
    refine Parses.tok (Parses.next ?_)
    exact (parses_memoryInner h).bind (us := [.rbrack]) last rfl
  | _ => exact hs.elim

theorem parses_operand {o : Operand} (h : o.Named)
    (hs : o.isImmReg ∨ o.isMem ∨ o.isFloatImmReg) (hl : o.Short) : Parses operand o.toks o any := by
  unfold operand
  cases o with
  | imm w =>
    have h1 := parses_immOperand w
    show Parses _ (intToks w) _ _
    rcases intToks_eq (w := w) with ⟨_, e⟩ | ⟨_, e⟩ <;> rw [e] at h1 ⊢ <;> exact Parses.tok h1
  | fimm x => exact Parses.tok (parses_floatImm x)
  | freg i => exact Parses.tok ((parses_floatRegister h).bind (Parses.pure _ any) (fun _ h => h))
  | memImm a => exact Parses.tok (parses_memory h trivial hl)
  | mem e => exact Parses.tok (parses_memory h trivial hl)
  | val e =>
    cases e with
    | reg r =>
      have h1 := parses_regOperand (r := r) h
      refine Parses.tok ?_
      cases r <;> first | exact h1 | exact absurd h id
    | _ => exact (hs.elim id (fun h => h.elim id id)).elim

theorem shape_movOk {d v : Operand} (h : MovShape d v) : movOk d v = true := by
  cases d with
  | imm w => exact h.elim
  | val e =>
    cases e <;> first
    | exact h.elim
    | (cases v with
       | val e => cases e <;> simp_all [movOk, MovShape, Operand.isImmReg, Operand.isMem]
       | _ => simp_all [movOk, MovShape, Operand.isImmReg, Operand.isMem])
  | freg f => cases v with
    | val e => cases e <;> simp_all [movOk, MovShape, Operand.isFloatImmReg]
    | mem e => cases e <;> simp_all [movOk, MovShape, Operand.isFloatImmReg]
    | _ => simp_all [movOk, MovShape, Operand.isFloatImmReg]
  | _ => cases v with
    | val e => cases e <;> simp_all [movOk, MovShape, Operand.isImmReg]
    | _ => simp_all [movOk, MovShape, Operand.isImmReg]

theorem movShape_any {d v : Operand} (h : MovShape d v) :
    (d.isImmReg ∨ d.isMem ∨ d.isFloatImmReg) ∧ (v.isImmReg ∨ v.isMem ∨ v.isFloatImmReg) := by
  have hv : (v.isImmReg ∨ v.isMem ∨ v.isFloatImmReg) := by
    cases d with
    | imm w => exact h.elim
    | val e =>
      cases e <;> first
      | exact h.elim
      | (rcases h with h | h | ⟨f, rfl⟩
         · exact Or.inl h
         · exact Or.inr (Or.inl h)
         · exact Or.inr (Or.inr trivial))
    | freg f =>
      rcases h with h | ⟨r, rfl⟩ | ⟨a, rfl⟩ | ⟨r, rfl⟩
      · exact Or.inr (Or.inr h)
      · exact Or.inl trivial
      · exact Or.inr (Or.inl trivial)
      · exact Or.inr (Or.inl trivial)
    | _ =>
      rcases h with h | ⟨f, rfl⟩
      · exact Or.inl h
      · exact Or.inr (Or.inr trivial)
  refine ⟨?_, hv⟩
  cases d with
  | imm w => exact h.elim
  | val e => cases e <;> first | exact h.elim | exact Or.inl trivial
  | freg f => exact Or.inr (Or.inr trivial)
  | fimm f => exact Or.inr (Or.inr trivial)
  | _ => exact Or.inr (Or.inl trivial)

theorem parses_binary {α β : Type} {p : Pars α} {q : Pars β} {f : α → β → Instr} {ts us : List Tok} {a : α} {b : β}
    {look1 look2 : Tok → Prop} (hp : Parses p ts a look1) (hc : look1 .comma) (hq : Parses q us b look2) (hne : us ≠ []) :
    Parses (binary p q f) (ts ++ (.comma :: us)) (f a b) look2 := by
  unfold binary
  refine hp.bind ?_ hc
  have h2 := hq.bind (f := fun b => (pure (f a b) : Pars Instr)) (Parses.pure _ look2) (fun _ h => h)
  rw [List.append_nil] at h2
  refine parses_comma.bind (us := us) h2 ?_
  cases us with
  | nil => exact absurd rfl hne
  | cons u us => trivial

theorem parses_unary {α : Type} {p : Pars α} {f : α → Instr} {ts : List Tok} {a : α}
    {look1 : Tok → Prop} (hp : Parses p ts a look1) : Parses (unary p f) ts (f a) look1 := by
  unfold unary
  have h2 := hp.bind (f := fun b => (pure (f b) : Pars Instr)) (Parses.pure _ look1) (fun _ h => h)
  rwa [List.append_nil] at h2

/-- The tokens of an instruction after its name. -/
def bodyToks (i : Instr) : List Tok :=
  match i.shown with
  | [] => []
  | o :: l => o.toks ++ moreToks l

theorem toks_eq (i : Instr) : i.toks = .id i.name :: bodyToks i := by
  unfold Instr.toks bodyToks
  cases i.shown <;> rfl

theorem two (a b : Operand) : (a.toks ++ moreToks [b]) = a.toks ++ (.comma :: b.toks) := by simp [moreToks]
theorem one (a : Operand) : (a.toks ++ moreToks []) = a.toks := by simp [moreToks]

theorem parses_body {i : Instr} (h : i.Writable)
    (hl : ∀ o ∈ i.shown, o.Short) : Parses (body i.name) (bodyToks i) i stop := by
  obtain ⟨hs, hn⟩ := h
  have weak : ∀ t, stop t → any t := fun _ _ => trivial
  unfold bodyToks
  cases i with
  | mov d v =>
    have hd := movShape_any hs
    have h1 := parses_operand (hn d (by simp [Instr.shown])) hd.1 (hl d (by simp [Instr.shown]))
    have h2 := parses_operand (hn v (by simp [Instr.shown])) hd.2 (hl v (by simp [Instr.shown]))
    show Parses mov (d.toks ++ moreToks [v]) _ _
    rw [two]
    unfold mov
    refine h1.bind ?_ trivial
    have h3 := (h2.mono weak).bind (b := Instr.mov d v) (us := [])
      (f := fun src => if movOk d src then (pure (.mov d src) : Pars Instr) else throw .parser) (look2 := stop)
      (by rw [if_pos (shape_movOk hs)]; exact Parses.pure _ _) (fun _ h => h)
    rw [List.append_nil] at h3
    refine parses_comma.bind (us := v.toks) h3 ?_
    cases hv : v.toks with
    | nil => exact absurd hv (toks_ne v)
    | cons u us => trivial
  | lea r m =>
    have hr : r.Named := hn (.val (.reg r)) (by simp [Instr.shown])
    obtain ⟨⟨e, rfl⟩, hne⟩ := hs
    have h2 := parses_memory (hn (.mem e) (by simp [Instr.shown])) trivial (hl (.mem e) (by simp [Instr.shown]))
    show Parses lea ([r.tk] ++ moreToks [.mem e]) _ _
    unfold lea
    have e1 : moreToks [.mem e] = .comma :: (Operand.mem e).toks := by simp [moreToks]
    rw [e1]
    refine (parses_register hr).bind ?_ trivial
    have hok : leaOk (.mem e) = true := by
      cases e <;> first | rfl | exact absurd rfl (hne _)
    have h3 := (h2.mono weak).bind (b := Instr.lea r (.mem e)) (us := [])
      (f := fun m => if leaOk m then (pure (.lea r m) : Pars Instr) else throw .parser) (look2 := stop)
      (by rw [if_pos hok]; exact Parses.pure _ _) (fun _ h => h)
    rw [List.append_nil] at h3
    exact parses_comma.bind (us := (Operand.mem e).toks) h3 trivial
  | bin op risc d r v =>
    obtain ⟨h0, rfl, rfl, hv⟩ := hs
    have hr : d.Named := hn (.val (.reg d)) (by simp [Instr.shown])
    have h2 := parses_immOrRegisterPlusImmOrMemory (hn v (by simp [Instr.shown])) hv (hl v (by simp [Instr.shown]))
    have h3 := parses_binary (f := fun r v => Instr.bin op false r r v) (parses_register hr) trivial h2 (toks_ne v)
    show Parses _ ((Operand.val (.reg d)).toks ++ moreToks [v]) _ _
    rw [two]
    cases op <;> first | exact absurd rfl h0 | exact h3
  | fbin op f v =>
    have hr : f < 2 ^ 31 := hn (.freg f) (by simp [Instr.shown])
    have h2 := parses_floatImmOrRegister (hn v (by simp [Instr.shown])) hs
    have h3 := parses_binary (f := Instr.fbin op) (parses_floatRegister hr) trivial (h2.mono weak) (toks_ne v)
    show Parses _ ((Operand.freg f).toks ++ moreToks [v]) _ _
    rw [two]
    cases op <;> exact h3
  | un op r =>
    have hr : r.Named := hn (.val (.reg r)) (by simp [Instr.shown])
    have h3 := parses_unary (f := Instr.un op) ((parses_register hr).mono weak)
    cases op <;> exact h3
  | cmp r v =>
    have hr : r.Named := hn (.val (.reg r)) (by simp [Instr.shown])
    have h2 := parses_immOrRegisterOrMemory (hn v (by simp [Instr.shown])) hs (hl v (by simp [Instr.shown]))
    have h3 := parses_binary (f := Instr.cmp) (parses_register hr) trivial (h2.mono weak) (toks_ne v)
    show Parses _ ((Operand.val (.reg r)).toks ++ moreToks [v]) _ _
    rw [two]
    exact h3
  | fcmp f v =>
    have hr : f < 2 ^ 31 := hn (.freg f) (by simp [Instr.shown])
    have h2 := parses_floatImmOrRegister (hn v (by simp [Instr.shown])) hs
    have h3 := parses_binary (f := Instr.fcmp) (parses_floatRegister hr) trivial (h2.mono weak) (toks_ne v)
    show Parses _ ((Operand.freg f).toks ++ moreToks [v]) _ _
    rw [two]
    exact h3
  | jmp a =>
    have h2 := parses_immOrRegister (hn a (by simp [Instr.shown])) hs
    show Parses _ (a.toks ++ moreToks []) _ _
    rw [one]
    exact parses_unary (f := Instr.jmp) (h2.mono weak)
  | jcc c a =>
    have h2 := parses_immOrRegisterOrMemory (hn a (by simp [Instr.shown])) hs (hl a (by simp [Instr.shown]))
    show Parses _ (a.toks ++ moreToks []) _ _
    rw [one]
    have h3 := parses_unary (f := Instr.jcc c) (h2.mono weak)
    cases c <;> exact h3
  | loop r a =>
    have hr : r.Named := hn (.val (.reg r)) (by simp [Instr.shown])
    have h2 := parses_immOrRegister (hn a (by simp [Instr.shown])) hs
    have h3 := parses_binary (f := Instr.loop) (parses_register hr) trivial (h2.mono weak) (toks_ne a)
    show Parses _ ((Operand.val (.reg r)).toks ++ moreToks [a]) _ _
    rw [two]
    exact h3
  | call a =>
    have h2 := parses_immOrRegister (hn a (by simp [Instr.shown])) hs
    show Parses _ (a.toks ++ moreToks []) _ _
    rw [one]
    exact parses_unary (f := Instr.call) (h2.mono weak)
  | push a =>
    have h2 := parses_immOrRegister (hn a (by simp [Instr.shown])) hs
    show Parses _ (a.toks ++ moreToks []) _ _
    rw [one]
    exact parses_unary (f := Instr.push) (h2.mono weak)
  | fpush a =>
    have h2 := parses_floatImmOrRegister (hn a (by simp [Instr.shown])) hs
    show Parses _ (a.toks ++ moreToks []) _ _
    rw [one]
    exact parses_unary (f := Instr.fpush) (h2.mono weak)
  | pop r =>
    have hr : r.Named := hn (.val (.reg r)) (by simp [Instr.shown])
    exact parses_unary (f := Instr.pop) ((parses_register hr).mono weak)
  | fpop r =>
    have hr : r < 2 ^ 31 := hn (.freg r) (by simp [Instr.shown])
    exact parses_unary (f := Instr.fpop) ((parses_floatRegister hr).mono weak)
  | putchar r =>
    have hr : r.Named := hn (.val (.reg r)) (by simp [Instr.shown])
    exact parses_unary (f := Instr.putchar) ((parses_register hr).mono weak)
  | putnum r =>
    have hr : r.Named := hn (.val (.reg r)) (by simp [Instr.shown])
    exact parses_unary (f := Instr.putnum) ((parses_register hr).mono weak)
  | getchar r =>
    have hr : r.Named := hn (.val (.reg r)) (by simp [Instr.shown])
    exact parses_unary (f := Instr.getchar) ((parses_register hr).mono weak)
  | ext f r =>
    have hr : r.Named := hn (.val (.reg r)) (by simp [Instr.shown])
    have hf : f < 2 ^ 31 := hn (.freg f) (by simp [Instr.shown])
    exact parses_binary (f := Instr.ext) (parses_floatRegister hf) trivial ((parses_register hr).mono weak) (List.cons_ne_nil _ _)
  | nrw r f =>
    have hr : r.Named := hn (.val (.reg r)) (by simp [Instr.shown])
    have hf : f < 2 ^ 31 := hn (.freg f) (by simp [Instr.shown])
    exact parses_binary (f := Instr.nrw) (parses_register hr) trivial ((parses_floatRegister hf).mono weak) (List.cons_ne_nil _ _)
  | clf => exact hs.elim
  | nop => exact Parses.pure _ _
  | halt => exact Parses.pure _ _
  | brk => exact Parses.pure _ _
  | bkpt => exact Parses.pure _ _
  | ret => exact Parses.pure _ _

theorem parses_instruction {i : Instr} (h : i.Writable)
    (hl : ∀ o ∈ i.shown, o.Short) : Parses instruction i.toks i stop := by
  rw [toks_eq]
  unfold instruction
  refine Parses.tok ?_
  show Parses named _ _ _
  unfold named
  exact Parses.tok (Parses.next (parses_body h hl))

theorem back_oneInstruction {i : Instr} (h : i.Writable)
    (hl : ∀ o ∈ i.shown, o.Short) : oneInstruction.onToks i.toks = .ok i := by
  unfold oneInstruction
  refine Parses.start (look := fun t => t = .eof) ?_ rfl
  have h2 := (parses_instruction h hl).bind (us := []) (look2 := fun t => t = .eof) (b := i)
    (f := fun i => checkEnd >>= fun _ => (pure i : Pars Instr)) ?_ (by rintro t rfl; exact ⟨by simp, by simp, by simp⟩)
  · rwa [List.append_nil] at h2
  · show Parses (checkEnd >>= _) _ _ _
    unfold checkEnd
    have : (do (match ← tok with | .eof => pure () | _ => throw .parser : Pars Unit)) = checkEnd := rfl
    have h3 : Parses checkEnd [] () (fun t => t = .eof) := by
      unfold checkEnd
      refine Parses.tokNil ?_
      rintro t rfl; rfl
    exact h3.bind (Parses.pure _ _) (fun _ h => h)

end Asm
end T86
