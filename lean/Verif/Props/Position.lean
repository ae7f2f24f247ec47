import Verif.Lemmas.Position
import Verif.Lemmas.ExprBack
import Verif.Props.Asm

/-! # C76: messages about a rejected text name the place -/

namespace T86
namespace Position
open Dbg Lexer Str Pars

variable {stod : Str → Except Err Word}

theorem lex_number {i : Bool} {s rest : Str} {x : Char} (hst : ∀ w, stod w ≠ .error .parser) (h : skip i false s = x :: rest)
    (hd : isDigit x = true) : lex stod i s ≠ .error .parser := by
  unfold lex
  rw [h]
  simp only
  cases h1 : single x with
  | some t => intro h; cases h
  | none =>
    simp only
    cases h2 : double x with
    | some tl =>
      obtain ⟨t1, l⟩ := tl
      simp only
      cases rest with
      | nil => intro h; cases h
      | cons d s =>
        simp only
        split <;> (intro h; cases h)
    | none =>
      simp only
      have hq : x ≠ '"' := by rintro rfl; revert hd; decide
      rw [if_neg hq, if_pos hd]
      unfold number
      split
      · cases hw : stod (x :: rest.takeWhile isNumChar) with
        | ok w => intro h; cases h
        | error e => intro h; cases h; exact hst _ hw
      · split
        · intro h; cases h
        · intro h; cases h

theorem rejects {α : Type} {text : Str} {r : Reader α} {p : Shown} (hst : ∀ w, stod w ≠ .error .parser)
    (hn : Reader.Stops text.length r) (hr : r ≠ .fail .parser) (h : parseAt stod r text = .error (.parser, p)) :
    ∃ before, (GivesUp stod r text before ∧ p = some (place before)) ∨
      (Unreadable stod r text before ∧ ∃ a b, p = some (a, b) ∧ place before = (a + 1, b + 1)) ∨
      (Unclosed stod r text before ∧ p = none) := by
  rcases runAt_rejects (text := text) (pre := []) hn (Nat.le_refl _) rfl rfl h with ⟨k, _⟩ | ⟨i, k, s, before, h1, h2, h3⟩
  · exact absurd k hr
  refine ⟨before, ?_⟩
  rcases h3 with ⟨t, rest, a, b, c⟩ | ⟨rest, a, b, c⟩ | ⟨x, rest, a, b, c, d⟩ | ⟨x, rest, a', b', a, b, c, d⟩
  · exact .inl ⟨⟨i, k, s, t, rest, h1, h2, a, b⟩, c⟩
  · exact .inr (.inr ⟨⟨i, k, s, rest, h1, by rw [h2, a], a, b⟩, c⟩)
  · exact absurd c (lex_number hst a b)
  · exact .inr (.inl ⟨⟨i, k, s, x, rest, h1, by rw [h2, a], a, b⟩, a', b', c, d⟩)

theorem stops_program (text : Str) : Reader.Stops text.length (program text) :=
  (Asm.live_parse _ _ (by omega)).stops0

theorem stops_expression (text : Str) : Reader.Stops text.length (expression text) :=
  (Ex.live_start (n := text.length) (by omega)).stops0

theorem stops_instruction (text : Str) : Reader.Stops text.length Asm.oneInstruction := by
  have k : ∀ n s, (Reader.bind ((do let i ← Asm.instruction; Asm.checkEnd; return i : Pars Instr) s) fun r => Reader.pure r.1).Live
      (fun _ _ => True) n := fun n s =>
    Reader.Live.bind (Keeps.bind Asm.moves_instruction.keeps (fun i => Keeps.bind Asm.keeps_checkEnd fun _ => Keeps.pure i) n s)
      fun _ _ _ => trivial
  have : (Asm.oneInstruction).Live (fun _ _ => True) text.length := ⟨k _ _, fun m _ t _ => k m _⟩
  exact this.stops0

/-- C76. Keeping track of positions does not change what is accepted, nor the result. -/
theorem C76_same {α : Type} (r : Reader α) (text : Str) : (parseAt stod r text).mapError Prod.fst = r.run stod text := runAt_same

/-- C76, partial: a rejected program. If the message has a position, it is the line and the column, counted from 1, of the token
at which the parser gave up, or it is the line and the column, counted from 0, of a character that begins no token. Messages
without a position are those about strings. -/
theorem C76_program_partial (hst : ∀ w, stod w ≠ .error .parser) {text : Str} {p : Shown}
    (h : parseAt stod (program text) text = .error (.parser, p)) :
    ∃ before, (GivesUp stod (program text) text before ∧ p = some (place before)) ∨
      (Unreadable stod (program text) text before ∧ ∃ a b, p = some (a, b) ∧ place before = (a + 1, b + 1)) ∨
      (Unclosed stod (program text) text before ∧ p = none) :=
  rejects hst (stops_program text) (by intro h; cases h) h

/-- C76, partial: an instruction typed in to be stored in the program. -/
theorem C76_instruction_partial (hst : ∀ w, stod w ≠ .error .parser) {text : Str} {p : Shown}
    (h : parseAt stod Asm.oneInstruction text = .error (.parser, p)) :
    ∃ before, (GivesUp stod Asm.oneInstruction text before ∧ p = some (place before)) ∨
      (Unreadable stod Asm.oneInstruction text before ∧ ∃ a b, p = some (a, b) ∧ place before = (a + 1, b + 1)) ∨
      (Unclosed stod Asm.oneInstruction text before ∧ p = none) :=
  rejects hst (stops_instruction text) (by intro h; cases h) h

/-- C76, partial: an expression. -/
theorem C76_expression_partial (hst : ∀ w, stod w ≠ .error .parser) {text : Str} {p : Shown}
    (h : parseAt stod (expression text) text = .error (.parser, p)) :
    ∃ before, (GivesUp stod (expression text) text before ∧ p = some (place before)) ∨
      (Unreadable stod (expression text) text before ∧ ∃ a b, p = some (a, b) ∧ place before = (a + 1, b + 1)) ∨
      (Unclosed stod (expression text) text before ∧ p = none) :=
  rejects hst (stops_expression text) (by intro h; cases h) h

/-- C76, partial: debugging information. -/
theorem C76_info_partial (hst : ∀ w, stod w ≠ .error .parser) {text : Str} {p : Shown}
    (h : parseAt stod (debugInfo text) text = .error (.parser, p)) :
    ∃ before, (GivesUp stod (debugInfo text) text before ∧ p = some (place before)) ∨
      (Unreadable stod (debugInfo text) text before ∧ ∃ a b, p = some (a, b) ∧ place before = (a + 1, b + 1)) ∨
      (Unclosed stod (debugInfo text) text before ∧ p = none) :=
  rejects hst (Info.stops_read text) (by intro h; cases h) h

/-! ### The hypotheses are met -/

/-- No floating point number can be read. -/
private def noStod : Str → Except Err Word := fun _ => .error .outOfRange

/-- An operand is missing in the second line: the position is that of the `HALT` after it. -/
example : parseAt noStod (program ".text\nMOV R0,\n  HALT".toList) ".text\nMOV R0,\n  HALT".toList = .error (.parser, some (3, 3)) := by
  decide +kernel

/-- The name of an instruction is looked at when the next token has been read: the position is that of the operand. -/
example : parseAt noStod Asm.oneInstruction "MOVE R0, 1".toList = .error (.parser, some (1, 6)) := by decide +kernel

/-- The second line of the debugging information has no colon. -/
example : (parseAt noStod (debugInfo ".debug_line\n1 2".toList) ".debug_line\n1 2".toList).map (fun _ => ()) = .error (.parser, some (2, 3)) := by decide +kernel

example : parseAt noStod (expression "1 + )".toList) "1 + )".toList = .error (.parser, some (1, 5)) := by decide +kernel

/-- A string that is not closed. -/
example : parseAt noStod (expression "1 + \"a".toList) "1 + \"a".toList = .error (.parser, none) := by decide +kernel

/-- A comment and an empty line before the place, which is the end of the text. -/
example : parseAt noStod (program "# a\n\n.text\nMOV 5, 5".toList) "# a\n\n.text\nMOV 5, 5".toList = .error (.parser, some (4, 9)) := by decide +kernel

/-- C76. The property fails for characters that begin no token: their position is counted from 0. -/
theorem C76_counted_from_zero : ∃ (text before rest : Str) (x : Char) (p : Nat × Nat), text = before ++ x :: rest ∧ startsToken x = false ∧
    Unreadable noStod Asm.oneInstruction text before ∧ parseAt noStod Asm.oneInstruction text = .error (.parser, some p) ∧
    p = (0, 8) ∧ place before = (1, 9) := by
  have hp : parseAt noStod Asm.oneInstruction "MOV R0, ~".toList = .error (.parser, some (0, 8)) := by decide +kernel
  obtain ⟨before, h⟩ := C76_instruction_partial (fun w h => by cases h) hp
  rcases h with ⟨_, h⟩ | ⟨h, a, b, h1, h2⟩ | ⟨_, h⟩
  · exfalso
    have := (Option.some.inj h)
    unfold place at this
    exact absurd (congrArg Prod.fst this) (by simp)
  · cases h1
    obtain ⟨i, k, s, x, rest, k1, k2, k3, k4⟩ := id h
    exact ⟨_, before, rest, x, (0, 8), k2, k4, h, hp, rfl, h2⟩
  · cases h

end Position
end T86
