import Verif.Model.Lexer

/-! # The first token of a text that a parser accepts -/

namespace T86
open Dbg Str

/-- What a parser accepts begins with a token (or is blank). -/
theorem Pars.lex_of_start {α : Type} {x : Pars α} {stod : Str → Except Err Word} {s : Str} {a : α}
    (h : (Pars.start x).run stod s = .ok a) : ∃ p, Lexer.lex stod false s = .ok p := by
  unfold Pars.start at h
  rw [Reader.run] at h
  cases hl : Lexer.lex stod false s with
  | error e => rw [hl] at h; cases h
  | ok p => exact ⟨p, rfl⟩

end T86
