import Verif.Model.Lexer

/-! # Places in a text -/

namespace T86
namespace Position
open Dbg

/-- The line and the column, counted from 1, of the character that follows `before` at the beginning of a text. -/
def place (before : Str) : Nat × Nat := (before.count '\n' + 1, (before.reverse.takeWhile (· ≠ '\n')).length + 1)

/-- A parser `r` on the text `s` gets, token by token, to the point where `r'` is what is left of it to do and `s'` what is
left of the text. -/
inductive Gets {α : Type} (stod : Str → Except Err Word) : Reader α → Str → Reader α → Str → Prop
  | here (r : Reader α) (s : Str) : Gets stod r s r s
  | token {i : Bool} {k : Tok → Reader α} {s s1 s' : Str} {t : Tok} {r' : Reader α} :
      Lexer.lex stod i s = .ok (t, s1) → Gets stod (k t) s1 r' s' → Gets stod (.next i k) s r' s'

variable {α : Type} (stod : Str → Except Err Word) (r : Reader α) (text before : Str)

/-- The parser gives up at the token that begins after `before`: it has read the tokens before that one and wanted another one,
and that one it rejects. -/
def GivesUp : Prop := ∃ i k s t rest, Gets stod r text (.next i k) s ∧ text = before ++ Lexer.skip i false s ∧
  Lexer.lex stod i s = .ok (t, rest) ∧ k t = .fail .parser

/-- The parser wants another token and after `before` there is a character that begins none. -/
def Unreadable : Prop := ∃ i k s x rest, Gets stod r text (.next i k) s ∧ text = before ++ x :: rest ∧
  Lexer.skip i false s = x :: rest ∧ Lexer.startsToken x = false

/-- The parser wants another token and after `before` there is a quotation mark that begins no string. -/
def Unclosed : Prop := ∃ i k s rest, Gets stod r text (.next i k) s ∧ text = before ++ '"' :: rest ∧
  Lexer.skip i false s = '"' :: rest ∧ Lexer.lex stod i s = .error .parser

end Position
end T86
