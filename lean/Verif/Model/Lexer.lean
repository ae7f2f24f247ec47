import Verif.Model.DbgBase

/-! # The lexer and the way parsers use it: src/common/parsing.h, src/common/parsing.cpp

Positions of tokens (only used in error messages) are left out here; see `Model/Position.lean`. -/

namespace T86
open Dbg Str

/-- Models: src/common/parsing.h:22-61 (`TokenKind`), together with what `getId`, `getNumber`, `getFloat` and `getStr` return
after the token was read. -/
inductive Tok
  | id (s : Str) | num (n : Nat) | float (w : Word) | str (s : Str)
  | dot | lbrack | rbrack | lbrace | rbrace | lparen | rparen | eof | semi | bang | plus | minus | times | less | dollar
  | slash | greater | comma | assign | eq | neq | geq | leq | colon | backtick | arrow | land | lor | band | bor | xor
  | lsh | rsh | mod
  deriving DecidableEq, Repr

namespace Lexer

/-- `std::isalpha` in the default locale. -/
def isAlpha (c : Char) : Bool := ('a' ≤ c && c ≤ 'z') || ('A' ≤ c && c ≤ 'Z')

/-- The first character of an identifier. Models: src/common/parsing.cpp:177. -/
def isIdStart (c : Char) : Bool := isAlpha c || c == '_'

/-- The further characters of an identifier. Models: src/common/parsing.h:114-116. -/
def isIdChar (c : Char) : Bool := isAlpha c || isDigit c || c == '_'

/-- The characters of a number after the first. Models: src/common/parsing.cpp:8-13. -/
def isNumChar (c : Char) : Bool := isDigit c || c == '.'

/-- The tokens of one character that no longer token begins with. Models: src/common/parsing.cpp:66-89, 103-109, 139-157,
172-174. -/
def single : Char → Option Tok
  | ';' => some .semi
  | ',' => some .comma
  | '[' => some .lbrack
  | ']' => some .rbrack
  | '{' => some .lbrace
  | '}' => some .rbrace
  | '(' => some .lparen
  | ')' => some .rparen
  | '%' => some .mod
  | '+' => some .plus
  | ':' => some .colon
  | '/' => some .slash
  | '*' => some .times
  | '`' => some .backtick
  | '$' => some .dollar
  | '.' => some .dot
  | '^' => some .xor
  | _ => none

/-- The tokens of one character that may also begin a token of two, with these. Models: src/common/parsing.cpp:90-102,
110-138, 160-171. -/
def double : Char → Option (Tok × List (Char × Tok))
  | '!' => some (.bang, [('=', .neq)])
  | '=' => some (.assign, [('=', .eq)])
  | '-' => some (.minus, [('>', .arrow)])
  | '>' => some (.greater, [('=', .geq), ('>', .rsh)])
  | '<' => some (.less, [('=', .leq), ('<', .lsh)])
  | '&' => some (.band, [('&', .land)])
  | '|' => some (.bor, [('|', .lor)])
  | _ => none

/-- Whether some token begins with the character. -/
def startsToken (c : Char) : Bool :=
  (single c).isSome || (double c).isSome || c == '"' || isDigit c || isIdStart c

/-- What is left after blanks and comments, and with `ignore` after characters no token begins with; the flag says that a
comment is being skipped. Models: src/common/parsing.cpp:51-62, 181-183. Simplification: the byte 0xFF, which the C++ code
takes for the end of the input, is not treated specially. -/
def skip (ignore : Bool) : Bool → Str → Str
  | _, [] => []
  | true, c :: s => if c = '\n' then skip ignore false s else skip ignore true s
  | false, c :: s =>
    if c = '#' then skip ignore true s
    else if isSpace c then skip ignore false s
    else if ignore && !startsToken c then skip ignore false s
    else c :: s

/-- The meaning of an escape sequence. Models: src/common/parsing.cpp:32-42. -/
def escape : Char → Option Char
  | 'n' => some '\n'
  | 't' => some '\t'
  | '\\' => some '\\'
  | '"' => some '"'
  | _ => none

/-- The rest of a string token. Models: src/common/parsing.cpp:25-48 (`ParseString`). -/
def stringTail (acc : Str) : Str → Except Err (Tok × Str)
  | [] => .error .parser
  | '"' :: s => .ok (.str acc, s)
  | '\\' :: s =>
    match s with
    | [] => .error .parser
    | c :: s =>
      match escape c with
      | some d => stringTail (acc ++ [d]) s
      | none => .error .parser
  | c :: s => stringTail (acc ++ [c]) s

/-- A number token with the given text; `stod` reads floating point numbers, `std::stoi` throws `std::out_of_range` for numbers
that are no `int`. Models: src/common/parsing.cpp:3-23 (`ParseNumber`). -/
def number (stod : Str → Except Err Word) (w : Str) : Except Err Tok :=
  if '.' ∈ w then do
    let x ← stod w
    return .float x
  else if digits w < 2 ^ 31 then .ok (.num (digits w))
  else .error .outOfRange

/-- The next token. Models: src/common/parsing.cpp:50-188 (`getNext`). -/
def lex (stod : Str → Except Err Word) (ignore : Bool) (s : Str) : Except Err (Tok × Str) :=
  match skip ignore false s with
  | [] => .ok (.eof, [])
  | c :: r =>
    match single c with
    | some t => .ok (t, r)
    | none =>
      match double c with
      | some (t, l) =>
        match r with
        | [] => .ok (t, [])
        | d :: r' =>
          match l.find? (·.1 = d) with
          | some e => .ok (e.2, r')
          | none => .ok (t, r)
      | none =>
        if c = '"' then stringTail [] r
        else if isDigit c then do
          let t ← number stod (c :: r.takeWhile isNumChar)
          return (t, r.dropWhile isNumChar)
        else if isIdStart c then .ok (.id (c :: r.takeWhile isIdChar), r.dropWhile isIdChar)
        else .error .parser

end Lexer

/-- A computation that reads tokens: it ends with a result or an exception, or asks for the next token (with or without
`ignore` mode), or for the rest of the input. The parsers of the project are such computations. -/
inductive Reader (α : Type)
  | pure (a : α)
  | fail (e : Err)
  | next (ignore : Bool) (k : Tok → Reader α)
  | raw (k : Str → Reader α)

namespace Reader

/-- Sequential composition. -/
def bind {α β : Type} (x : Reader α) (f : α → Reader β) : Reader β :=
  match x with
  | .pure a => f a
  | .fail e => .fail e
  | .next i k => .next i fun t => (k t).bind f
  | .raw k => .raw fun s => (k s).bind f

instance : Monad Reader where
  pure := .pure
  bind := Reader.bind

/-- Running on a text. `RawMode` gives what follows the character after the last token, which the lexer has already read.
Models: src/common/parsing.h:87-92 (`RawMode`). -/
def run {α : Type} (stod : Str → Except Err Word) : Reader α → Str → Except Err α
  | .pure a, _ => .ok a
  | .fail e, _ => .error e
  | .next i k, s =>
    match Lexer.lex stod i s with
    | .error e => .error e
    | .ok (t, s') => (k t).run stod s'
  | .raw k, s => (k (s.drop 1)).run stod []

/-- Running on a list of tokens, which goes on with `eof` after its end. There is no raw text
to ask for. -/
def onToks {α : Type} : Reader α → List Tok → Except Err α
  | .pure a, _ => .ok a
  | .fail e, _ => .error e
  | .next _ k, [] => (k .eof).onToks []
  | .next _ k, t :: ts => (k t).onToks ts
  | .raw _, _ => .error .parser

end Reader

/-- What a parser object knows between two tokens: the current token, the last number (initially -1) and the last
identifier. Models: src/t86-parser/parser.h:98-99, src/common/parsing.h:145-147 (`number`, `id`). -/
structure PState where
  tok : Tok
  num : Int
  id : Str := []
  deriving DecidableEq, Repr

/-- A member function of a parser. -/
def Pars (α : Type) := PState → Reader (α × PState)

namespace Pars

instance : Monad Pars where
  pure a := fun s => .pure (a, s)
  bind x f := fun s => (x s).bind fun r => f r.1 r.2

/-- `throw`. -/
def throw {α : Type} (e : Err) : Pars α := fun _ => .fail e

/-- The state with the token just read. -/
def advance (s : PState) (t : Tok) : PState :=
  ⟨t, match t with | .num n => n | _ => s.num, match t with | .id n => n | _ => s.id⟩

/-- `GetNext`. Models: src/t86-parser/parser.cpp:4-7 (and the same in the other parsers). -/
def next (ignore : Bool := false) : Pars Unit := fun s => .next ignore fun t => .pure ((), advance s t)

/-- `curtok`. -/
def tok : Pars Tok := fun s => .pure (s.tok, s)

/-- `lex.getNumber()`. -/
def lastNum : Pars Int := fun s => .pure (s.num, s)

/-- `lex.getId()`. -/
def lastId : Pars Str := fun s => .pure (s.id, s)

/-- `lex.RawMode()`. -/
def rawMode : Pars Str := fun s => .raw fun r => .pure (r, s)

/-- Creating the parser reads the first token. Models: src/t86-parser/parser.h:17. -/
def start {α : Type} (x : Pars α) : Reader α := .next false fun t => (x (advance ⟨.eof, -1, []⟩ t)).bind fun r => .pure r.1

end Pars
end T86
