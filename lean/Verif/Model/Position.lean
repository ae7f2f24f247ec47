import Verif.Model.Asm
import Verif.Model.ExprParse
import Verif.Model.InfoParse

/-! # Where a text is rejected: the positions of src/common/parsing.h and src/common/parsing.cpp

The lexer of `Model/Lexer.lean` once more, now character by character and with the counters for rows and columns, and the
numbers that the messages of the parsers show. -/

namespace T86
namespace Position
open Dbg Lexer Str

/-- The counters for rows and columns when `x` has been read. Models: src/common/parsing.h:122-131 (`GetChar`). -/
def step (p : Nat × Nat) (x : Char) : Nat × Nat := if x = '\n' then (p.1 + 1, 0) else (p.1, p.2 + 1)

/-- The counters for rows and columns and the text from `lookahead` on. Models: src/common/parsing.h:138-139, 150-151 (`row`,
`col`, `input`, `lookahead`). Simplification: the counters are unbounded. -/
structure Cursor where
  pos : Nat × Nat
  rest : Str
  deriving DecidableEq, Repr

/-- Reading while the characters satisfy `p`, together with what was read. Models: the loops in src/common/parsing.cpp:6-15
and src/common/parsing.h:111-117. -/
def getWhile (p : Char → Bool) : Nat × Nat → Str → Str × Cursor
  | q, [] => ([], ⟨q, []⟩)
  | q, x :: s =>
    if p x then
      let r := getWhile p (step q x) s
      (x :: r.1, r.2)
    else ([], ⟨q, x :: s⟩)

/-- Models: src/common/parsing.cpp:51-62, 181-183. -/
def skipAt (ignore : Bool) : Bool → Nat × Nat → Str → Cursor
  | _, q, [] => ⟨q, []⟩
  | true, q, x :: s => if x = '\n' then skipAt ignore false (step q x) s else skipAt ignore true (step q x) s
  | false, q, x :: s =>
    if x = '#' then skipAt ignore true (step q x) s
    else if isSpace x then skipAt ignore false (step q x) s
    else if ignore && !startsToken x then skipAt ignore false (step q x) s
    else ⟨q, x :: s⟩

/-- The rest of a string token. `none`: rejected, with a message without a position.
Models: src/common/parsing.cpp:25-48 (`ParseString`). -/
def stringAt (acc : Str) : Nat × Nat → Str → Option (Tok × Cursor)
  | _, [] => none
  | q, '"' :: s => some (.str acc, ⟨step q '"', s⟩)
  | q, '\\' :: s =>
    match s with
    | [] => none
    | c :: s =>
      match escape c with
      | some d => stringAt (acc ++ [d]) (step (step q '\\') c) s
      | none => none
  | q, c :: s => stringAt (acc ++ [c]) (step q c) s

/-- The numbers in a message, if it has any. -/
abbrev Shown := Option (Nat × Nat)

/-- The next token, the counters at its beginning and what follows, or the exception and the numbers in its message.
Models: src/common/parsing.cpp:50-188 (`getNext`), src/common/parsing.h:103-106, 133-136 (`MakeToken`, `RecordTokLoc`). -/
def lexAt (stod : Str → Except Err Word) (ignore : Bool) (c0 : Cursor) : Except (Err × Shown) (Tok × (Nat × Nat) × Cursor) :=
  let c := skipAt ignore false c0.pos c0.rest
  match c.rest with
  | [] => .ok (.eof, c.pos, c)
  | x :: s =>
    let q := step c.pos x
    match single x with
    | some t => .ok (t, c.pos, ⟨q, s⟩)
    | none =>
      match double x with
      | some (t, l) =>
        match s with
        | [] => .ok (t, c.pos, ⟨q, []⟩)
        | d :: s' =>
          match l.find? (·.1 = d) with
          | some e => .ok (e.2, c.pos, ⟨step q d, s'⟩)
          | none => .ok (t, c.pos, ⟨q, d :: s'⟩)
      | none =>
        if x = '"' then
          match stringAt [] q s with
          | some (t, c') => .ok (t, c.pos, c')
          | none => .error (.parser, none)
        else if isDigit x then
          let w := getWhile isNumChar q s
          match number stod (x :: w.1) with
          | .ok t => .ok (t, c.pos, w.2)
          | .error e => .error (e, none)
        else if isIdStart x then
          let w := getWhile isIdChar q s
          .ok (.id (x :: w.1), c.pos, w.2)
        else .error (.parser, some c.pos)

/-- Running a parser; `last` is the position of `curtok`. Every exception of kind `ParserError` that a parser throws itself
is made by `CreateError`. Models: src/t86-parser/parser.h:85-90, src/debugger/Source/Parser.h:21-26,
src/debugger/Source/ExpressionParser.h:33-38 (`CreateError`). -/
def runAt {α : Type} (stod : Str → Except Err Word) : Reader α → Shown → Cursor → Except (Err × Shown) α
  | .pure a, _, _ => .ok a
  | .fail e, last, _ => .error (e, if e = .parser then last.map fun p => (p.1 + 1, p.2 + 1) else none)
  | .next i k, _, c =>
    match lexAt stod i c with
    | .error x => .error x
    | .ok (t, p, c') => runAt stod (k t) (some p) c'
  | .raw k, last, c => runAt stod (k (c.rest.drop 1)) last { c with rest := [] }

/-- A parser on a text. -/
def parseAt {α : Type} (stod : Str → Except Err Word) (r : Reader α) (text : Str) : Except (Err × Shown) α :=
  runAt stod r none ⟨(0, 0), text⟩

/-- Models: src/t86-parser/parser.cpp:526-540 (`Parse`), as `Asm.assemble`. -/
def program (text : Str) : Reader Asm.Unit' := Pars.start (Asm.parse (2 * text.length + 2))

/-- Models: src/debugger/Source/ExpressionParser.h:30-33 (`ParseExpression`), as `Ex.parse`. -/
def expression (text : Str) : Reader Ex.Expr := Pars.start (Ex.expr (2 * text.length + 4))

/-- Models: src/debugger/Source/Parser.cpp:280-317 (`Parse`), as `Info.parse`. -/
def debugInfo (text : Str) : Reader Info.Infos := Pars.start (Info.sections (2 * text.length + 2) (2 * text.length + 2) {})

end Position
end T86
