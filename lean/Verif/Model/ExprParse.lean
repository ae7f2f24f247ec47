import Verif.Model.Lexer

/-! # The parser of debugger expressions: src/debugger/Source/ExpressionParser.cpp -/

namespace T86
open Dbg Str Pars

namespace Ex

/-- Models: src/debugger/Source/Expression.h:225-245 (`BinaryOperator::Op`). -/
inductive BOp
  | add | sub | mul | div | mod | eq | neq | leq | geq | greater | less | and | or | iand | ior | ixor | lshift | rshift
  | assign
  deriving DecidableEq, Repr

/-- Models: src/debugger/Source/Expression.h:193-198 (`UnaryOperator::Op`). -/
inductive UOp
  | negate | lnot | deref | not
  deriving DecidableEq, Repr

/-- Models: src/debugger/Source/Expression.h:164-310 (the subclasses of `Expression`). A `float` is a bit pattern. -/
inductive Expr
  | int (v : Word)
  | float (v : Word)
  | char (c : BitVec 8)
  | ident (n : Str)
  | evaluated (i : Nat)
  | un (o : UOp) (e : Expr)
  | bin (o : BOp) (a b : Expr)
  | index (a i : Expr)
  | member (e : Expr) (n : Str)
  | arrow (e : Expr) (n : Str)
  deriving DecidableEq, Repr

/-- The operators of each level of the grammar. Models: src/debugger/Source/ExpressionParser.cpp:3-23 (`operators`) and the
conditions of the loops in 35-146. -/
def assignOps : Tok → Option BOp
  | .assign => some .assign
  | _ => none
def equalityOps : Tok → Option BOp
  | .eq => some .eq
  | .neq => some .neq
  | _ => none
def logicalOps : Tok → Option BOp
  | .land => some .and
  | .lor => some .or
  | _ => none
def comparisonOps : Tok → Option BOp
  | .less => some .less
  | .greater => some .greater
  | _ => none
def shiftOps : Tok → Option BOp
  | .lsh => some .lshift
  | .rsh => some .rshift
  | _ => none
def bitOps : Tok → Option BOp
  | .band => some .iand
  | .xor => some .ixor
  | .bor => some .ior
  | _ => none
def termOps : Tok → Option BOp
  | .plus => some .add
  | .minus => some .sub
  | _ => none
def factorOps : Tok → Option BOp
  | .times => some .mul
  | .mod => some .mod
  | .slash => some .div
  | _ => none

/-- Models: src/debugger/Source/ExpressionParser.cpp:25-29 (`unary_operators`). -/
def unaryOps : Tok → Option UOp
  | .minus => some .negate
  | .bang => some .lnot
  | .times => some .deref
  | _ => none

/-- The `while` loop shared by the eight functions for binary operators, with a bound on the number of passes.
Models: src/debugger/Source/ExpressionParser.cpp:37-44 (and the same in the others). -/
def binTail (ops : Tok → Option BOp) (sub : Pars Expr) : Nat → Expr → Pars Expr
  | 0, _ => throw .diverge
  | fuel + 1, l => do
    match ops (← tok) with
    | none => return l
    | some o => do
      next
      let r ← sub
      binTail ops sub fuel (.bin o l r)

/-- One of the eight functions for binary operators. -/
def level (ops : Tok → Option BOp) (fuel : Nat) (sub : Pars Expr) : Pars Expr := do
  let l ← sub
  binTail ops sub fuel l

/-- Models: src/debugger/Source/ExpressionParser.cpp:133-146 (`factor`); the last argument is `unary`. -/
def factor (fuel : Nat) (u : Pars Expr) : Pars Expr := level factorOps fuel u
/-- Models: src/debugger/Source/ExpressionParser.cpp:119-131 (`term`). -/
def term (fuel : Nat) (u : Pars Expr) : Pars Expr := level termOps fuel (factor fuel u)
/-- Models: src/debugger/Source/ExpressionParser.cpp:104-117 (`bit_ops`). -/
def bits (fuel : Nat) (u : Pars Expr) : Pars Expr := level bitOps fuel (term fuel u)
/-- Models: src/debugger/Source/ExpressionParser.cpp:90-102 (`shifts`). -/
def shifts (fuel : Nat) (u : Pars Expr) : Pars Expr := level shiftOps fuel (bits fuel u)
/-- Models: src/debugger/Source/ExpressionParser.cpp:76-88 (`comparison`). -/
def comparison (fuel : Nat) (u : Pars Expr) : Pars Expr := level comparisonOps fuel (shifts fuel u)
/-- Models: src/debugger/Source/ExpressionParser.cpp:62-74 (`logical`). -/
def logical (fuel : Nat) (u : Pars Expr) : Pars Expr := level logicalOps fuel (comparison fuel u)
/-- Models: src/debugger/Source/ExpressionParser.cpp:48-60 (`equality`). -/
def equality (fuel : Nat) (u : Pars Expr) : Pars Expr := level equalityOps fuel (logical fuel u)
/-- Models: src/debugger/Source/ExpressionParser.cpp:35-46 (`assign`). -/
def assignment (fuel : Nat) (u : Pars Expr) : Pars Expr := level assignOps fuel (equality fuel u)

/-- Models: src/debugger/Source/ExpressionParser.cpp:193-224 (`primary`); `e` is `expr`. An `int` becomes an `int64_t`
or a `size_t`. -/
def primary (e : Pars Expr) : Pars Expr := do
  match ← tok with
  | .num _ => do
      let n ← lastNum
      next
      return .int (BitVec.ofInt 64 n)
  | .float w => do
      next
      return .float w
  | .id s => do
      next
      return .ident s
  | .lparen => do
      next
      let x ← e
      match ← tok with
      | .rparen => do
          next
          return x
      | _ => throw .parser
  | .dollar => do
      next
      match ← tok with
      | .num _ => do
          let n ← lastNum
          next
          return .evaluated n.toNat
      | _ => throw .parser
  | _ => throw .parser

/-- The name of a member. Models: src/debugger/Source/ExpressionParser.cpp:171-175, 178-182. -/
def memberName : Pars Str := do
  next
  match ← tok with
  | .id s => do
      next
      return s
  | _ => throw .parser

/-- The loop of `postfix`, with a bound on the number of passes. Models: src/debugger/Source/ExpressionParser.cpp:160-189. -/
def postfixTail (e : Pars Expr) : Nat → Expr → Pars Expr
  | 0, _ => throw .diverge
  | fuel + 1, p => do
    match ← tok with
    | .lbrack => do
        next
        let i ← e
        match ← tok with
        | .rbrack => do
            next
            postfixTail e fuel (.index p i)
        | _ => throw .parser
    | .dot => do
        let s ← memberName
        postfixTail e fuel (.member p s)
    | .arrow => do
        let s ← memberName
        postfixTail e fuel (.arrow p s)
    | _ => return p

/-- Models: src/debugger/Source/ExpressionParser.cpp:158-191 (`postfix`). -/
def postfix' (fuel : Nat) (e : Pars Expr) : Pars Expr := do
  let p ← primary e
  postfixTail e fuel p

/-- Models: src/debugger/Source/ExpressionParser.cpp:148-156 (`unary`), with a bound on the depth of the recursion. -/
def unary : Nat → Pars Expr
  | 0 => throw .diverge
  | fuel + 1 => do
    match unaryOps (← tok) with
    | some o => do
        next
        let e ← unary fuel
        return .un o e
    | none => postfix' fuel (assignment fuel (unary fuel))

/-- Models: src/debugger/Source/ExpressionParser.cpp:31-33 (`expr`). -/
def expr (fuel : Nat) : Pars Expr := assignment fuel (unary fuel)

/-- The text is parsed from its beginning; what follows the expression is not looked at. Every bound is larger than the number
of tokens, so no bound is ever reached (`C42_terminates`). Models: src/debugger/Source/ExpressionParser.h:30-33,
src/debugger/Source/Source.cpp:344-351. -/
def parse (stod : Str → Except Err Word) (s : Str) : Except Err Expr := (start (expr (2 * s.length + 4))).run stod s

end Ex
end T86
