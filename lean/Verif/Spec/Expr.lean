import Verif.Model.ExprParse
import Verif.Spec.Asm

/-! # The language of debugger expressions

The grammar of src/debugger/Source/ExpressionParser.h:4-26 as a relation between a level of the grammar, a list of tokens and
an expression, and the way an expression is written with as few parentheses as this grammar allows. The comment in the header
leaves `shifts` unused; it is meant as the operand of `comparison`. The relation also allows several unary operators in a row
and the values `$n` of earlier expressions, which the comment does not mention. -/

namespace T86
open Dbg Str
namespace Ex

/-- The token of an operator. -/
def BOp.tok : BOp → Tok
  | .add => .plus | .sub => .minus | .mul => .times | .div => .slash | .mod => .mod | .eq => .eq | .neq => .neq
  | .leq => .leq | .geq => .geq | .greater => .greater | .less => .less | .and => .land | .or => .lor | .iand => .band
  | .ior => .bor | .ixor => .xor | .lshift => .lsh | .rshift => .rsh | .assign => .assign

/-- How tightly an operator binds: the level of the grammar it belongs to, from `assign` (0) to `factor` (7). -/
def BOp.prec : BOp → Nat
  | .assign => 0
  | .eq | .neq => 1
  | .and | .or => 2
  | .less | .leq | .geq | .greater => 3
  | .lshift | .rshift => 4
  | .ior | .iand | .ixor => 5
  | .add | .sub => 6
  | .mul | .div | .mod => 7

/-- The token of a unary operator. Nothing is written for `not`. -/
def UOp.tok : UOp → Option Tok
  | .negate => some .minus
  | .lnot => some .bang
  | .deref => some .times
  | .not => none

/-- The grammar: 0 `assign`, 1 `equality`, 2 `logical`, 3 `comparison`, 4 `shifts`, 5 `bit_ops`, 6 `term`, 7 `factor`, 8 `unary`,
9 `postfix`, 10 `primary`. Binary operators of the same level are grouped from the left. -/
inductive Gram : Nat → List Tok → Expr → Prop
  | up {n : Nat} {ts : List Tok} {e : Expr} (hn : n < 10) (h : Gram (n + 1) ts e) : Gram n ts e
  | bin {n : Nat} {o : BOp} {l r : List Tok} {a b : Expr} (ho : o.prec = n) (ha : Gram n l a) (hb : Gram (n + 1) r b) :
      Gram n (l ++ o.tok :: r) (.bin o a b)
  | un {o : UOp} {t : Tok} {ts : List Tok} {e : Expr} (ho : o.tok = some t) (h : Gram 8 ts e) : Gram 8 (t :: ts) (.un o e)
  | index {l r : List Tok} {a i : Expr} (ha : Gram 9 l a) (hi : Gram 0 r i) :
      Gram 9 (l ++ .lbrack :: (r ++ [.rbrack])) (.index a i)
  | member {l : List Tok} {a : Expr} {s : Str} (ha : Gram 9 l a) : Gram 9 (l ++ [.dot, .id s]) (.member a s)
  | arrow {l : List Tok} {a : Expr} {s : Str} (ha : Gram 9 l a) : Gram 9 (l ++ [.arrow, .id s]) (.arrow a s)
  | int {n : Nat} : Gram 10 [.num n] (.int (BitVec.ofNat 64 n))
  | float {w : Word} : Gram 10 [.float w] (.float w)
  | ident {s : Str} : Gram 10 [.id s] (.ident s)
  | evaluated {n : Nat} : Gram 10 [.dollar, .num n] (.evaluated n)
  | paren {ts : List Tok} {e : Expr} (h : Gram 0 ts e) : Gram 10 (.lparen :: (ts ++ [.rparen])) e

/-- The level of the grammar an expression belongs to. -/
def Expr.prec : Expr → Nat
  | .bin o _ _ => o.prec
  | .un _ _ => 8
  | .index _ _ | .member _ _ | .arrow _ _ => 9
  | _ => 10

/-- Parentheses if the expression belongs to a lower level than required. -/
def wrap (n p : Nat) (ts : List Tok) : List Tok := if p < n then .lparen :: (ts ++ [.rparen]) else ts

/-- The tokens of an expression, with parentheses around the operands that need them. -/
def Expr.toks : Expr → List Tok
  | .int v => [.num v.toNat]
  | .float w => [.float w]
  | .char _ => []
  | .ident s => [.id s]
  | .evaluated n => [.dollar, .num n]
  | .un o e => o.tok.toList ++ wrap 8 e.prec e.toks
  | .bin o a b => wrap o.prec a.prec a.toks ++ o.tok :: wrap (o.prec + 1) b.prec b.toks
  | .index a i => wrap 9 a.prec a.toks ++ .lbrack :: (i.toks ++ [.rbrack])
  | .member a s => wrap 9 a.prec a.toks ++ [.dot, .id s]
  | .arrow a s => wrap 9 a.prec a.toks ++ [.arrow, .id s]

/-- An expression that can be written: there are no literals for characters and nothing is written for `not`. -/
def Expr.Writable : Expr → Prop
  | .char _ => False
  | .un o e => o.tok.isSome = true ∧ e.Writable
  | .bin _ a b => a.Writable ∧ b.Writable
  | .index a b => a.Writable ∧ b.Writable
  | .member a _ => a.Writable
  | .arrow a _ => a.Writable
  | _ => True

/-- No operator of the expression is `<=` or `>=`, which the parser does not know. -/
def Expr.Known : Expr → Prop
  | .un _ e => e.Known
  | .bin o a b => o ≠ .leq ∧ o ≠ .geq ∧ a.Known ∧ b.Known
  | .index a b => a.Known ∧ b.Known
  | .member a _ => a.Known
  | .arrow a _ => a.Known
  | _ => True

end Ex
end T86
