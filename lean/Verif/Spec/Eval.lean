import Verif.Model.ExprParse
import Verif.Spec.Arith

/-! # What expressions over integers mean

Integers of the host language: 64 bits, two's complement. -/

namespace T86
namespace Ex
open Spec

/-- The value of an expression: a number, an error message, or nothing the C++ standard defines. -/
inductive Meaning
  | number (v : Int)
  | rejected
  | undefined
  deriving DecidableEq, Repr

/-- A result that must fit in 64 bits. -/
def fit (v : Int) : Meaning := if FitsSigned v then .number v else .undefined

/-- A truth value. -/
def truth (p : Prop) [Decidable p] : Meaning := .number (if p then 1 else 0)

/-- A bitwise operation on two's complement representations. -/
def bitwise (f : Word → Word → Word) (x y : Int) : Meaning := .number (f (BitVec.ofInt 64 x) (BitVec.ofInt 64 y)).toInt

/-- Binary operators on integers. Division rounds towards zero; a right shift rounds down; a left shift drops the upper bits. -/
def BOp.meaning (x y : Int) : BOp → Meaning
  | .add => fit (x + y)
  | .sub => fit (x - y)
  | .mul => fit (x * y)
  | .div => if y = 0 then .rejected else fit (x.tdiv y)
  | .mod => if y = 0 then .rejected else if x = -2 ^ 63 ∧ y = -1 then .undefined else .number (x.tmod y)
  | .eq => truth (x = y)
  | .neq => truth (x ≠ y)
  | .less => truth (x < y)
  | .greater => truth (x > y)
  | .leq => truth (x ≤ y)
  | .geq => truth (x ≥ y)
  | .and => truth (x ≠ 0 ∧ y ≠ 0)
  | .or => truth (x ≠ 0 ∨ y ≠ 0)
  | .iand => bitwise (· &&& ·) x y
  | .ior => bitwise (· ||| ·) x y
  | .ixor => bitwise (· ^^^ ·) x y
  | .lshift => if 0 ≤ y ∧ y < 64 then .number (Int.bmod (x * 2 ^ y.toNat) (2 ^ 64)) else .undefined
  | .rshift => if 0 ≤ y ∧ y < 64 then .number (x / 2 ^ y.toNat) else .undefined
  | .assign => .undefined

/-- Unary operators on integers. -/
def UOp.meaning (x : Int) : UOp → Meaning
  | .negate => fit (-x)
  | .lnot => truth (x = 0)
  | .not => .number (-x - 1)
  | .deref => .rejected

/-- The meaning of an expression over integers, given the values of its variables. Both operands are always evaluated, the left
one first. -/
def Expr.meaning (ρ : Str → Int) : Expr → Meaning
  | .int v => .number v.toInt
  | .ident n => .number (ρ n)
  | .un o e =>
    match e.meaning ρ with
    | .number x => o.meaning x
    | r => r
  | .bin o a b =>
    match a.meaning ρ, b.meaning ρ with
    | .number x, .number y => o.meaning x y
    | .number _, r => r
    | r, _ => r
  | _ => .undefined

/-- The expressions this is about: literals, variables and operators that do not change anything. -/
def Expr.Arithmetic : Expr → Prop
  | .int _ => True
  | .ident _ => True
  | .un _ e => e.Arithmetic
  | .bin o a b => o ≠ .assign ∧ a.Arithmetic ∧ b.Arithmetic
  | _ => False

/-- The variables of an expression. -/
def Expr.vars : Expr → List Str
  | .ident n => [n]
  | .un _ e => e.vars
  | .bin _ a b => a.vars ++ b.vars
  | .index a b => a.vars ++ b.vars
  | .member e _ => e.vars
  | .arrow e _ => e.vars
  | _ => []

end Ex
end T86
