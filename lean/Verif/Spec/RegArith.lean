import Verif.Model.Machine

/-! # Expressions over registers, as a user of the library writes them in C++ -/

namespace T86

/-- An expression over registers and numbers with `+`, `-` and `*`. A number is always the right operand. -/
inductive Term
  | reg (r : Reg)
  | plus (a b : Term)
  | plusNum (a : Term) (n : Word)
  | minus (a b : Term)
  | minusNum (a : Term) (n : Word)
  | timesNum (a : Term) (n : Word)
  deriving DecidableEq, Repr

namespace Term

/-- What the expression means, in 64-bit arithmetic. -/
def value (get : Reg → Word) : Term → Word
  | reg r => get r
  | plus a b => a.value get + b.value get
  | plusNum a n => a.value get + n
  | minus a b => a.value get - b.value get
  | minusNum a n => a.value get - n
  | timesNum a n => a.value get * n

/-- A number is added or subtracted somewhere in the expression. -/
def hasNum : Term → Bool
  | reg _ => false
  | plus a b | minus a b => a.hasNum || b.hasNum
  | plusNum _ _ | minusNum _ _ => true
  | timesNum a _ => a.hasNum

/-- At most one number is added to anything, and only registers are multiplied. -/
def Proper : Term → Prop
  | reg _ => True
  | plus a b | minus a b => a.Proper ∧ b.Proper
  | plusNum a _ | minusNum a _ => a.Proper ∧ a.hasNum = false
  | timesNum a _ => ∃ r, a = .reg r

/-- A number occurs in the expression. -/
def mentions (n : Word) : Term → Bool
  | reg _ => false
  | plus a b | minus a b => a.mentions n || b.mentions n
  | plusNum a m | minusNum a m | timesNum a m => a.mentions n || m == n

end Term
end T86
