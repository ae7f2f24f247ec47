import Verif.Spec.RegArith

/-! # Operators on register descriptors: src/t86/cpu/register.h, src/t86/cpu/register.cpp

With these a user of the library writes operands such as `Mem(Bp() - 3)`. -/

namespace T86
namespace RegArith

/-- The classes of descriptors: the seven that can be operands, and `RegisterScaledOffset`, which cannot.
Models: src/t86/cpu/register.h:102-271. -/
inductive Built
  | expr (e : RegExpr)
  | scaledOffset (r : Reg) (scale off : Word)
  deriving DecidableEq, Repr

/-- `Register(size_t)`, the four largest indices are the special registers. Models: src/t86/cpu/register.h:26-42. -/
def ofIndex (w : Word) : Reg :=
  if w = -1 then .pc else if w = -2 then .sp else if w = -3 then .bp else if w = -4 then .flags else .gp w.toNat

/-- `-n` for an `int64_t`; negating the least number is UB. -/
def negate (mode : Mode) (n : Word) : Res Word :=
  if mode = .strict ∧ n = 0x8000000000000000 then .error .ub else .ok (-n)

/-- `a + b` for descriptors; `none` if it does not compile.
Models: src/t86/cpu/register.cpp:13-15, 25-27, 33-35, 37-39, 45-47, 53-55, 57-59, 93-95. -/
def add : Built → Built → Option Built
  | .expr (.reg r), .expr (.reg s) => some (.expr (.regReg r s))
  | .expr (.reg r), .expr (.regScaled s k) => some (.expr (.regRegScaled r s k))
  | .expr (.reg r), .expr (.regImm s n) => some (.expr (.regImmReg s n r))
  | .expr (.regImm r n), .expr (.reg s) => some (.expr (.regImmReg r n s))
  | .expr (.regImm r n), .expr (.regScaled s k) => some (.expr (.regImmRegScaled r n s k))
  | .expr (.regScaled r k), .expr (.reg s) => some (.expr (.regRegScaled s r k))
  | .expr (.regScaled r k), .expr (.regImm s n) => some (.expr (.regImmRegScaled s n r k))
  | .scaledOffset r k n, .expr (.reg s) => some (.expr (.regImmRegScaled s n r k))
  | _, _ => none

/-- `a + n`. Where there is only an operator for a `Register`, the number is converted to one, as the constructor `Register(size_t)` is not
`explicit`. Models: src/t86/cpu/register.cpp:5-7, 61-63, 73-75, 85-87, and 37-39, 93-95 with the conversion of src/t86/cpu/register.h:42. -/
def addNum : Built → Word → Option Built
  | .expr (.reg r), n => some (.expr (.regImm r n))
  | .expr (.regReg r s), n => some (.expr (.regImmReg r n s))
  | .expr (.regScaled r k), n => some (.scaledOffset r k n)
  | .expr (.regRegScaled r s k), n => some (.expr (.regImmRegScaled r n s k))
  | .expr (.regImm r m), n => some (.expr (.regImmReg r m (ofIndex n)))
  | .scaledOffset r k m, n => some (.expr (.regImmRegScaled (ofIndex n) m r k))
  | _, _ => none

/-- `a - b` for descriptors. Models: src/t86/cpu/register.cpp:17-19, 29-31, 41-43, 49-51. -/
def sub (mode : Mode) : Built → Built → Option (Res Built)
  | .expr (.reg r), .expr (.reg s) => some (.ok (.expr (.regRegScaled r s (-1))))
  | .expr (.reg r), .expr (.regScaled s k) => some (do return .expr (.regRegScaled r s (← negate mode k)))
  | .expr (.regImm r n), .expr (.reg s) => some (.ok (.expr (.regImmRegScaled r n s (-1))))
  | .expr (.regImm r n), .expr (.regScaled s k) => some (do return .expr (.regImmRegScaled r n s (← negate mode k)))
  | _, _ => none

/-- `a - n`. Models: src/t86/cpu/register.cpp:9-11, 65-67, 77-79, 89-91, and 41-43 with the conversion of src/t86/cpu/register.h:42. -/
def subNum (mode : Mode) : Built → Word → Option (Res Built)
  | .expr (.reg r), n => some (do return .expr (.regImm r (← negate mode n)))
  | .expr (.regReg r s), n => some (do return .expr (.regImmReg r (← negate mode n) s))
  | .expr (.regScaled r k), n => some (do return .scaledOffset r k (← negate mode n))
  | .expr (.regRegScaled r s k), n => some (do return .expr (.regImmRegScaled r (← negate mode n) s k))
  | .expr (.regImm r m), n => some (.ok (.expr (.regImmRegScaled r m (ofIndex n) (-1))))
  | _, _ => none

/-- `a * n`. Models: src/t86/cpu/register.cpp:21-23, 69-71, 81-83. -/
def mulNum : Built → Word → Option Built
  | .expr (.reg r), n => some (.expr (.regScaled r n))
  | .expr (.regReg r s), n => some (.expr (.regRegScaled r s n))
  | .expr (.regImmReg r m s), n => some (.expr (.regImmRegScaled r m s n))
  | _, _ => none

/-- The descriptor an expression makes: `none` if it does not compile. -/
def build (mode : Mode) : Term → Option (Res Built)
  | .reg r => some (.ok (.expr (.reg r)))
  | .plus a b =>
    match build mode a, build mode b with
    | some (.ok x), some (.ok y) => (add x y).map .ok
    | some (.error e), some _ => some (.error e)
    | some (.ok _), some (.error e) => some (.error e)
    | _, _ => none
  | .minus a b =>
    match build mode a, build mode b with
    | some (.ok x), some (.ok y) => sub mode x y
    | some (.error e), some _ => some (.error e)
    | some (.ok _), some (.error e) => some (.error e)
    | _, _ => none
  | .plusNum a n =>
    match build mode a with
    | some (.ok x) => (addNum x n).map .ok
    | some (.error e) => some (.error e)
    | none => none
  | .minusNum a n =>
    match build mode a with
    | some (.ok x) => subNum mode x n
    | some (.error e) => some (.error e)
    | none => none
  | .timesNum a n =>
    match build mode a with
    | some (.ok x) => (mulNum x n).map .ok
    | some (.error e) => some (.error e)
    | none => none

end RegArith
end T86
