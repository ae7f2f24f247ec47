import Verif.Model.Base

/-! # The ALU: src/t86/cpu/alu.cpp, and the jump conditions of src/t86/instruction.cpp -/

namespace T86

/-- Models: src/t86/cpu/alu.h:6-21 (`struct Flags`). -/
structure Flags where
  sign : Bool
  zero : Bool
  carry : Bool
  overflow : Bool
  deriving DecidableEq, Repr

namespace Alu

/-- Models: src/t86/cpu/alu.h:23-26 (`struct Result`). -/
structure Result where
  value : Word
  flags : Flags
  deriving DecidableEq, Repr

/-- Models: src/t86/cpu/alu.cpp:7-9 (`Flags::operator int64_t`). -/
def flagsToWord (f : Flags) : Word :=
  ((BitVec.ofBool f.sign).setWidth 64 <<< (0:Nat)) ||| ((BitVec.ofBool f.zero).setWidth 64 <<< (1:Nat)) |||
  ((BitVec.ofBool f.carry).setWidth 64 <<< (2:Nat)) ||| ((BitVec.ofBool f.overflow).setWidth 64 <<< (3:Nat))

/-- Models: src/t86/cpu/alu.cpp:11-16 (`Flags::Flags(int64_t)`). -/
def flagsOfWord (w : Word) : Flags where
  sign := (w &&& 0x1) != 0
  zero := (w &&& 0x2) != 0
  carry := (w &&& 0x4) != 0
  overflow := (w &&& 0x8) != 0

/-- `std::numeric_limits<int64_t>::max()` / `min()` as integers. -/
def int64Max : Int := 2^63 - 1
def int64Min : Int := -2^63

/-- Models: src/t86/cpu/alu.cpp:21-31 (`add`). The comparisons on lines 28-29 are evaluated on `int64_t`
without overflow (the `y > 0`/`y < 0` guards ensure it), so they are written over `Int`. -/
def add (m : Mode) (x y : Word) : Res Result := do
  let result ← sadd m x y
  let signFlag := decide (result.toInt < 0)
  let zeroFlag := decide (result = 0)
  let carryFlag := decide (x.toNat > (2^64 - 1) - y.toNat)
  let overflowFlag := (decide (y.toInt > 0) && decide (x.toInt > int64Max - y.toInt))
    || (decide (y.toInt < 0) && decide (x.toInt < int64Min - y.toInt))
  return ⟨result, ⟨signFlag, zeroFlag, carryFlag, overflowFlag⟩⟩

/-- Models: src/t86/cpu/alu.cpp:33-43 (`subtract`). -/
def subtract (m : Mode) (x y : Word) : Res Result := do
  let result ← ssub m x y
  let signFlag := decide (result.toInt < 0)
  let zeroFlag := decide (result = 0)
  let carryFlag := decide (x.toNat < y.toNat)
  let overflowFlag := (decide (y.toInt > 0) && decide (x.toInt < int64Min + y.toInt))
    || (decide (y.toInt < 0) && decide (x.toInt > int64Max + y.toInt))
  return ⟨result, ⟨signFlag, zeroFlag, carryFlag, overflowFlag⟩⟩

/-- The flags of a result whose carry and overflow are cleared: the shape shared by
src/t86/cpu/alu.cpp:45-52,66-76,87-130,176-183. -/
def plain (result : Word) : Result :=
  ⟨result, ⟨decide (result.toInt < 0), decide (result = 0), false, false⟩⟩

/-- Models: src/t86/cpu/alu.cpp:45-52 (`negate`). -/
def negate (m : Mode) (x : Word) : Res Result := do
  let result ← sneg m x
  return plain result

/-- Models: src/t86/cpu/alu.cpp:54-64 (`multiply`). -/
def multiply (x y : Word) : Res Result := do
  let result := x * y
  let q ← if x ≠ 0 ∧ y ≠ 0 then udivC result y else pure x
  let carryFlag := decide (x ≠ 0) && decide (y ≠ 0) && decide (x ≠ q)
  return ⟨result, ⟨decide (result.toInt < 0), decide (result = 0), carryFlag, false⟩⟩

/-- Models: src/t86/cpu/alu.cpp:66-76 (`divide`). -/
def divide (x y : Word) : Res Result := do
  let result ← udivC x y
  return plain result

/-- Models: src/t86/cpu/alu.cpp:78-85 (`signed_multiply`). The division on line 83 is evaluated only when both
operands are nonzero. -/
def signedMultiply (m : Mode) (x y : Word) : Res Result := do
  let result ← smul m x y
  let q ← if x ≠ 0 ∧ y ≠ 0 then sdivC result y else pure x
  let overflowFlag := decide (x ≠ 0) && decide (y ≠ 0) && decide (x ≠ q)
  return ⟨result, ⟨decide (result.toInt < 0), decide (result = 0), false, overflowFlag⟩⟩

/-- Models: src/t86/cpu/alu.cpp:87-94 (`signed_divide`). -/
def signedDivide (x y : Word) : Res Result := do
  let result ← sdivC x y
  return plain result

/-- Models: src/t86/cpu/alu.cpp:96-103 (`bit_and`). -/
def bitAnd (x y : Word) : Res Result := return plain (x &&& y)

/-- Models: src/t86/cpu/alu.cpp:105-112 (`bit_or`). -/
def bitOr (x y : Word) : Res Result := return plain (x ||| y)

/-- Models: src/t86/cpu/alu.cpp:114-121 (`bit_xor`). -/
def bitXor (x y : Word) : Res Result := return plain (x ^^^ y)

/-- Models: src/t86/cpu/alu.cpp:123-130 (`bit_not`). -/
def bitNot (x : Word) : Res Result := return plain (~~~x)

/-- Models: src/t86/cpu/alu.cpp:132-143 (`bit_left_shift`). The count `y - 1` on line 140 is computed only for
counts that passed the shift on line 133, so the subtraction itself cannot overflow. -/
def bitLeftShift (x y : Word) : Res Result := do
  let result ← shlC x y
  let carryFlag ← if y.toInt ≤ 64 then do
      let t ← shlC x (y - 1)
      pure (decide (t.toInt < 0))
    else pure false
  return ⟨result, ⟨decide (result.toInt < 0), decide (result = 0), carryFlag, false⟩⟩

/-- Models: src/t86/cpu/alu.cpp:145-156 (`bit_right_shift`). -/
def bitRightShift (x y : Word) : Res Result := do
  let result ← sarC x y
  let carryFlag ← if y.toInt ≤ 64 then do
      let t ← sarC x (y - 1)
      pure (decide (t &&& 1 ≠ 0))
    else pure false
  return ⟨result, ⟨decide (result.toInt < 0), decide (result = 0), carryFlag, false⟩⟩

/-- Models: src/t86/cpu/alu.cpp:176-183 (`mod`). -/
def mod (x y : Word) : Res Result := do
  let result ← smodC x y
  return plain result

/-- The flags of a float result: the shape shared by src/t86/cpu/alu.cpp:185-216. -/
def floatResult (fo : FloatOps) (result : Word) : Result :=
  ⟨result, ⟨fo.ltZero result, fo.eqZero result, false, fo.isInf result⟩⟩

/-- Models: src/t86/cpu/alu.cpp:185-192 (`fadd`). -/
def fadd (fo : FloatOps) (x y : Word) : Result := floatResult fo (fo.add x y)
/-- Models: src/t86/cpu/alu.cpp:193-200 (`fsubtract`). -/
def fsubtract (fo : FloatOps) (x y : Word) : Result := floatResult fo (fo.sub x y)
/-- Models: src/t86/cpu/alu.cpp:201-208 (`fmultiply`). -/
def fmultiply (fo : FloatOps) (x y : Word) : Result := floatResult fo (fo.mul x y)
/-- Models: src/t86/cpu/alu.cpp:209-216 (`fdivide`). -/
def fdivide (fo : FloatOps) (x y : Word) : Result := floatResult fo (fo.div x y)

end Alu

/-- The sixteen conditional jumps. Models: src/t86/instruction.h:55-70, src/t86/instruction.cpp:442-472. -/
inductive Cond
  | jz | je | jnz | jne | jg | jge | jl | jle | ja | jae | jb | jbe | jo | jno | js | jns
  deriving DecidableEq, Repr

/-- Models: src/t86/instruction.cpp:442-472 (the `CONDITION` argument of each `COND_JMP_INS_IMPL`). -/
def Cond.holds (c : Cond) (f : Flags) : Bool :=
  match c with
  | .jz => f.zero
  | .je => f.zero
  | .jnz => !f.zero
  | .jne => !f.zero
  | .jg => !f.zero && (f.sign == f.overflow)
  | .jge => f.sign == f.overflow
  | .jl => f.sign != f.overflow
  | .jle => f.zero || f.sign != f.overflow
  | .ja => !(f.carry || f.zero)
  | .jae => !f.carry
  | .jb => f.carry
  | .jbe => f.carry || f.zero
  | .jo => f.overflow
  | .jno => !f.overflow
  | .js => f.sign
  | .jns => !f.sign

/-- Whether a conditional jump is taken, given the content of the FLAGS register.
Models: src/t86/instruction.cpp:408-420 (`condition_(operands[1].getValue())`, with the implicit conversion
`int64_t → Flags` of src/t86/cpu/alu.cpp:11-16). -/
def Cond.taken (c : Cond) (flagsReg : Word) : Bool := c.holds (Alu.flagsOfWord flagsReg)

end T86
