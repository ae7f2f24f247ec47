import Verif.Model.Machine

/-! # Operand fetching: src/t86/instructions/operand.cpp -/

namespace T86

/-- Models: src/t86/instructions/requirements.h (`std::variant` of `RegisterRead`, `FloatRegisterRead`, `MemoryRead`). -/
inductive Requirement
  | reg (r : Reg)
  | freg (i : Nat)
  | mem (a : Word)
  deriving DecidableEq, Repr

/-- The register asked for first. Models: src/t86/instructions/operand.cpp:267-280 and 283-296. -/
def RegExpr.req : RegExpr → Reg
  | .reg r => r
  | .regImm r _ => r
  | .regReg r1 _ => r1
  | .regScaled r _ => r
  | .regImmReg r1 _ _ => r1
  | .regRegScaled _ r2 _ => r2
  | .regImmRegScaled _ _ r2 _ => r2

/-- What is left of a register expression once the value of the register asked for is known: either a plain number
or a register plus offset. Models: src/t86/instructions/operand.cpp:427-453 (static `supply` overloads). -/
def RegExpr.supply (m : Mode) (e : RegExpr) (v : Word) : Res (Word ⊕ RegExpr) :=
  match e with
  | .reg _ => .ok (.inl v)
  | .regImm _ off => do let w ← sadd m v off; return .inl w
  | .regReg _ r2 => .ok (.inr (.regImm r2 v))
  | .regScaled _ s => do let w ← smul m v s; return .inl w
  | .regImmReg _ off r2 => do let w ← sadd m off v; return .inr (.regImm r2 w)
  | .regRegScaled r1 _ s => do let w ← smul m s v; return .inr (.regImm r1 w)
  | .regImmRegScaled r1 off _ s => do
      let p ← smul m s v
      let w ← sadd m off p
      return .inr (.regImm r1 w)

/-- Models: src/t86/instructions/operand.cpp:261-263 (`isFetched`). -/
def Operand.isFetched : Operand → Bool
  | .imm _ => true
  | .fimm _ => true
  | _ => false

/-- Models: src/t86/instructions/operand.cpp:46-53 (`getValue`) and 55-62 (`getFloatValue`): the same 64 bits either
way; `none` where the assertion fails. -/
def Operand.getValue : Operand → Option Word
  | .imm w => some w
  | .fimm w => some w
  | _ => none

/-- Models: src/t86/instructions/operand.cpp:265-301 (`requirement`). -/
def Operand.requirement : Operand → Res Requirement
  | .imm _ => .error .abort
  | .fimm _ => .error (.exn .runtimeError)
  | .val e => .ok (.reg e.req)
  | .freg i => .ok (.freg i)
  | .memImm a => .ok (.mem a)
  | .mem e => .ok (.reg e.req)

/-- Models: src/t86/instructions/operand.cpp:64-99 (`supply(int64_t)`), with the memory overloads of lines 455-485. -/
def Operand.supply (m : Mode) (op : Operand) (v : Word) : Res Operand :=
  match op with
  | .imm _ => .error .abort
  | .fimm _ => .error (.exn .runtimeError)
  | .freg _ => .error (.exn .runtimeError)
  | .memImm _ => .ok (.imm v)
  | .val e => do
      let x ← e.supply m v
      match x with
      | .inl w => return .imm w
      | .inr e' => return .val e'
  | .mem e => do
      let x ← e.supply m v
      match x with
      | .inl w => return .memImm w
      | .inr e' => return .mem e'

/-- Models: src/t86/instructions/operand.cpp:101-107 (`supply(double)`). -/
def Operand.supplyFloat (op : Operand) (v : Word) : Res Operand :=
  match op with
  | .freg _ => .ok (.fimm v)
  | _ => .error (.exn .runtimeError)

/-- How many values an operand still has to be supplied with before it is fetched. Not in the C++: it is the variant
of the `while(!operand.isFetched())` loop (src/t86/cpu/reservation_station.cpp:52). -/
def RegExpr.steps : RegExpr → Nat
  | .reg _ => 1
  | .regImm _ _ => 1
  | .regReg _ _ => 2
  | .regScaled _ _ => 1
  | .regImmReg _ _ _ => 2
  | .regRegScaled _ _ _ => 2
  | .regImmRegScaled _ _ _ _ => 2

/-- See `RegExpr.steps`. -/
def Operand.steps : Operand → Nat
  | .imm _ => 0
  | .fimm _ => 0
  | .val e => e.steps
  | .freg _ => 1
  | .memImm _ => 1
  | .mem e => e.steps + 1

end T86
