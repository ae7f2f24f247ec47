import Verif.Model.Instr

/-! # What C17 asks of the instructions -/

namespace T86

/-- The operand is a memory cell. -/
def Operand.inMemory : Operand → Bool
  | .memImm _ => true
  | .mem _ => true
  | _ => false

/-- The instruction does not both read and write memory through its operands. -/
def Instr.separate : Instr → Bool
  | .mov (.memImm _) v => !v.inMemory
  | .mov (.mem _) v => !v.inMemory
  | .push v => !v.inMemory
  | .fpush v => !v.inMemory
  | .call a => !a.inMemory
  | _ => true

end T86
