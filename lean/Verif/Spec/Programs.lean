import Verif.Spec.Isa
import Verif.Model.Print

/-! # Which instructions can be executed, and which the program builder takes -/

namespace T86

/-- The operand an instruction overwrites. -/
def Instr.overwrites : Instr → Option Operand
  | .mov d _ => some d
  | .lea d _ => some (.val (.reg d))
  | .bin _ _ d _ _ => some (.val (.reg d))
  | .un _ d => some (.val (.reg d))
  | .loop d _ => some (.val (.reg d))
  | .pop d => some (.val (.reg d))
  | .getchar d => some (.val (.reg d))
  | .nrw d _ => some (.val (.reg d))
  | _ => none

/-- An instruction the machine can execute: its registers exist, it does not overwrite IP or a number, and it is not
`POP SP`. -/
structure Instr.Sensible (cfg : Cfg) (i : Instr) : Prop where
  exist : ∀ o ∈ i.shown, o.ok cfg = true
  ip : i.overwrites ≠ some (.val (.reg .pc))
  number : ∀ w, i.overwrites ≠ some (.fimm w)
  popSp : i ≠ .pop .sp

/-- The registers an instruction may not overwrite in a program made with the program builder: arithmetic and `MOV` spare IP
and FLAGS, `LEA` also SP and BP, and `POP` spares IP. -/
def Instr.spared : Instr → List Reg
  | .mov _ _ => [.pc, .flags]
  | .bin _ _ _ _ _ => [.pc, .flags]
  | .un _ _ => [.pc, .flags]
  | .lea _ _ => [.pc, .flags, .sp, .bp]
  | .pop _ => [.pc]
  | _ => []

end T86
