import Verif.Spec.Session

/-! Concrete machines and programs, used to show that hypotheses of theorems can be met. -/

namespace T86
namespace Sample

/-- A floating point unit for examples without floating point instructions. -/
def fo : FloatOps := ⟨fun x _ => x, fun x _ => x, fun x _ => x, fun x _ => x, fun _ => false, fun _ => false,
  fun _ => false, id, some⟩

/-- Three integer registers, one float register, one ALU, two station entries, 16 words of memory, four gates. -/
def cfg : Cfg := ⟨3, 1, 1, 2, 16, 4, .wrap, fo⟩

/-- Sums 3+2+1 in a loop (with mispredicted jumps), stores, loads and prints the result. -/
def prog : List Instr :=
  [.mov (.val (.reg (.gp 0))) (.imm 3),
   .bin .add true (.gp 1) (.gp 1) (.val (.reg (.gp 0))),
   .loop (.gp 0) (.imm 1),
   .mov (.mem (.regImm (.gp 1) 2)) (.val (.reg (.gp 1))),
   .mov (.val (.reg (.gp 2))) (.memImm 8),
   .putnum (.gp 2),
   .halt]

/-- A store, a breakpoint, and more. -/
def stops : List Instr :=
  [.mov (.memImm 5) (.imm 1),
   .bkpt,
   .mov (.val (.reg (.gp 0))) (.memImm 5),
   .nop,
   .halt]

end Sample
end T86
