import Verif.Model.Cpu

/-! # Loading the data of a program: src/t86/cpu.cpp:170-176 -/

namespace T86

/-- The loop of `Cpu::start`: cell `i` gets the first element, and so on; a cell that does not exist throws.
Models: src/t86/cpu.cpp:173-175, 222-224 (`setMemory`), src/t86/ram.cpp:76-78. -/
def loadData (mem : List Word) (i : Nat) : List Word → Option (List Word)
  | [] => some mem
  | w :: data => if i < mem.length then loadData (mem.set i w) (i + 1) data else none

end T86
