import Verif.Model.Operand

/-! # What the addressing modes mean

A specification. The register part of an operand is `base + offset + index * scale`, each part optional. -/

namespace T86
namespace Addr

/-- The parts of a register expression: base register, offset, index register with its scale. -/
structure Parts where
  base : Option Reg
  off : Word
  index : Option (Reg × Word)

/-- The parts of each form. -/
def parts : RegExpr → Parts
  | .reg r => ⟨some r, 0, none⟩
  | .regImm r i => ⟨some r, i, none⟩
  | .regReg r1 r2 => ⟨some r1, 0, some (r2, 1)⟩
  | .regScaled r k => ⟨none, 0, some (r, k)⟩
  | .regImmReg r1 i r2 => ⟨some r1, i, some (r2, 1)⟩
  | .regRegScaled r1 r2 k => ⟨some r1, 0, some (r2, k)⟩
  | .regImmRegScaled r1 i r2 k => ⟨some r1, i, some (r2, k)⟩

/-- Base + offset + index * scale. -/
def Parts.value (p : Parts) (reg : Reg → Word) : Word :=
  (p.base.elim 0 reg) + p.off + (p.index.elim 0 fun x => reg x.1 * x.2)

/-- The registers named. -/
def Parts.regs (p : Parts) : List Reg := p.base.toList ++ (p.index.map (·.1)).toList

/-- The value an operand stands for. `ans` answers questions for registers, float registers and memory cells. -/
def value (ans : Requirement → Word) : Operand → Word
  | .imm w => w
  | .fimm w => w
  | .freg i => ans (.freg i)
  | .val e => (parts e).value fun r => ans (.reg r)
  | .memImm a => ans (.mem a)
  | .mem e => ans (.mem ((parts e).value fun r => ans (.reg r)))

/-- What has to be asked: the registers named and for memory operands the one cell. -/
def asks (ans : Requirement → Word) : Operand → List Requirement
  | .imm _ => []
  | .fimm _ => []
  | .freg i => [.freg i]
  | .val e => (parts e).regs.map .reg
  | .memImm a => [.mem a]
  | .mem e => (parts e).regs.map .reg ++ [.mem ((parts e).value fun r => ans (.reg r))]

/-- Supplying an operand with the answer to its requirement: float registers by the overload for floating point numbers.
This is the body of the loop of src/t86/cpu/reservation_station.cpp:52-79. -/
def supply (m : Mode) (ans : Requirement → Word) (op : Operand) : Requirement → Res Operand
  | .freg i => op.supplyFloat (ans (.freg i))
  | q => op.supply m (ans q)

/-- Fetching an operand: as long as it is not fetched, its requirement is asked and the answer supplied. `qs` are the
questions asked so far. -/
inductive Fetching (m : Mode) (ans : Requirement → Word) : Operand → List Requirement → Operand → Prop
  | now (op : Operand) : Fetching m ans op [] op
  | ask {op op1 op2 : Operand} {q : Requirement} {qs : List Requirement} (h1 : op.isFetched = false) (h2 : op.requirement = .ok q)
      (h3 : supply m ans op q = .ok op1) (h4 : Fetching m ans op1 qs op2) : Fetching m ans op (q :: qs) op2

end Addr
end T86
