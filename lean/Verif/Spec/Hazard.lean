import Verif.Spec.Session

/-! # What the processor may look at before it is sure

A specification. The processor works on several instructions at once, so it computes results of instructions before
the ones in front of them have taken effect, along the path it expects the program to take. The C++ has undefined
behaviour when such a computation has none, for example a division by zero, even if the program never gets there. It
also has undefined behaviour when two of the instructions it works on write to one memory cell. A state is hazardous if
this can happen in it. -/

namespace T86
namespace Isa

/-- Memory as instructions in flight see it: a cell that does not exist can be written, and it reads as -1. -/
def State.total (s : State) : State := { s with mem := fun a => some ((s.mem a).getD (-1)) }

/-- One instruction along the expected path; one that has no result changes nothing. -/
def onward (cfg : Cfg) (prog : List Instr) (t : State) : State :=
  match exec cfg t (instrAt prog t.pc) with
  | .ok t' => { t' with pc := guess t.pc (instrAt prog t.pc) }
  | .error _ => { t with pc := guess t.pc (instrAt prog t.pc) }

/-- The state `j` instructions further along the expected path. -/
def foresee (cfg : Cfg) (prog : List Instr) : Nat → State → State
  | 0, t => t
  | j + 1, t => foresee cfg prog j (onward cfg prog t)

/-- The instruction `j` further along the expected path. -/
def wanted (cfg : Cfg) (prog : List Instr) (s : State) (j : Nat) : Instr :=
  instrAt prog (foresee cfg prog j s.total).pc

/-- The memory cell it writes to, if it writes one. -/
def writes (cfg : Cfg) (prog : List Instr) (s : State) (j : Nat) : Option Word :=
  writeAddr (foresee cfg prog j s.total) (wanted cfg prog s j)

/-- `s` is hazardous for a processor that works on `cfg.rsMax` instructions at once. -/
inductive Hazard (cfg : Cfg) (prog : List Instr) (s : State) : Prop
  /-- One of the instructions has no result. Only the first one would really read input. -/
  | undefined (j : Nat) (h : j < cfg.rsMax)
      (none : ∀ t, exec cfg (foresee cfg prog j s.total) (wanted cfg prog s j) ≠ .ok t)
      (input : j = 0 ∨ ∀ r, wanted cfg prog s j ≠ .getchar r)
  /-- One of them is `LEA` of a sum of two registers. -/
  | lea (j : Nat) (h : j < cfg.rsMax) (d r r' : Reg) (lea : wanted cfg prog s j = .lea d (.mem (.regReg r r')))
  /-- Two of them write to one cell. -/
  | stores (j j' : Nat) (h : j' < j) (h' : j < cfg.rsMax) (a : Word) (first : writes cfg prog s j' = some a)
      (second : writes cfg prog s j = some a)

end Isa
end T86
