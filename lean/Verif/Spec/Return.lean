import Verif.Spec.Native
import Verif.Spec.Hazard

/-! # Control comes back

What is needed for a call of the debugger to come back, in terms of the machine and of the sequential machine of `Verif/Spec/Isa.lean`. -/

namespace T86
open Dbg

namespace Native

/-- The machine has what every instruction needs, and the debugger knows all of its registers. -/
structure Able (h : Host) (c : Client) : Prop where
  alus : 0 < h.cfg.alus
  gates : 0 < h.cfg.gates
  rs : 0 < h.cfg.rsMax
  gp : h.cfg.nreg ≤ c.gp
  regs : h.cfg.nreg ≤ 2 ^ 64

/-- No debug register is active without a watchpoint. It would be after a watchpoint has been removed (`C33_still_active`). -/
def Kempt (n : Native) : Prop := ∀ j, j < 4 → (n.link.vm.cpu.dbg.getD 4 0).getLsbD j = true → ∃ w ∈ n.wps, w.2 = j

/-- A call comes back with a result, or there is undefined behaviour of the C++ code, and then `U`. -/
def Returns {α : Type} (U : Prop) (x : Except Err α × Native) (Q : α → Native → Prop) : Prop :=
  (∃ a n', x = (.ok a, n') ∧ Q a n') ∨ (∃ n', x = (.error .ub, n')) ∧ U

end Native

namespace Isa

/-- At a breakpoint the instruction there is executed first; then the debugger waits. -/
def first (cfg : Cfg) (P : List Instr) (stop : State → Prop) (s s1 : State) : Prop := (¬ stop s ∧ s1 = s) ∨ (stop s ∧ step cfg P s = .ok s1)

/-- The text with BKPT at the addresses in `A`. -/
def bkpts (P : List Instr) (A : Word → Bool) : List Instr := P.mapIdx fun i x => if A (BitVec.ofNat 64 i) then .bkpt else x

/-- There can be undefined behaviour while one instruction is executed, and, if overflow is defined, the state is hazardous (`Isa.Hazard`) for
the text in which there are breakpoints in `A`, but not here. -/
def StepRisk (cfg : Cfg) (P : List Instr) (A : Word → Bool) (s : State) : Prop :=
  UbPossible cfg P ∧ (cfg.mode = .wrap → Hazard cfg (bkpts P fun a => a != s.pc && A a) s)

/-- There can be undefined behaviour while the program goes on, and, if overflow is defined, it comes to a hazardous state before it is
stopped. -/
def RunRisk (cfg : Cfg) (P : List Instr) (dbg : List Word) (A : Word → Bool) (s : State) : Prop :=
  UbPossible cfg P ∧ (cfg.mode = .wrap →
    (A s.pc = true ∧ Hazard cfg (bkpts P fun a => a != s.pc && A a) s) ∨
    ∃ s1 m t, first cfg P (fun t => A t.pc = true) s s1 ∧ Clear cfg P dbg (fun t => A t.pc = true) m s1 t ∧ t.halted = false ∧
      Hazard cfg (bkpts P A) t)

end Isa
end T86
