import Verif.Spec.ReturnOut

/-! # What stepping over calls may meet

As in `Verif/Spec/ReturnOut.lean`, for steps that end before the function returns or the next line begins. -/

namespace T86
namespace Isa

/-- The instruction at `s` has been executed, and something ends the step in `u`: it is a call, and its callee comes to the end of the program,
to a breakpoint or to a BKPT of the program, after at most `k` instructions and before it returns; or it is no call and ends the program. -/
def MeetsIn (cfg : Cfg) (P : List Instr) (dbg : List Word) (stop : Word → Prop) (k : Nat) (s u : State) : Prop :=
  s.pc.toNat < P.length ∧
  ((∃ o s1 j, j ≤ k ∧ (s.pc + 1).toNat < P.length ∧
      instrAt P s.pc = .call o ∧ stopCode dbg s (.call o) = 0 ∧ s.halted = false ∧ step cfg P s = .ok s1 ∧ s1.halted = false ∧ s1.pc ≠ s.pc + 1 ∧
      ¬ stop s1.pc ∧ instrAt P (s.pc + 1) ≠ .bkpt ∧
      Clear cfg P dbg (fun t => stop t.pc ∧ t.pc ≠ s.pc + 1 ∨ t.pc = s.pc + 1 ∧ t.reg (.int .bp) = s.reg (.int .bp)) j s1 u ∧
      (u.halted = true ∨ stop u.pc ∨ instrAt P u.pc = .bkpt) ∧ u.pc ≠ s.pc + 1) ∨
    (∀ o, instrAt P s.pc ≠ .call o) ∧ Clear cfg P dbg (fun _ => False) 1 s u ∧ u.halted = true)

/-- From `s` to what stepping out meets before the current function returns, at the `m`-th instruction passed over. -/
inductive OutMet (cfg : Cfg) (P : List Instr) (dbg : List Word) (stop : Word → Prop) (k : Nat) : Nat → State → State → Prop
  | last {s u : State} (meets : MeetsIn cfg P dbg stop k s u) : OutMet cfg P dbg stop k 1 s u
  | more {m : Nat} {s t u : State} (pass : PassesIn cfg P dbg stop k s t) (other : instrAt P s.pc ≠ .ret) (free : ¬ stop t.pc)
      (rest : OutMet cfg P dbg stop k m t u) : OutMet cfg P dbg stop k (m + 1) s u
  /-- The next instruction, no call, is at a breakpoint or is BKPT. -/
  | stop {s t : State} (pass : PassesIn cfg P dbg stop k s t) (other : instrAt P s.pc ≠ .ret) (at_ : stop t.pc ∨ instrAt P t.pc = .bkpt)
      (no : ∀ o, instrAt P t.pc ≠ .call o) (there : t.pc.toNat < P.length) (run : t.halted = false) : OutMet cfg P dbg stop k 2 s t

/-- From `s` to what stepping over a line meets before the next line begins, at the `m`-th instruction passed over. -/
inductive LineMet (cfg : Cfg) (P : List Instr) (dbg : List Word) (stop : Word → Prop) (line : Word → Prop) (k : Nat) : Nat → State → State → Prop
  | last {s u : State} (meets : MeetsIn cfg P dbg stop k s u) : LineMet cfg P dbg stop line k 1 s u
  | more {m : Nat} {s t u : State} (pass : PassesIn cfg P dbg stop k s t) (off : ¬ line t.pc) (free : ¬ stop t.pc)
      (rest : LineMet cfg P dbg stop line k m t u) : LineMet cfg P dbg stop line k (m + 1) s u
  /-- The next instruction, no call, is at a breakpoint or is BKPT. -/
  | stop {s t : State} (pass : PassesIn cfg P dbg stop k s t) (off : ¬ line t.pc) (at_ : stop t.pc ∨ instrAt P t.pc = .bkpt)
      (no : ∀ o, instrAt P t.pc ≠ .call o) (there : t.pc.toNat < P.length) (run : t.halted = false) : LineMet cfg P dbg stop line k 2 s t

end Isa
end T86
