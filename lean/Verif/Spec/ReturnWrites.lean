import Verif.Spec.ReturnOut

/-! # Writes to watched addresses in steps over calls

As in `Verif/Spec/ReturnOut.lean`, for steps that end with a write to a watched address, before the function returns or the next line begins. -/

namespace T86
namespace Isa

/-- The instruction at `s` is executed, and a write to `a` ends the step in `v`: it is a call, and its callee, after at most `k` instructions
and before it returns or comes to a breakpoint, executes an instruction that writes to `a`; or it is no call and writes to `a` itself. -/
def WritesIn (cfg : Cfg) (P : List Instr) (dbg : List Word) (stop : Word → Prop) (k : Nat) (s : State) (a : Word) (v : State) : Prop :=
  s.pc.toNat < P.length ∧
  ((∃ o s1 u j, j ≤ k ∧ (s.pc + 1).toNat < P.length ∧
      instrAt P s.pc = .call o ∧ stopCode dbg s (.call o) = 0 ∧ s.halted = false ∧ step cfg P s = .ok s1 ∧ s1.halted = false ∧ s1.pc ≠ s.pc + 1 ∧
      ¬ stop s1.pc ∧ instrAt P (s.pc + 1) ≠ .bkpt ∧
      Clear cfg P dbg (fun t => stop t.pc ∧ t.pc ≠ s.pc + 1 ∨ t.pc = s.pc + 1 ∧ t.reg (.int .bp) = s.reg (.int .bp)) j s1 u ∧
      u.halted = false ∧ ¬ stop u.pc ∧ u.pc ≠ s.pc + 1 ∧ writeAddr u (instrAt P u.pc) = some a ∧ step cfg P u = .ok v ∧ v.halted = false ∧
      v.pc ≠ s.pc + 1) ∨
    (∀ o, instrAt P s.pc ≠ .call o) ∧ s.halted = false ∧ writeAddr s (instrAt P s.pc) = some a ∧ step cfg P s = .ok v ∧ v.halted = false)

/-- From `s` to a write to `a` before the current function returns, at the `m`-th instruction passed over. -/
inductive OutWrites (cfg : Cfg) (P : List Instr) (dbg : List Word) (stop : Word → Prop) (k : Nat) (a : Word) (v : State) : Nat → State → Prop
  | last {s : State} (writes : WritesIn cfg P dbg stop k s a v) : OutWrites cfg P dbg stop k a v 1 s
  | more {m : Nat} {s t : State} (pass : PassesIn cfg P dbg stop k s t) (other : instrAt P s.pc ≠ .ret) (free : ¬ stop t.pc)
      (rest : OutWrites cfg P dbg stop k a v m t) : OutWrites cfg P dbg stop k a v (m + 1) s

/-- From `s` to a write to `a` before the next line begins, at the `m`-th instruction passed over. -/
inductive LineWrites (cfg : Cfg) (P : List Instr) (dbg : List Word) (stop : Word → Prop) (line : Word → Prop) (k : Nat) (a : Word) (v : State) :
    Nat → State → Prop
  | last {s : State} (writes : WritesIn cfg P dbg stop k s a v) : LineWrites cfg P dbg stop line k a v 1 s
  | more {m : Nat} {s t : State} (pass : PassesIn cfg P dbg stop k s t) (off : ¬ line t.pc) (free : ¬ stop t.pc)
      (rest : LineWrites cfg P dbg stop line k a v m t) : LineWrites cfg P dbg stop line k a v (m + 1) s

end Isa
end T86
