import Verif.Spec.SourceDbg
import Verif.Spec.Return

/-! # How long stepping over calls takes

As in `Verif/Spec/SourceDbg.lean`, with the number of instructions each callee executes and the number of instructions passed. -/

namespace T86
namespace Isa

/-- The instruction at `s` is there and has been executed, with the callee if it is a call; the callee takes at most `k` instructions, and there
is an instruction after the call. -/
def PassesIn (cfg : Cfg) (P : List Instr) (dbg : List Word) (stop : Word → Prop) (k : Nat) (s s' : State) : Prop :=
  s.pc.toNat < P.length ∧
  ((∃ o s1 j, j ≤ k ∧ (s.pc + 1).toNat < P.length ∧
      instrAt P s.pc = .call o ∧ stopCode dbg s (.call o) = 0 ∧ s.halted = false ∧ step cfg P s = .ok s1 ∧ s1.pc ≠ s.pc + 1 ∧
      Clear cfg P dbg (fun t => stop t.pc ∧ t.pc ≠ s.pc + 1 ∨ t.pc = s.pc + 1 ∧ t.reg (.int .bp) = s.reg (.int .bp)) j s1 s' ∧
      s'.pc = s.pc + 1 ∧ s'.reg (.int .bp) = s.reg (.int .bp) ∧ s'.halted = false) ∨
    (∀ o, instrAt P s.pc ≠ .call o) ∧ Clear cfg P dbg (fun _ => False) 1 s s' ∧ s'.halted = false)

/-- From `s` to the next line, passing over `m` instructions. -/
inductive LineIn (cfg : Cfg) (P : List Instr) (dbg : List Word) (stop : Word → Prop) (line : Word → Prop) (k : Nat) : Nat → State → State → Prop
  | last {s s' : State} (pass : PassesIn cfg P dbg stop k s s') (at_ : line s'.pc) : LineIn cfg P dbg stop line k 1 s s'
  | more {m : Nat} {s t s' : State} (pass : PassesIn cfg P dbg stop k s t) (off : ¬ line t.pc) (free : ¬ stop t.pc)
      (rest : LineIn cfg P dbg stop line k m t s') : LineIn cfg P dbg stop line k (m + 1) s s'

/-- From `s` to the end of the current function, passing over `m` instructions, the last of which is RET. -/
inductive OutIn (cfg : Cfg) (P : List Instr) (dbg : List Word) (stop : Word → Prop) (k : Nat) : Nat → State → State → Prop
  | last {s s' : State} (pass : PassesIn cfg P dbg stop k s s') (ret : instrAt P s.pc = .ret) : OutIn cfg P dbg stop k 1 s s'
  | more {m : Nat} {s t s' : State} (pass : PassesIn cfg P dbg stop k s t) (other : instrAt P s.pc ≠ .ret) (free : ¬ stop t.pc)
      (rest : OutIn cfg P dbg stop k m t s') : OutIn cfg P dbg stop k (m + 1) s s'

end Isa
end T86
