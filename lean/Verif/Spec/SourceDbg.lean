import Verif.Spec.Native
import Verif.Spec.Source

/-! # What debugging on the level of the source means

In terms of the sequential machine. Stepping: `line a` says that a source line begins at the instruction with the address `a`. -/

namespace T86
namespace Isa

/-- What `step` should report, and where the program should then be: the current instruction is executed, and then all
instructions up to the next one at which a line begins, unless the debugger stops before. A breakpoint at the current instruction
does not count. -/
inductive LineStep (cfg : Cfg) (P : List Instr) (dbg : List Word) (stop : State → Prop) (wps : Dbg.Map Word Nat) (line : Word → Prop)
    (s : State) : Event → State → Prop
  /-- A line is reached. -/
  | line {t s' : State} {k : Nat} (first : Clear cfg P dbg (fun _ => False) 1 s t)
      (rest : Clear cfg P dbg (fun x => stop x ∨ line x.pc) k t s') (at_ : line s'.pc) (run : s'.halted = false) :
      LineStep cfg P dbg stop wps line s .singlestep s'
  /-- The debugger stops at the first instruction for another reason than the single step. -/
  | first {e : Event} {s' : State} (ran : Ran cfg P dbg (fun _ => False) wps true s e s') (other : e ≠ .singlestep) :
      LineStep cfg P dbg stop wps line s e s'
  /-- The debugger stops later, before a line is reached. -/
  | later {e : Event} {t s1 s' : State} {k : Nat} (first : Clear cfg P dbg (fun _ => False) 1 s t)
      (rest : Clear cfg P dbg (fun x => stop x ∨ line x.pc) k t s1) (off : ¬ line s1.pc)
      (ran : Ran cfg P dbg stop wps true s1 e s') (other : e ≠ .singlestep) :
      LineStep cfg P dbg stop wps line s e s'

/-- The instruction at `s` is a call, and its callee returns: the program comes back to the instruction after the call, with the
BP it had at the call, in state `s'`, and not earlier. On the way there is no breakpoint (one at the instruction after the call
does not count while BP differs), no BKPT, no write to a watched address and not the end. -/
def Returns (cfg : Cfg) (P : List Instr) (dbg : List Word) (stop : Word → Prop) (s s' : State) : Prop :=
  ∃ o s1 k, instrAt P s.pc = .call o ∧ stopCode dbg s (.call o) = 0 ∧ s.halted = false ∧ step cfg P s = .ok s1 ∧ s1.pc ≠ s.pc + 1 ∧
    Clear cfg P dbg (fun t => stop t.pc ∧ t.pc ≠ s.pc + 1 ∨ t.pc = s.pc + 1 ∧ t.reg (.int .bp) = s.reg (.int .bp)) k s1 s' ∧
    s'.pc = s.pc + 1 ∧ s'.reg (.int .bp) = s.reg (.int .bp) ∧ s'.halted = false

/-- The instruction at `s` has been executed, with the callee if it is a call. -/
def Passes (cfg : Cfg) (P : List Instr) (dbg : List Word) (stop : Word → Prop) (s s' : State) : Prop :=
  Returns cfg P dbg stop s s' ∨
    (∀ o, instrAt P s.pc ≠ .call o) ∧ Clear cfg P dbg (fun _ => False) 1 s s' ∧ s'.halted = false

/-- From `s` to the next line, passing over calls: `s'` is the first state reached in this way in which a line begins. -/
inductive PassesLine (cfg : Cfg) (P : List Instr) (dbg : List Word) (stop : Word → Prop) (line : Word → Prop) : State → State → Prop
  | last {s s' : State} (pass : Passes cfg P dbg stop s s') (at_ : line s'.pc) : PassesLine cfg P dbg stop line s s'
  | more {s t s' : State} (pass : Passes cfg P dbg stop s t) (off : ¬ line t.pc) (free : ¬ stop t.pc)
      (rest : PassesLine cfg P dbg stop line t s') : PassesLine cfg P dbg stop line s s'

/-- From `s` to the end of the current function: `s'` is the first state reached by passing over calls in which the last
instruction passed is RET. -/
inductive PassesOut (cfg : Cfg) (P : List Instr) (dbg : List Word) (stop : Word → Prop) : State → State → Prop
  | last {s s' : State} (pass : Passes cfg P dbg stop s s') (ret : instrAt P s.pc = .ret) : PassesOut cfg P dbg stop s s'
  | more {s t s' : State} (pass : Passes cfg P dbg stop s t) (other : instrAt P s.pc ≠ .ret) (free : ¬ stop t.pc)
      (rest : PassesOut cfg P dbg stop t s') : PassesOut cfg P dbg stop s s'

end Isa

/-- How a byte of a string is shown: a newline and a tab as two characters, anything else as it is. -/
def shownByte (b : BitVec 8) : Str :=
  if b = 10 then ['\\', 'n'] else if b = 9 then ['\\', 't'] else [Char.ofNat b.toNat]

/-- The memory cells from `a` on hold these bytes (in their lowest eight bits). -/
def Isa.State.Bytes (s : Isa.State) (a : Word) (l : List (BitVec 8)) : Prop :=
  ∀ j b, l[j]? = some b → ∃ w, s.mem (a + BitVec.ofNat 64 j) = some w ∧ w.truncate 8 = b

end T86
