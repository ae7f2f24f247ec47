import Verif.Spec.Native

/-! # Stepping over calls and out of functions, whatever is met on the way

In terms of the sequential machine, as `Isa.Ran`. -/

namespace T86
open Dbg
namespace Isa

/-- What a debugger should report, and where the program should be, after the program went on from state `s`, when the first
instruction is executed whatever `stop` says if `here`. -/
inductive Onward (cfg : Cfg) (P : List Instr) (dbg : List Word) (here : Prop) (stop : State → Prop) (wps : Map Word Nat) (s : State) :
    Event → State → Prop
  | free {e : Event} {s' : State} (free : ¬ here) (ran : Ran cfg P dbg stop wps false s e s') : Onward cfg P dbg here stop wps s e s'
  /-- The first instruction is the last one. -/
  | last {e : Event} {s' : State} (at_ : here) (ran : Ran cfg P dbg (fun _ => False) wps true s e s') (ne : e ≠ .singlestep) :
      Onward cfg P dbg here stop wps s e s'
  /-- The program goes on after the first instruction. -/
  | on {e : Event} {s1 s' : State} (at_ : here) (first : Ran cfg P dbg (fun _ => False) wps true s .singlestep s1)
      (ran : Ran cfg P dbg stop wps false s1 e s') : Onward cfg P dbg here stop wps s e s'

/-- Stops at the instructions in `A`; at the instruction `ret` only with the given BP. -/
def backAt (A : Word → Prop) (ret bp : Word) (t : State) : Prop := A t.pc ∧ (t.pc = ret → t.reg (.int .bp) = bp)

/-- The instructions at which a program stops while a call, `ret` being the instruction after it, is stepped over: those in `armed`, and
`ret`, unless there is a breakpoint (in `has`) already. -/
def guards (has armed : Word → Prop) (ret : Word) (a : Word) : Prop := armed a ∨ a = ret ∧ ¬ has ret

/-- Stepping over the next instruction of `s`, with its callee if it is a call. There are breakpoints at the addresses in `has`, those
in `armed` are enabled. If `skip`, a breakpoint at the instruction itself does not count. -/
inductive OverStep (cfg : Cfg) (P : List Instr) (dbg : List Word) (has armed : Word → Prop) (wps : Map Word Nat) (skip : Bool) (s : State) :
    Event → State → Prop
  /-- The instruction is no call. -/
  | plain {e : Event} {s' : State} (no : ∀ o, instrAt P s.pc ≠ .call o)
      (ran : Ran cfg P dbg (fun t => skip = false ∧ armed t.pc) wps true s e s') : OverStep cfg P dbg has armed wps skip s e s'
  /-- It is a call, which is executed; then the program goes on from the first instruction of the callee. That it is back after the call
  is reported as the end of a step. -/
  | call {e : Event} {s1 s' : State} {o : Operand} (is : instrAt P s.pc = .call o) (sk : skip = true)
      (ran : Ran cfg P dbg (fun _ => False) wps true s .singlestep s1)
      (rest : Onward cfg P dbg (guards has armed (s.pc + 1) s1.pc)
        (backAt (guards has armed (s.pc + 1)) (s.pc + 1) (s.reg (.int .bp))) wps s1 e s') :
      OverStep cfg P dbg has armed wps skip s (if s'.pc = s.pc + 1 then .singlestep else e) s'
  /-- Without `skip` the program goes on from the call itself. -/
  | callOn {e : Event} {s' : State} {o : Operand} (is : instrAt P s.pc = .call o) (sk : skip = false)
      (rest : Onward cfg P dbg (guards has armed (s.pc + 1) s.pc)
        (backAt (guards has armed (s.pc + 1)) (s.pc + 1) (s.reg (.int .bp))) wps s e s') :
      OverStep cfg P dbg has armed wps skip s (if s'.pc = s.pc + 1 then .singlestep else e) s'

/-- From `s` on no CALL writes its return address to a cell with a watchpoint. -/
def CallsFree (cfg : Cfg) (P : List Instr) (wps : Map Word Nat) (s : State) : Prop :=
  ∀ k t o a, runs cfg P k s t → t.halted = false → instrAt P t.pc = .call o → writeAddr t (.call o) = some a → wps.find a = none

/-- Stepping over one instruction after the other, the first one with `skip`, until a RET has been executed or something else than the
end of a step is to be reported. -/
inductive OutStep (cfg : Cfg) (P : List Instr) (dbg : List Word) (has armed : Word → Prop) (wps : Map Word Nat) :
    Bool → State → Event → State → Prop
  | last {skip : Bool} {s s' : State} {e : Event} (over : OverStep cfg P dbg has armed wps skip s e s')
      (done : instrAt P s.pc = .ret ∨ e ≠ .singlestep) : OutStep cfg P dbg has armed wps skip s e s'
  | on {skip : Bool} {s s1 s' : State} {e : Event} (over : OverStep cfg P dbg has armed wps skip s .singlestep s1)
      (no : instrAt P s.pc ≠ .ret) (rest : OutStep cfg P dbg has armed wps false s1 e s') : OutStep cfg P dbg has armed wps skip s e s'

/-- Stepping over one instruction after the other, the first one with `skip`, until a line begins or something else than the end of a
step is to be reported. -/
inductive LineOver (cfg : Cfg) (P : List Instr) (dbg : List Word) (has armed : Word → Prop) (wps : Map Word Nat) (begins : Word → Prop) :
    Bool → State → Event → State → Prop
  | last {skip : Bool} {s s' : State} {e : Event} (over : OverStep cfg P dbg has armed wps skip s e s')
      (done : begins s'.pc ∨ e ≠ .singlestep) : LineOver cfg P dbg has armed wps begins skip s e s'
  | on {skip : Bool} {s s1 s' : State} {e : Event} (over : OverStep cfg P dbg has armed wps skip s .singlestep s1)
      (no : ¬ begins s1.pc) (rest : LineOver cfg P dbg has armed wps begins false s1 e s') :
      LineOver cfg P dbg has armed wps begins skip s e s'

end Isa
end T86
