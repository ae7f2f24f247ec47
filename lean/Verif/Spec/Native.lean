import Verif.Model.Native
import Verif.Spec.Asm
import Verif.Spec.Session
import Mathlib.Data.List.Forall2

/-! # What a debugger session is

A session is a sequence of calls that succeed. The text of the debuggee as its user sees it is the program that was loaded,
changed by the user's own writes. -/

namespace T86
open Dbg Str

/-- A text that is read as this instruction. (A quoted string never is a part of an instruction.) -/
def Means (h : Host) (s : Str) (i : Instr) : Prop := Asm.oneInstruction.run h.stod s = .ok i ∧ '"' ∉ s

/-- An instruction the assembler can produce and whose operands can be read back when they are printed (see C22). -/
def Plain (h : Host) (i : Instr) : Prop := i.Writable ∧ ∀ o ∈ i.shown, o.Legible h.stod h.ftos

/-- How texts of instructions may be spelt: a text that `Tx` relates to an instruction is read as this instruction, and what the
machine prints is such a text. -/
structure Texts (h : Host) (Tx : Str → Instr → Prop) : Prop where
  means : ∀ {s i}, Tx s i → Means h s i
  print : ∀ {i}, Plain h i → Tx (i.print h.ftos) i

namespace Link

/-- The machine waits for commands and answers them all. -/
structure Live (l : Link) : Prop where
  toVm : l.toVm = []
  toDbg : l.toDbg = []
  alive : l.dead = false
  stopped : ∃ why, l.vm.phase = .stopped why

end Link

/-- The calls of a debugger session. -/
inductive Op
  | set (a : Word)
  | unset (a : Word)
  | enable (a : Word)
  | disable (a : Word)
  | write (a : Word) (l : List Str)
  | read (a n : Word)
  | registers
  | setRegister (name : Str) (v : Word)
  | floats
  | setFloat (name : Str) (v : Word)
  | readMemory (a n : Word)
  | writeMemory (a : Word) (l : List Word)
  | watch (a : Word)
  | unwatch (a : Word)
  | step
  | raw
  | over (fuel : Nat) (skip : Bool)
  | out (fuel : Nat)
  | go

namespace Op

/-- The call. `raw` is `DoRawSingleStep`, which does not step over a breakpoint; `go` is `ContinueExecution` followed by
`WaitForDebugEvent`. -/
def run (h : Host) (c : Client) : Op → Native.N Unit
  | .set a => Native.setBreakpoint h a
  | .unset a => Native.unsetBreakpoint h a
  | .enable a => Native.enable h a
  | .disable a => Native.disable h a
  | .write a l => Native.writeText h a l
  | .read a n => do let _ ← Native.readText h a n
  | .registers => do let _ ← Native.getRegisters h
  | .setRegister name v => Native.setRegister h c name v
  | .floats => do let _ ← Native.getFloatRegisters h
  | .setFloat name v => Native.setFloatRegister h c name v
  | .readMemory a n => do let _ ← Native.readMemory h c a n
  | .writeMemory a l => Native.setMemory h c a l
  | .watch a => Native.setWatchpoint h a
  | .unwatch a => Native.removeWatchpoint h a
  | .step => do let _ ← Native.singleStep h c
  | .raw => do let _ ← Native.rawStep h c
  | .over fuel skip => do let _ ← Native.stepOver h c fuel skip
  | .out fuel => do let _ ← Native.stepOut h c fuel
  | .go => do
    Native.continue' h c
    let _ ← Native.waitEvent h c

end Op

/-- A program with the instructions from `i` on replaced. -/
def overwrite (P : List Instr) (i : Nat) (l : List Instr) : List Instr := P.take i ++ l ++ P.drop (i + l.length)

/-- What the user has changed in the text: `P'` is what it should be after the call, if it was `P` before. What is written
must be instructions, spelt as `Tx` allows, and must not be written over a disabled breakpoint (see `C30_write_disabled`). -/
def Op.Text (h : Host) (Tx : Str → Instr → Prop) (n : Native) (P : List Instr) : Op → List Instr → Prop
  | .write a l, P' => ∃ is, List.Forall₂ Tx l is ∧ (∀ i ∈ is, Plain h i) ∧ P' = overwrite P a.toNat is ∧
      ∀ b bp, n.bps.find b = some bp → a.toNat ≤ b.toNat → b.toNat < a.toNat + l.length → bp.enabled = true
  | _, P' => P' = P

/-- The program, the state of the debugger, and what the text should be, after any successful calls. -/
inductive Session (h : Host) (c : Client) (Tx : Str → Instr → Prop) (prog : List Instr) (data : List Word)
    (inp : List (BitVec 8)) : List Instr → Native → Prop
  | begin {n : Native} {e : Event} : Native.waitEvent h c (Native.connect h prog data inp) = (.ok e, n) →
      Session h c Tx prog data inp prog n
  | call {P P' : List Instr} {n n' : Native} (o : Op) : Session h c Tx prog data inp P n → o.run h c n = (.ok (), n') →
      o.Text h Tx n P P' → Session h c Tx prog data inp P' n'

/-- Calls covered by the correspondence with the sequential machine: the text that is written consists of well-formed
instructions, and memory cells are written when no access to them is under way (see C18). -/
def Op.Safe (h : Host) (n : Native) (P' : List Instr) : Op → Prop
  | .write _ _ => ∀ i ∈ P', i.wf h.cfg = true
  | .writeMemory a l => ∀ j, j < l.length → n.link.vm.cpu.settled (a + BitVec.ofNat 64 j)
  | _ => True

/-- A session in which all calls are covered. -/
inductive Careful (h : Host) (c : Client) (Tx : Str → Instr → Prop) (prog : List Instr) (data : List Word)
    (inp : List (BitVec 8)) : List Instr → Native → Prop
  | begin {n : Native} {e : Event} : Native.waitEvent h c (Native.connect h prog data inp) = (.ok e, n) →
      Careful h c Tx prog data inp prog n
  | call {P P' : List Instr} {n n' : Native} (o : Op) : Careful h c Tx prog data inp P n → o.run h c n = (.ok (), n') →
      o.Text h Tx n P P' → o.Safe h n P' → Careful h c Tx prog data inp P' n'

/-! ## What the debugger shows of the execution

In terms of the sequential machine, the text as the user sees it (`P`), the debug registers (`dbg`), the states at which the
debugger would stop because of a breakpoint (`stop`), and the addresses with a watchpoint (`wps`). -/

namespace Isa

/-- `k` instructions, one after the other, none of which is executed after a halt or in a state at which the debugger stops,
or is itself a BKPT or a write to a watched address. -/
def Clear (cfg : Cfg) (P : List Instr) (dbg : List Word) (stop : State → Prop) : Nat → State → State → Prop
  | 0, s, s' => s' = s
  | k + 1, s, s' => s.halted = false ∧ ¬ stop s ∧ stopCode dbg s (instrAt P s.pc) = 0 ∧
      ∃ t, step cfg P s = .ok t ∧ Clear cfg P dbg stop k t s'

/-- What a debugger should report, and where the program should be, after the program went on from state `s`; after at most
one instruction if `trap`. -/
inductive Ran (cfg : Cfg) (P : List Instr) (dbg : List Word) (stop : State → Prop) (wps : Map Word Nat) (trap : Bool) (s : State) :
    Event → State → Prop
  /-- The program has ended. -/
  | halt {k : Nat} {s' : State} (h : Clear cfg P dbg stop k s s') (halt : s'.halted = true) (single : trap = true → k = 1) :
      Ran cfg P dbg stop wps trap s .end' s'
  /-- One instruction has been executed, as requested. -/
  | single {s' : State} (h : Clear cfg P dbg stop 1 s s') (run : s'.halted = false) (single : trap = true) :
      Ran cfg P dbg stop wps trap s .singlestep s'
  /-- The program is at a breakpoint or at a BKPT of its own. The instruction there has not been executed. -/
  | breakpoint {k : Nat} {s' : State} (h : Clear cfg P dbg stop k s s') (run : s'.halted = false)
      (at_ : stop s' ∨ instrAt P s'.pc = .bkpt) (single : trap = true → k = 0) :
      Ran cfg P dbg stop wps trap s (.breakpoint s'.pc) s'
  /-- The last instruction has written to an address with a watchpoint. -/
  | watch {k : Nat} {a : Word} {s1 s' : State} (h : Clear cfg P dbg stop k s s1) (run : s1.halted = false) (free : ¬ stop s1)
      (write : writeAddr s1 (instrAt P s1.pc) = some a) (watched : (wps.find a).isSome = true)
      (step : step cfg P s1 = .ok s') (run' : s'.halted = false) (single : trap = true → k = 0) :
      Ran cfg P dbg stop wps trap s (.watchpoint a) s'

/-- The same for a program that may be at a breakpoint: then its original instruction is executed once, whatever `stop` says. -/
inductive Went (cfg : Cfg) (P : List Instr) (dbg : List Word) (stop : State → Prop) (wps : Map Word Nat) (trap : Bool) (s : State) :
    Event → State → Prop
  | free {e : Event} {s' : State} (free : ¬ stop s) (ran : Ran cfg P dbg stop wps trap s e s') :
      Went cfg P dbg stop wps trap s e s'
  /-- The original instruction is the last one. -/
  | last {e : Event} {s' : State} (at_ : stop s) (ran : Ran cfg P dbg (fun _ => False) wps true s e s') (ne : e ≠ .singlestep) :
      Went cfg P dbg stop wps trap s e s'
  /-- The program goes on after the original instruction. -/
  | on {e : Event} {s1 s' : State} (at_ : stop s) (first : Ran cfg P dbg (fun _ => False) wps true s .singlestep s1)
      (ran : Ran cfg P dbg stop wps false s1 e s') : Went cfg P dbg stop wps trap s e s'

end Isa

/-- The state with the cells from `a` on changed. -/
def Isa.State.write (s : Isa.State) (a : Word) (l : List Word) : Isa.State :=
  { s with mem := fun b => if a.toNat ≤ b.toNat ∧ b.toNat < a.toNat + l.length then l[b.toNat - a.toNat]? else s.mem b }

/-- The debugger is at a stop and shows `s`: the machine shows it, and `GetRegister` returns its registers. -/
structure Native.Shows (h : Host) (n : Native) (s : Isa.State) : Prop where
  live : n.link.Live
  machine : Isa.Shows h.cfg n.link.vm.cpu s
  regs : ∀ r ∈ Isa.shown h.cfg, Native.getRegister h r.print n = (.ok (s.look (.int r)), n)

end T86
