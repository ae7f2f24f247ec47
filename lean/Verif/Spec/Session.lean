import Verif.Spec.Isa
import Verif.Model.Vm

/-! # The sequential machine under a debugger

A specification: the sequential machine of `Verif/Spec/Isa.lean` with the four debug registers, the single-step mode and
the commands of the debug protocol. The message types are those of `Verif/Model/Vm.lean`. -/

namespace T86
namespace Isa

/-- `k` instructions, one after the other, none of them after a halt. -/
def runs (cfg : Cfg) (prog : List Instr) : Nat → State → State → Prop
  | 0, s, s' => s' = s
  | k + 1, s, s' => s.halted = false ∧ ∃ t, step cfg prog s = .ok t ∧ runs cfg prog k t s'

/-- The value of a register as the debugger sees it at a stop; IP is the address of the next instruction. -/
def State.look (s : State) (r : LReg) : Word := if r = .int .pc then s.pc else s.reg r

/-- Setting a register by the debugger. -/
def State.poke (s : State) (r : LReg) (v : Word) : State := if r = .int .pc then { s with pc := v } else s.set r v

/-- Recording in the control register (number 4) that debug register `i` was hit: bits 8..15 become the bit of `i`. -/
def mark (dbg : List Word) (i : Nat) : List Word :=
  dbg.set 4 ((dbg.getD 4 0 &&& 0xFFFFFFFFFFFF00FF#64) ||| BitVec.ofNat 64 (2 ^ (8 + i)))

/-- The debug registers after an instruction. -/
def marked (dbg : List Word) (s : State) (i : Instr) : List Word :=
  match (writeAddr s i).bind (watchHit dbg) with
  | none => dbg
  | some j => mark dbg j

/-- A program being debugged. `count` is the number of instructions executed so far. -/
structure Dbg where
  prog : List Instr
  state : State
  dbg : List Word
  trap : Bool
  phase : Phase
  count : Nat

/-- The reason for a stop by interrupt number. -/
def reasonOf (n : Nat) : Reason := if n = 3 then .swBkpt else .hwBkpt

/-- What can happen while the machine runs: some instructions take effect, and possibly there is a stop. -/
inductive Dbg.Tick (cfg : Cfg) (d : Dbg) : Dbg → Prop
  /-- Instructions without an interrupt; in single-step mode there are none. -/
  | go {k : Nat} {s : State} (h : passes cfg d.prog d.dbg k d.state s) (run : s.halted = false)
      (trap : d.trap = true → k = 0) : Tick cfg d { d with state := s, count := d.count + k }
  /-- The last instruction is HALT; in single-step mode it is the only one. -/
  | halt {k : Nat} {s : State} (h : passes cfg d.prog d.dbg k d.state s) (halt : s.halted = true)
      (trap : d.trap = true → k = 1) :
      Tick cfg d { d with state := s, count := d.count + k, phase := .stopped .halt }
  /-- In single-step mode one instruction is followed by a stop that ends the mode. -/
  | single {s : State} (h : passes cfg d.prog d.dbg 1 d.state s) (run : s.halted = false) (trap : d.trap = true) :
      Tick cfg d { d with state := s, count := d.count + 1, phase := .stopped .singleStep, trap := false }
  /-- The last instruction is a breakpoint or writes to a watched address; in single-step mode it is the only one. -/
  | stop {k n : Nat} {s s' : State} (h : passes cfg d.prog d.dbg k d.state s) (run : s.halted = false)
      (step : Isa.step cfg d.prog s = .ok s') (run' : s'.halted = false) (trap : d.trap = true → k = 0)
      (code : stopCode d.dbg s (instrAt d.prog s.pc) = n) (ne : n ≠ 0) :
      Tick cfg d { d with
        state := s', count := d.count + (k + 1), dbg := marked d.dbg s (instrAt d.prog s.pc), phase := .stopped (reasonOf n) }
  /-- An instruction accesses memory that does not exist; in single-step mode it is the first one. -/
  | fail {k : Nat} {s : State} (h : passes cfg d.prog d.dbg k d.state s) (run : s.halted = false)
      (step : Isa.step cfg d.prog s = .error (.exn .outOfRange)) (trap : d.trap = true → k = 0) :
      Tick cfg d { d with state := s, count := d.count + k, phase := .failed }

/-- The registers the debugger can list. -/
def shown (cfg : Cfg) : List Reg := [.pc, .bp, .sp] ++ (List.range cfg.nreg).map .gp

/-- A command at a stop. -/
def Dbg.command (cfg : Cfg) (gregs gram : Nat) (d : Dbg) (why : Reason) : Cmd → Res (Dbg × Reply)
  | .reason => .ok (d, .reason why)
  | .cont => .ok ({ d with phase := if why = .halt then .ended true else .running }, .ok)
  | .step => .ok ({ d with phase := if why = .halt then .ended true else .running, trap := true }, .ok)
  | .terminate => .ok ({ d with phase := .ended true }, .ok)
  | .peekText i n => .ok (d, .text ((List.range n).map fun j => instrAt d.prog (BitVec.ofNat 64 (i + j))))
  | .pokeText i ins =>
      if i < d.prog.length then .ok ({ d with prog := d.prog.set i ins }, .ok) else .error (.exn .outOfRange)
  | .peekData i n => do
      let l ← (List.range n).mapM fun j => d.state.load (BitVec.ofNat 64 (i + j))
      return (d, .data l)
  | .pokeData i v => do
      let s ← d.state.store (BitVec.ofNat 64 i) v
      return ({ d with state := s }, .ok)
  | .peekRegs => .ok (d, .regs ((shown cfg).map fun r => (r, d.state.look (.int r))))
  | .peekFloatRegs => .ok (d, .floats ((List.range cfg.nfreg).map fun i => d.state.look (.flt i)))
  | .peekDebugRegs => .ok (d, .debugs d.dbg)
  | .pokeDebugReg i v => if i < 5 then .ok ({ d with dbg := d.dbg.set i v }, .ok) else .error (.exn .outOfRange)
  | .pokeFloatReg i v =>
      if i < cfg.nfreg then .ok ({ d with state := d.state.poke (.flt i) v }, .ok) else .error (.exn .outOfRange)
  | .pokeReg r v =>
      if (cfg.key (.int r)).isSome then .ok ({ d with state := d.state.poke (.int r) v }, .ok)
      else .error (.exn .outOfRange)
  | .regCount => .ok (d, .count gregs)
  | .textSize => .ok (d, .count d.prog.length)
  | .dataSize => .ok (d, .count gram)
  | .unknown => .ok (d, .unknown)

/-- The replies that announce a new phase. -/
def announce (p : Phase) : List Reply := if p = .running then [] else [.stopped]

/-- A step of the debugged sequential machine, with what it sends. -/
inductive Dbg.Step (cfg : Cfg) (gregs gram : Nat) (d : Dbg) : Vm.Input → Dbg → List Reply → Prop
  | tick {d' : Dbg} (run : d.phase = .running) (h : d.Tick cfg d') : Step cfg gregs gram d .tick d' (announce d'.phase)
  | command {why : Reason} {k : Cmd} {d' : Dbg} {r : Reply} (stop : d.phase = .stopped why)
      (h : d.command cfg gregs gram why k = .ok (d', r)) : Step cfg gregs gram d (.cmd k) d' [r]
  | reason (h : d.phase = .failed) : Step cfg gregs gram d (.cmd .reason) d [.reason .cpuError]
  | leave {k : Cmd} (h : d.phase = .failed) (hk : k = .cont ∨ k = .step ∨ k = .terminate) :
      Step cfg gregs gram d (.cmd k) { d with phase := .ended false } [.ok]
  /-- Ticks happen only while the machine runs; commands are looked at only at stops. After a failure the commands that
  inspect the machine are left out of this specification. -/
  | idle {i : Vm.Input} (h : (i = .tick ∧ d.phase ≠ .running) ∨
      (∃ k, i = .cmd k ∧ (∀ why, d.phase ≠ .stopped why) ∧
        (d.phase = .failed → k ≠ .reason ∧ k ≠ .cont ∧ k ≠ .step ∧ k ≠ .terminate))) :
      Step cfg gregs gram d i d []

/-- What can have happened some time after the machine was resumed in state `s` (in single-step mode if `trap`): `k`
instructions have taken effect, one after the other, and have led to `s'`, with debug registers `dbg'`. -/
inductive Outcome (cfg : Cfg) (prog : List Instr) (dbg : List Word) (trap : Bool) (s : State) : Phase → Nat → State → List Word → Prop
  /-- The machine still runs. -/
  | running {k : Nat} {s' : State} (h : passes cfg prog dbg k s s') (run : s'.halted = false) (single : trap = true → k = 0) :
      Outcome cfg prog dbg trap s .running k s' dbg
  /-- The last instruction was HALT. -/
  | halt {k : Nat} {s' : State} (h : passes cfg prog dbg k s s') (halt : s'.halted = true) (single : trap = true → k = 1) :
      Outcome cfg prog dbg trap s (.stopped .halt) k s' dbg
  /-- One instruction in single-step mode. -/
  | single {s' : State} (h : passes cfg prog dbg 1 s s') (run : s'.halted = false) (single : trap = true) :
      Outcome cfg prog dbg trap s (.stopped .singleStep) 1 s' dbg
  /-- The last instruction was BKPT, the first one met. -/
  | bkpt {k : Nat} {s1 s' : State} (h : passes cfg prog dbg k s s1) (run : s1.halted = false)
      (at_ : instrAt prog s1.pc = .bkpt) (state : s' = s1.next) (single : trap = true → k = 0) :
      Outcome cfg prog dbg trap s (.stopped .swBkpt) (k + 1) s' dbg
  /-- The last instruction wrote to an address that debug register `j` watches, the first such write. -/
  | watch {k j : Nat} {a : Word} {s1 s' : State} (h : passes cfg prog dbg k s s1) (run : s1.halted = false)
      (write : writeAddr s1 (instrAt prog s1.pc) = some a) (hit : watchHit dbg a = some j)
      (step : step cfg prog s1 = .ok s') (run' : s'.halted = false) (single : trap = true → k = 0) :
      Outcome cfg prog dbg trap s (.stopped .hwBkpt) (k + 1) s' (mark dbg j)
  /-- The next instruction accesses memory that does not exist. The debug registers are not specified any more. -/
  | fail {k : Nat} {s' : State} {dbg' : List Word} (h : passes cfg prog dbg k s s') (run : s'.halted = false)
      (step : step cfg prog s' = .error (.exn .outOfRange)) (single : trap = true → k = 0) :
      Outcome cfg prog dbg trap s .failed k s' dbg'

/-- What the debugger sees of the processor at a stop, and what the program has done to its environment, is `s`: every
register (IP being the address of the next instruction), every memory cell, the output and the remaining input. -/
structure Shows (cfg : Cfg) (c : Cpu) (s : State) : Prop where
  regs : ∀ r, (cfg.key r).isSome = true → Cpu.readReg cfg c.regs c.rat r = .ok (s.look r)
  mem : ∀ a, c.ram.mem[a.toNat]? = s.mem a
  out : c.out = s.out
  inp : c.inp = s.inp
  halted : c.halted = s.halted

/-- No instruction is in flight. -/
def Idle (c : Cpu) : Prop := c.entries = [] ∧ c.fetch = none ∧ c.decode = none ∧ c.preds = []

/-- What an instruction prints. -/
def prints (s : State) : Instr → List Out
  | .putchar r => [.char ((s.get (.int r)).setWidth 8)]
  | .putnum r => [.num ((s.get (.int r)).setWidth 32)]
  | _ => []

/-- What the first `k` instructions of the sequential machine print, in program order. -/
def printed (cfg : Cfg) (prog : List Instr) : Nat → State → List Out
  | 0, _ => []
  | k + 1, s => prints s (instrAt prog s.pc) ++ (match step cfg prog s with
    | .ok s' => printed cfg prog k s'
    | .error _ => [])

/-- The address at which fetching goes on after the instruction `i` at `pc`: the naive branch predictor follows jumps to
constant addresses and otherwise goes straight on. -/
def guess (pc : Word) (i : Instr) : Word :=
  match i.jumpDest with
  | some d => nextGuess pc d
  | none => pc + 1

/-- The state after some instructions along the predicted path, `none` if one of them has an error. -/
def ahead (cfg : Cfg) (s : State) : List Instr → Option State
  | [] => some s
  | i :: is => match exec cfg s i with
    | .ok s' => ahead cfg { s' with pc := guess s.pc i } is
    | .error _ => none

/-- The start of a debugged program. -/
def Dbg.start (cfg : Cfg) (prog : List Instr) (data : List Word) (inp : List (BitVec 8)) : Dbg :=
  ⟨prog, Isa.start cfg data inp, List.replicate 5 0, false, .stopped .begin, 0⟩

/-- Well-formed programs whose data fits in the memory, on a machine with a reservation station. -/
structure Setup (cfg : Cfg) (prog : List Instr) (data : List Word) : Prop where
  station : 0 < cfg.rsMax
  wf : ∀ i ∈ prog, i.wf cfg = true
  data : data.length ≤ cfg.ramSize

end Isa

/-- No read of the address is in flight and no write to it is queued. -/
def Cpu.settled (c : Cpu) (a : Word) : Prop := (∀ x ∈ c.ram.reads, x.addr ≠ a) ∧ ∀ w ∈ c.wm.ws, w.addr ≠ a

/-- Inputs covered by the correspondence of machine and specification: instructions poked into the program are
well-formed, and memory cells are poked when no access to them is under way. -/
def Vm.safe (cfg : Cfg) (vm : Vm) : Vm.Input → Prop
  | .cmd (.pokeText _ ins) => ins.wf cfg = true
  | .cmd (.pokeData i _) => vm.cpu.settled (BitVec.ofNat 64 i)
  | _ => True

/-- The states of the machine in sessions in which all inputs are covered. -/
inductive Vm.Reach (cfg : Cfg) (gregs gram : Nat) (prog : List Instr) (data : List Word) (inp : List (BitVec 8)) : Vm → Prop
  | start : Reach cfg gregs gram prog data inp (Vm.start cfg prog data inp).1
  | step {vm vm' : Vm} {i : Vm.Input} {rs : List Reply} (h : Reach cfg gregs gram prog data inp vm) (safe : vm.safe cfg i)
      (step : vm.step cfg gregs gram i = .ok (vm', rs)) : Reach cfg gregs gram prog data inp vm'

/-- A sequence of inputs, with all replies. -/
def Vm.play (cfg : Cfg) (gregs gram : Nat) (vm : Vm) : List Vm.Input → Res (Vm × List Reply)
  | [] => .ok (vm, [])
  | i :: is => do
      let x ← vm.step cfg gregs gram i
      let y ← x.1.play cfg gregs gram is
      return (y.1, x.2 ++ y.2)

end T86
