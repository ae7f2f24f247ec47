import Verif.Model.Cpu

/-! # The virtual machine under a debugger: src/t86/os.cpp, src/t86/debug.cpp and the debug accessors of src/t86/cpu.cpp

Commands and replies are structured values here; their text form is the subject of `Verif/Model/Protocol.lean`. -/

namespace T86

/-- Models: src/t86/debug.h:21-28 (`BreakReason`). -/
inductive Reason
  | begin | swBkpt | hwBkpt | singleStep | halt | cpuError
  deriving DecidableEq, Repr

/-- The commands of the debug protocol. Models: the conditions of the `if` chain in src/t86/debug.cpp:123-209. -/
inductive Cmd
  | reason
  | cont
  | peekText (i n : Nat)
  | pokeText (i : Nat) (ins : Instr)
  | peekData (i n : Nat)
  | pokeData (i : Nat) (v : Word)
  | peekRegs
  | peekFloatRegs
  | peekDebugRegs
  | pokeDebugReg (i : Nat) (v : Word)
  | pokeFloatReg (i : Nat) (v : Word)
  | pokeReg (r : Reg) (v : Word)
  | step
  | regCount
  | textSize
  | dataSize
  | terminate
  | unknown
  deriving DecidableEq, Repr

/-- What the machine sends. Models: the arguments of `messenger->Send` in src/t86/debug.cpp:111-209. `count` stands for
the answers to `REGCOUNT`, `TEXTSIZE` and `DATASIZE`. -/
inductive Reply
  | stopped
  | ok
  | reason (r : Reason)
  | text (l : List Instr)
  | data (l : List Word)
  | regs (l : List (Reg × Word))
  | floats (l : List Word)
  | debugs (l : List Word)
  | count (n : Nat)
  | unknown
  deriving DecidableEq, Repr

namespace Cpu
variable (cfg : Cfg)

/-- Models: src/t86/cpu.cpp:144-150 (`setRegisterDebug`) and 152-158 (`setFloatRegisterDebug`). -/
def pokeReg (c : Cpu) (r : LReg) (v : Word) : Res Cpu := do
  let p ← c.rat.translate cfg r
  let regs ← c.regs.write p v
  return { c with regs := regs, spc := if r = .int .pc then v else c.spc }

/-- Models: src/t86/cpu.cpp:222-224 (`setMemory`). -/
def setMemory (c : Cpu) (a v : Word) : Res Cpu := do
  let ram ← c.ram.set a v
  return { c with ram := ram }

/-- Models: src/t86/cpu.cpp:230-232 (`setText`, `vector::at`). -/
def setText (c : Cpu) (i : Nat) (ins : Instr) : Res Cpu :=
  if i < c.prog.length then .ok { c with prog := c.prog.set i ins } else .error (.exn .outOfRange)

/-- Models: src/t86/cpu.h:227-229 (`setDebugRegister`, `array::at`). -/
def setDebugReg (c : Cpu) (i : Nat) (v : Word) : Res Cpu :=
  if i < 5 then .ok { c with dbg := c.dbg.set i v } else .error (.exn .outOfRange)

/-- The registers in the order in which `PEEKREGS` prints them. Models: src/t86/debug.cpp:81-92. -/
def shownRegs : List Reg := [.pc, .bp, .sp] ++ (List.range cfg.nreg).map .gp

/-- Models: src/t86/debug.cpp:81-92 (`RegistersToString`). -/
def peekRegs (c : Cpu) : Res (List (Reg × Word)) :=
  (shownRegs cfg).mapM fun r => do
    let v ← readReg cfg c.regs c.rat (.int r)
    return (r, v)

/-- Models: src/t86/debug.cpp:71-79 (`FloatRegistersToString`). -/
def peekFloats (c : Cpu) : Res (List Word) :=
  (List.range cfg.nfreg).mapM fun i => readReg cfg c.regs c.rat (.flt i)

/-- Models: src/t86/debug.cpp:153-161, src/t86/cpu.cpp:218-220 (`getMemory`). -/
def peekData (c : Cpu) (i n : Nat) : Res (List Word) :=
  (List.range n).mapM fun j => c.ram.get (BitVec.ofNat 64 (i + j))

/-- Models: src/t86/debug.cpp:129-136, src/t86/cpu.cpp:226-228 (`getText`). -/
def peekText (c : Cpu) (i n : Nat) : List Instr := (List.range n).map fun j => fetchAt c.prog (BitVec.ofNat 64 (i + j))

end Cpu

/-- What follows the handling of a command: wait for the next one, leave `Work` with `true` or with `false`. -/
inductive Next
  | stay | resume | quit
  deriving DecidableEq, Repr

/-- Handling of one command at a stop. Models: src/t86/debug.cpp:113-210 (one pass of the loop in `Work`). `REGCOUNT` and
`DATASIZE` answer with the global configuration (src/t86/debug.cpp:194-200), passed here as `gregs` and `gram`. -/
def Cpu.command (cfg : Cfg) (gregs gram : Nat) (why : Reason) (c : Cpu) : Cmd → Res (Cpu × Reply × Next)
  | .reason => .ok (c, .reason why, .stay)
  | .cont => .ok (c, .ok, .resume)
  | .peekText i n => .ok (c, .text (c.peekText i n), .stay)
  | .pokeText i ins => do
      let c ← c.setText i ins
      return (c, .ok, .stay)
  | .peekData i n => do
      let l ← c.peekData i n
      return (c, .data l, .stay)
  | .pokeData i v => do
      let c ← c.setMemory (BitVec.ofNat 64 i) v
      return (c, .ok, .stay)
  | .peekRegs => do
      let l ← c.peekRegs cfg
      return (c, .regs l, .stay)
  | .peekFloatRegs => do
      let l ← c.peekFloats cfg
      return (c, .floats l, .stay)
  | .peekDebugRegs => .ok (c, .debugs c.dbg, .stay)
  | .pokeDebugReg i v => do
      let c ← c.setDebugReg i v
      return (c, .ok, .stay)
  | .pokeFloatReg i v => do
      let c ← c.pokeReg cfg (.flt i) v
      return (c, .ok, .stay)
  | .pokeReg r v => do
      let c ← c.pokeReg cfg (.int r) v
      return (c, .ok, .stay)
  | .step => .ok ({ c with trap := true }, .ok, .resume)
  | .regCount => .ok (c, .count gregs, .stay)
  | .textSize => .ok (c, .count c.prog.length, .stay)
  | .dataSize => .ok (c, .count gram, .stay)
  | .terminate => .ok (c, .ok, .quit)
  | .unknown => .ok (c, .unknown, .stay)

/-- Where the machine is in `OS::Run`: in the loop, in `Work` with a reason, in `Work` after an exception of the
processor, or out of `Run` with its result. -/
inductive Phase
  | running
  | stopped (why : Reason)
  | failed
  | ended (ok : Bool)
  deriving DecidableEq, Repr

/-- Models: src/t86/os.h:28-35 (data members of `OS`) and the control state of `OS::Run`. -/
structure Vm where
  cpu : Cpu
  phase : Phase
  deriving DecidableEq, Repr

namespace Vm
variable (cfg : Cfg)

/-- Calling `Work`. Models: src/t86/debug.cpp:105-111. -/
def enter (c : Cpu) (why : Reason) : Vm × List Reply :=
  (⟨if why = .singleStep then { c with trap := false } else c, .stopped why⟩, [.stopped])

/-- Models: src/t86/os.cpp:28-30 (the beginning of `Run`). -/
def start (prog : List Instr) (data : List Word) (inp : List (BitVec 8)) : Vm × List Reply :=
  enter (Cpu.init cfg prog data inp) .begin

/-- One pass of the loop. Models: src/t86/os.cpp:10-26 (`DispatchInterrupt`), 32-54. After an exception the state of the
processor is not modelled any more (`failed`); undefined behaviour and failed assertions end the model's run. -/
def tick (c : Cpu) : Res (Vm × List Reply) :=
  match Cpu.tick cfg c with
  | .error (.exn _) => .ok (⟨c, .failed⟩, [.stopped])
  | .error f => .error f
  | .ok c' =>
    if c'.halted then .ok (enter c' .halt)
    else match c'.intr with
      | 0 => .ok (⟨c', .running⟩, [])
      | 1 => .ok (enter c' .singleStep)
      | 2 => .ok (enter c' .hwBkpt)
      | 3 => .ok (enter c' .swBkpt)
      | _ => .error (.exn .runtimeError)

/-- Where `Work` returns to. Models: src/t86/os.cpp:36-38, 40-44, 46-53. Simplification: `TERMINATE` at the start lets the
loop make one more tick, which only fetches, before it ends. -/
def leave (why : Reason) (c : Cpu) : Next → Vm
  | .stay => ⟨c, .stopped why⟩
  | .resume => ⟨c, if why = .halt then .ended true else .running⟩
  | .quit => ⟨c, .ended true⟩

/-- The machine proceeds by ticks and receives commands at stops. -/
inductive Input
  | tick
  | cmd (k : Cmd)
  deriving DecidableEq, Repr

/-- One step of the machine: a tick while it runs, a command while it is stopped. Commands sent while it runs wait (they
have no effect here), ticks happen only while it runs. After a failure only `REASON` is modelled. -/
def step (gregs gram : Nat) (vm : Vm) (i : Input) : Res (Vm × List Reply) :=
  match vm.phase, i with
  | .running, .tick => tick cfg vm.cpu
  | .stopped why, .cmd k => do
      let x ← Cpu.command cfg gregs gram why vm.cpu k
      return (leave why x.1 x.2.2, [x.2.1])
  | .failed, .cmd .reason => .ok (vm, [.reason .cpuError])
  | .failed, .cmd .cont => .ok (⟨vm.cpu, .ended false⟩, [.ok])
  | .failed, .cmd .step => .ok (⟨vm.cpu, .ended false⟩, [.ok])
  | .failed, .cmd .terminate => .ok (⟨vm.cpu, .ended false⟩, [.ok])
  | _, _ => .ok (vm, [])

end Vm
end T86
