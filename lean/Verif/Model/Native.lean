import Verif.Model.Process

/-! # Breakpoints, watchpoints and stepping: src/debugger/Native.cpp -/

namespace T86
open Dbg Str

/-- Models: src/debugger/Breakpoint.h (`SoftwareBreakpoint`). -/
structure Bp where
  data : Str
  enabled : Bool
  deriving DecidableEq, Repr

/-- Models: src/debugger/DebugEvent.h:15-49 (`DebugEvent`); the only breakpoints are software breakpoints and the only
watchpoints are for writes. -/
inductive Event
  | breakpoint (a : Word)
  | watchpoint (a : Word)
  | singlestep
  | begin
  | end'
  | cpuError (a : Word)
  deriving DecidableEq, Repr

/-- Models: src/debugger/Native.h:206-209 (data members of `Native`); a watchpoint is given by its debug register. -/
structure Native where
  link : Link
  bps : Map Word Bp
  wps : Map Word Nat
  cached : Option Event
  deriving DecidableEq

namespace Native

abbrev N := Job Native

/-- A call to the process. -/
def proc {α : Type} (x : Job Link α) : N α := fun n =>
  let y := x n.link
  (y.1, { n with link := y.2 })

/-- Models: src/debugger/Native.cpp:201-203 (`TextSize`). -/
def textSize (h : Host) : N Word := proc (Proc.textSize h)

/-- `at(0)` on what `ReadText` returns. -/
def first (l : List Str) : N Str := Job.ofExcept (Proto.at' l 0)

/-- Models: src/debugger/Native.cpp:440-455 (`CreateSoftwareBreakpoint`). -/
def create (h : Host) (a : Word) : N Bp := do
  let backup ← proc (Proc.readText h a 1)
  let backup ← first backup
  proc (Proc.writeText h a [Arch.breakpointOpcode])
  let new ← proc (Proc.readText h a 1)
  let new ← first new
  if new ≠ Arch.breakpointOpcode then Job.throw .debugger else pure ⟨backup, true⟩

/-- Models: src/debugger/Native.cpp:13-20 (`SetBreakpoint`). -/
def setBreakpoint (h : Host) (a : Word) : N Unit := do
  let n ← Job.get
  match n.bps.find a with
  | some _ => Job.throw .debugger
  | none => do
    let bp ← create h a
    Job.modify fun n => { n with bps := n.bps.emplace a bp }

/-- Models: src/debugger/Native.cpp:27-37 (`EnableSoftwareBreakpoint`). -/
def enable (h : Host) (a : Word) : N Unit := do
  let n ← Job.get
  match n.bps.find a with
  | none => Job.throw .debugger
  | some bp =>
    if bp.enabled then pure ()
    else do
      let bp ← create h a
      Job.modify fun n => { n with bps := n.bps.assign a bp }

/-- Models: src/debugger/Native.cpp:39-51 (`DisableSoftwareBreakpoint`). -/
def disable (h : Host) (a : Word) : N Unit := do
  let n ← Job.get
  match n.bps.find a with
  | none => Job.throw .debugger
  | some bp =>
    if bp.enabled then do
      proc (Proc.writeText h a [bp.data])
      Job.modify fun n => { n with bps := n.bps.assign a { bp with enabled := false } }
    else pure ()

/-- Models: src/debugger/Native.cpp:22-25 (`UnsetBreakpoint`). -/
def unsetBreakpoint (h : Host) (a : Word) : N Unit := do
  disable h a
  Job.modify fun n => { n with bps := n.bps.erase a }

/-- The loop that puts the saved instructions in place. Models: src/debugger/Native.cpp:65-70. -/
def patch (bps : Map Word Bp) : Word → List Str → List Str
  | _, [] => []
  | a, s :: l => (match bps.find a with
    | some bp => bp.data
    | none => s) :: patch bps (a + 1) l

/-- Models: src/debugger/Native.cpp:53-72 (`ReadText`). -/
def readText (h : Host) (a n : Word) : N (List Str) := do
  let size ← textSize h
  if (a + n).toNat > size.toNat then Job.throw .debugger
  else do
    let text ← proc (Proc.readText h a n)
    let s ← Job.get
    return patch s.bps a text

/-- The loop that saves what is written over breakpoints; returns the breakpoints and what is sent.
Models: src/debugger/Native.cpp:85-92. -/
def save (bps : Map Word Bp) : Word → List Str → Map Word Bp × List Str
  | _, [] => (bps, [])
  | a, s :: l =>
    match bps.find a with
    | some bp =>
      let x := save (bps.assign a { bp with data := s }) (a + 1) l
      (x.1, Arch.breakpointOpcode :: x.2)
    | none =>
      let x := save bps (a + 1) l
      (x.1, s :: x.2)

/-- Models: src/debugger/Native.cpp:74-94 (`WriteText`). -/
def writeText (h : Host) (a : Word) (l : List Str) : N Unit := do
  let size ← textSize h
  if (a + BitVec.ofNat 64 l.length).toNat > size.toNat then Job.throw .debugger
  else do
    let n ← Job.get
    let x := save n.bps a l
    Job.modify fun n => { n with bps := x.1 }
    proc (Proc.writeText h a x.2)

/-- Models: src/debugger/Native.cpp:231-233 (`GetRegisters`). -/
def getRegisters (h : Host) : N (Map Str Word) := proc (Proc.fetchRegisters h)

/-- Models: src/debugger/Native.cpp:235-242 (`GetRegister`). -/
def getRegister (h : Host) (name : Str) : N Word := do
  let regs ← getRegisters h
  match regs.find name with
  | some v => pure v
  | none => Job.throw .debugger

/-- Models: src/debugger/Native.cpp:244-246 (`SetRegisters`). -/
def setRegisters (h : Host) (c : Client) (regs : Map Str Word) : N Unit := proc (Proc.setRegisters h c regs)

/-- Models: src/debugger/Native.cpp:248-257 (`SetRegister`). -/
def setRegister (h : Host) (c : Client) (name : Str) (v : Word) : N Unit := do
  let regs ← getRegisters h
  match regs.find name with
  | some _ => setRegisters h c (regs.assign name v)
  | none => Job.throw .debugger

/-- Models: src/debugger/Native.cpp:205-207 (`GetFloatRegisters`). -/
def getFloatRegisters (h : Host) : N (Map Str Word) := proc (Proc.fetchFloatRegisters h)

/-- Models: src/debugger/Native.cpp:222-229 (`GetFloatRegister`). -/
def getFloatRegister (h : Host) (name : Str) : N Word := do
  let regs ← getFloatRegisters h
  match regs.find name with
  | some v => pure v
  | none => Job.throw .debugger

/-- Models: src/debugger/Native.cpp:209-220 (`SetFloatRegisters`, `SetFloatRegister`). -/
def setFloatRegister (h : Host) (c : Client) (name : Str) (v : Word) : N Unit := do
  let regs ← getFloatRegisters h
  match regs.find name with
  | some _ => proc (Proc.setFloatRegisters h c (regs.assign name v))
  | none => Job.throw .debugger

/-- Models: src/debugger/Native.cpp:285-288 (`GetIP`). -/
def getIP (h : Host) : N Word := getRegister h "IP".toList

/-- Models: src/debugger/Native.cpp:290-292 (`SetMemory`). -/
def setMemory (h : Host) (c : Client) (a : Word) (l : List Word) : N Unit := proc (Proc.writeMemory h c a l)

/-- Models: src/debugger/Native.cpp:294-296 (`ReadMemory`). -/
def readMemory (h : Host) (c : Client) (a n : Word) : N (List Word) := proc (Proc.readMemory h c a n)

/-- Models: src/debugger/Native.cpp:298-317 (`MapReasonToEvent`). -/
def mapReason (h : Host) : Reason → N Event
  | .swBkpt => do
    let ip ← getIP h
    return .breakpoint (ip - 1)
  | .hwBkpt => do
    let regs ← proc (Proc.fetchDebugRegisters h)
    let i ← Job.ofExcept (Arch.responsible regs)
    let n ← Job.get
    match n.wps.find? (fun w => w.2 = i) with
    | some w => pure (.watchpoint w.1)
    | none => Job.throw .abort
  | .singleStep => pure .singlestep
  | .halt => pure .end'
  | .begin => pure .begin
  | .cpuError => do
    let ip ← getIP h
    return .cpuError ip

/-- Is the event a breakpoint? -/
def Event.isBreakpoint : Event → Bool
  | .breakpoint _ => true
  | _ => false

/-- The end of `WaitForDebugEvent`. Models: src/debugger/Native.cpp:331-336. -/
def adjust (h : Host) (c : Client) (e : Event) : N Event :=
  if Event.isBreakpoint e then do
    let regs ← getRegisters h
    let ip ← Job.ofExcept (Arch.at' regs "IP".toList)
    setRegisters h c (regs.assign "IP".toList (ip - 1))
    return e
  else pure e

/-- Models: src/debugger/Native.cpp:319-337 (`WaitForDebugEvent`). -/
def waitEvent (h : Host) (c : Client) : N Event := do
  let n ← Job.get
  match n.cached with
  | some e => do
    Job.modify fun n => { n with cached := none }
    adjust h c e
  | none => do
    proc (Proc.wait h)
    let r ← proc (Proc.getReason h)
    let e ← mapReason h r
    adjust h c e

/-- Models: src/debugger/Native.cpp:405-408 (`DoRawSingleStep`). -/
def rawStep (h : Host) (c : Client) : N Event := do
  proc (Proc.singlestep h)
  waitEvent h c

/-- Is there an enabled breakpoint? Models: src/debugger/Native.cpp:103-104, 341-343. -/
def armed (n : Native) (a : Word) : Bool :=
  match n.bps.find a with
  | some bp => bp.enabled
  | none => false

/-- Models: src/debugger/Native.cpp:96-110 (`PerformSingleStep`) and 457-465 (`StepOverBreakpoint`), which calls
`PerformSingleStep` again; the first argument bounds the depth. -/
def singleStepLoop (h : Host) (c : Client) : Nat → N Event
  | 0 => Job.throw .diverge
  | fuel + 1 => do
    let ip ← getIP h
    let n ← Job.get
    if armed n ip then do
      disable h ip
      let e ← singleStepLoop h c fuel
      enable h ip
      return e
    else rawStep h c

/-- Models: src/debugger/Native.cpp:96-110 (`PerformSingleStep`). The recursion is at most two deep, because the breakpoint is
disabled before the inner call. -/
def singleStep (h : Host) (c : Client) : N Event := singleStepLoop h c 2

/-- Models: src/debugger/Native.cpp:457-465 (`StepOverBreakpoint`). -/
def stepOverBreakpoint (h : Host) (c : Client) (ip : Word) : N Event := do
  disable h ip
  let e ← singleStep h c
  enable h ip
  return e

/-- Models: src/debugger/Native.cpp:339-356 (`ContinueExecution`). -/
def continue' (h : Host) (c : Client) : N Unit := do
  let ip ← getIP h
  let n ← Job.get
  if armed n ip then do
    let e ← stepOverBreakpoint h c ip
    if e ≠ .singlestep then Job.modify fun n => { n with cached := some e }
    else proc (Proc.resume h)
  else proc (Proc.resume h)

/-- The loop of `PerformStepOver`, with a bound on the number of passes. Models: src/debugger/Native.cpp:138-156. -/
def overLoop (h : Host) (c : Client) (ip bp : Word) : Nat → N Event
  | 0 => Job.throw .diverge
  | fuel + 1 => do
    continue' h c
    let e ← waitEvent h c
    let bp' ← getRegister h "BP".toList
    let ip' ← getIP h
    if Event.isBreakpoint e ∧ ip' = ip + 1 ∧ bp ≠ bp' then overLoop h c ip bp fuel else pure e

/-- Models: src/debugger/Native.cpp:112-174 (`PerformStepOver`). Simplification: `GetRegister("BP")` and `GetIP` are called
once per pass of the loop, not up to three times; they change nothing. -/
def stepOver (h : Host) (c : Client) (fuel : Nat) (skip : Bool) : N Event := do
  let ip ← getIP h
  let text ← readText h ip 1
  let s ← Job.ofExcept (match text with
    | s :: _ => Except.ok s
    | [] => Except.error Err.ub)
  if Arch.isCall s then do
    let n ← Job.get
    let exists' := (n.bps.find (ip + 1)).isSome
    if exists' then pure () else setBreakpoint h (ip + 1)
    if skip then do
      let _ ← singleStep h c
      pure ()
    else pure ()
    let bp ← getRegister h "BP".toList
    let e ← overLoop h c ip bp fuel
    if exists' then pure () else unsetBreakpoint h (ip + 1)
    let ip' ← getIP h
    if ip' ≠ ip + 1 then pure e else pure .singlestep
  else if skip then singleStep h c else rawStep h c

/-- Models: src/debugger/Native.cpp:176-198 (`PerformStepOut`), with a bound on the number of passes. -/
def stepOutLoop (h : Host) (c : Client) (fuel : Nat) : Nat → Bool → N Event
  | 0, _ => Job.throw .diverge
  | n + 1, skip => do
    let ip ← getIP h
    let text ← readText h ip 1
    let s ← first text
    let e ← stepOver h c fuel skip
    if Arch.isReturn s ∨ e ≠ .singlestep then pure e else stepOutLoop h c fuel n false

/-- Models: src/debugger/Native.cpp:176-198 (`PerformStepOut`). -/
def stepOut (h : Host) (c : Client) (fuel : Nat) : N Event := stepOutLoop h c fuel fuel true

/-- Models: src/debugger/Native.cpp:419-431 (`GetFreeDebugRegister`). -/
def freeRegister (wps : Map Word Nat) : Option Nat :=
  (List.range Arch.debugRegistersCount).find? fun i => !wps.any fun w => w.2 = i

/-- Models: src/debugger/Native.cpp:358-375 (`SetWatchpointWrite`). -/
def setWatchpoint (h : Host) (a : Word) : N Unit := do
  let n ← Job.get
  match n.wps.find a with
  | some _ => Job.throw .debugger
  | none =>
    match freeRegister n.wps with
    | none => Job.throw .debugger
    | some i => do
      let regs ← proc (Proc.fetchDebugRegisters h)
      let regs ← Job.ofExcept (Arch.setDebugRegister i a regs)
      let regs ← Job.ofExcept (Arch.activate i regs)
      proc (Proc.setDebugRegisters h regs)
      Job.modify fun n => { n with wps := n.wps.emplace a i }

/-- Models: src/debugger/Native.cpp:377-386 (`RemoveWatchpoint`). The changed copy of the registers is dropped. -/
def removeWatchpoint (h : Host) (a : Word) : N Unit := do
  let n ← Job.get
  match n.wps.find a with
  | none => Job.throw .debugger
  | some i => do
    let regs ← proc (Proc.fetchDebugRegisters h)
    let _ ← Job.ofExcept (Arch.deactivate i regs)
    Job.modify fun n => { n with wps := n.wps.erase a }

/-- The first loop of `SetAllBreakpoints`. Models: src/debugger/Native.cpp:261-263. -/
def disableAll (h : Host) : List Word → N Unit
  | [] => pure ()
  | a :: l => do
    disable h a
    disableAll h l

/-- The second loop of `SetAllBreakpoints`. Models: src/debugger/Native.cpp:265-272. -/
def setMany (h : Host) : Map Word Bp → N Unit
  | [] => pure ()
  | (a, bp) :: l => do
    if bp.enabled then setBreakpoint h a
    else Job.modify fun n => { n with bps := n.bps.assign a ⟨[], false⟩ }
    setMany h l

/-- Models: src/debugger/Native.cpp:259-273 (`SetAllBreakpoints`). -/
def setAllBreakpoints (h : Host) (l : Map Word Bp) : N Unit := do
  let n ← Job.get
  disableAll h (n.bps.map (·.1))
  setMany h l

/-- Models: src/debugger/Native.cpp:396-398 (`Terminate`). -/
def terminate (h : Host) : N Unit := proc (Proc.terminate h)

/-- A new debugger on a running program. Models: src/debugger/Native.h:41. -/
def connect (h : Host) (prog : List Instr) (data : List Word) (inp : List (BitVec 8)) : Native :=
  ⟨Link.start h prog data inp, [], [], none⟩

end Native
end T86
