import Verif.Model.Protocol

/-! # The debugger's side of the protocol: src/debugger/T86Process.cpp, src/debugger/T86Process.h, src/debugger/Arch.h -/

namespace T86
open Dbg Str

/-- A connected debuggee and what the debugger believes about it: the number of general purpose and float registers and the
size of the memory. Models: src/debugger/T86Process.h:17-24, 117-121 (data members). -/
structure Client where
  gp : Nat
  flt : Nat
  size : Nat

/-- The defaults, which `Native::Initialize` uses. Models: src/debugger/T86Process.h:19-20, src/debugger/Native.cpp:7. -/
def Client.default : Client := ⟨10, 4, 1024⟩

namespace Proc

/-- Sequencing with `Job.ofExcept`. -/
abbrev P := Job Link

/-- Models: src/debugger/T86Process.cpp:217-229 (`CheckResponse`). -/
def check (h : Host) : P Unit := do
  match ← Link.receive h with
  | some m => if m = "OK".toList then pure () else Job.throw .debugger
  | none => Job.throw .debugger

/-- An answer that must come. Models: e.g. src/debugger/T86Process.cpp:29-32. -/
def answer (h : Host) : P Str := do
  match ← Link.receive h with
  | some m => pure m
  | none => Job.throw .debugger

/-- Only a `ParserError` is turned into a `DebuggerError`. Models: src/debugger/T86Process.cpp:13-18 (`catch`). -/
def parseError : Err → Err
  | .parser => .debugger
  | e => e

/-- Parsing what is about to be written. The first token is read when the parser is created, outside the `try`.
Models: src/debugger/T86Process.cpp:11-18. -/
def parseText (h : Host) (s : Str) : Except Err Instr :=
  match Lexer.lex h.stod false s with
  | .error e => .error e
  | .ok _ =>
    match Asm.oneInstruction.run h.stod s with
    | .error e => .error (parseError e)
    | .ok i => .ok i

/-- Models: src/debugger/T86Process.cpp:8-22 (`WriteText`), from the instruction on whose address is `a`. -/
def writeText (h : Host) : Word → List Str → P Unit
  | _, [] => pure ()
  | a, s :: l =>
    match parseText h s with
    | .error e => Job.throw e
    | .ok _ => do
      Link.send ("POKETEXT ".toList ++ ofNat a.toNat ++ " ".toList ++ s)
      check h
      writeText h (a + 1) l

/-- Models: src/debugger/T86Process.cpp:27-35 (`ReadText`). -/
def readText (h : Host) (a n : Word) : P (List Str) := do
  Link.send ("PEEKTEXT ".toList ++ ofNat a.toNat ++ " ".toList ++ ofNat n.toNat)
  let m ← answer h
  return split m '\n'

/-- The loop of `WriteMemory`. Models: src/debugger/T86Process.cpp:42-45. -/
def pokeLoop (h : Host) : Word → List Word → P Unit
  | _, [] => pure ()
  | a, v :: l => do
    Link.send ("POKEDATA ".toList ++ ofNat a.toNat ++ " ".toList ++ ofInt v.toInt)
    check h
    pokeLoop h (a + 1) l

/-- Models: src/debugger/T86Process.cpp:37-46 (`WriteMemory`). -/
def writeMemory (h : Host) (c : Client) (a : Word) (l : List Word) : P Unit :=
  if (a + BitVec.ofNat 64 l.length).toNat > c.size then Job.throw .debugger else pokeLoop h a l

/-- `std::stoll` on what the machine sends. Simplification: blanks and signs before the number are not skipped, and a number
that is too large is the same error as one that is missing. -/
def stoll (s : Str) : Except Err Word :=
  match toSigned s with
  | some v => .ok (BitVec.ofInt 64 v)
  | none => .error .invalid

/-- Models: src/debugger/T86Process.cpp:48-64 (`ReadMemory`). -/
def readMemory (h : Host) (c : Client) (a n : Word) : P (List Word) :=
  if (a + n).toNat > c.size then Job.throw .debugger
  else do
    Link.send ("PEEKDATA ".toList ++ ofNat a.toNat ++ " ".toList ++ ofNat n.toNat)
    let m ← answer h
    Job.ofExcept ((split m '\n').mapM stoll)

/-- Models: src/debugger/DebugEvent.h:6-13 (`StopReason`) and src/debugger/T86Process.cpp:73-87. -/
def decodeReason (m : Str) : Except Err Reason :=
  if m = "START".toList then .ok .begin
  else if m = "SW_BKPT".toList then .ok .swBkpt
  else if m = "HW_BKPT".toList then .ok .hwBkpt
  else if m = "SINGLESTEP".toList then .ok .singleStep
  else if m = "HALT".toList then .ok .halt
  else if m = "CPU_ERROR".toList then .ok .cpuError
  else .error .runtime

/-- Models: src/debugger/T86Process.cpp:66-88 (`GetReason`). -/
def getReason (h : Host) : P Reason := do
  Link.send "REASON".toList
  let m ← answer h
  Job.ofExcept (decodeReason m)

/-- Models: src/debugger/T86Process.cpp:90-93 (`Singlestep`). -/
def singlestep (h : Host) : P Unit := do
  Link.send "SINGLESTEP".toList
  check h

/-- One line of a register listing, read with `num`. Models: src/debugger/T86Process.h:98-99. -/
def regLine (num : Str → Option Word) (l : Str) : Except Err (Str × Word) := do
  let p := split l ':'
  let name ← Proto.at' p 0
  let v ← Proto.at' p 1
  let v ← Proto.deref (num v)
  return (name, v)

/-- Models: src/debugger/T86Process.h:91-102 (`FetchRegistersOfType`), the part after `Receive`. -/
def regMap (num : Str → Option Word) (m : Str) : Except Err (Map Str Word) := do
  let l ← (split m '\n').mapM (regLine num)
  return l.foldl (fun m p => m.assign p.1 p.2) []

/-- Models: src/debugger/T86Process.h:91-102. Dereferencing the missing answer of a machine that has ended is undefined. -/
def fetch (h : Host) (num : Str → Option Word) : P (Map Str Word) := do
  match ← Link.receive h with
  | some m => Job.ofExcept (regMap num m)
  | none => Job.throw .ub

/-- `svtonum<int64_t>`. -/
def signed (s : Str) : Option Word := (toSigned s).map (BitVec.ofInt 64)

/-- `svtonum<uint64_t>`. -/
def unsigned (s : Str) : Option Word := (toUnsigned s).map (BitVec.ofNat 64)

/-- Models: src/debugger/T86Process.cpp:95-98 (`FetchRegisters`). -/
def fetchRegisters (h : Host) : P (Map Str Word) := do
  Link.send "PEEKREGS".toList
  fetch h signed

/-- Models: src/debugger/T86Process.cpp:111-114 (`FetchFloatRegisters`). -/
def fetchFloatRegisters (h : Host) : P (Map Str Word) := do
  Link.send "PEEKFLOATREGS".toList
  fetch h h.dval

/-- Models: src/debugger/T86Process.cpp:127-130 (`FetchDebugRegisters`). -/
def fetchDebugRegisters (h : Host) : P (Map Str Word) := do
  Link.send "PEEKDEBUGREGS".toList
  fetch h unsigned

/-- A name with this letter and a number below the limit. Models: src/debugger/T86Process.cpp:182-189 (`isGPRegister`),
199-206, 208-215. -/
def isNumbered (c : Char) (limit : Nat) (name : Str) : Bool :=
  match name with
  | d :: e :: l => d = c && (match toUnsigned (e :: l) with
    | some i => decide (i < limit)
    | none => false)
  | _ => false

/-- Models: src/debugger/T86Process.cpp:191-197 (`IsValidRegisterName`). -/
def isRegister (c : Client) (name : Str) : Bool :=
  name = "IP".toList || name = "BP".toList || name = "SP".toList || name = "FLAGS".toList || isNumbered 'R' c.gp name

/-- Models: src/debugger/T86Process.cpp:100-109 (`SetRegisters`). Simplification: the registers are sent in the order of the
list, not sorted by name. -/
def setRegisters (h : Host) (c : Client) : Map Str Word → P Unit
  | [] => pure ()
  | (name, v) :: l =>
    if isRegister c name then do
      Link.send ("POKEREGS ".toList ++ name ++ " ".toList ++ ofInt v.toInt)
      check h
      setRegisters h c l
    else Job.throw .debugger

/-- Models: src/debugger/T86Process.cpp:116-125 (`SetFloatRegisters`). Simplification as in `setRegisters`. -/
def setFloatRegisters (h : Host) (c : Client) : Map Str Word → P Unit
  | [] => pure ()
  | (name, v) :: l =>
    if isNumbered 'F' c.flt name then do
      Link.send ("POKEFLOATREGS ".toList ++ name ++ " ".toList ++ h.dtos v)
      check h
      setFloatRegisters h c l
    else Job.throw .debugger

/-- Models: src/debugger/T86Process.cpp:132-141 (`SetDebugRegisters`). Simplification as in `setRegisters`. -/
def setDebugRegisters (h : Host) : Map Str Word → P Unit
  | [] => pure ()
  | (name, v) :: l =>
    if isNumbered 'D' 5 name then do
      Link.send ("POKEDEBUGREGS ".toList ++ name ++ " ".toList ++ ofNat v.toNat)
      check h
      setDebugRegisters h l
    else Job.throw .debugger

/-- Models: src/debugger/T86Process.cpp:143-151 (`TextSize`). Simplification: as for `stoll`. -/
def textSize (h : Host) : P Word := do
  Link.send "TEXTSIZE".toList
  let m ← answer h
  match toUnsigned (m.drop "TEXTSIZE:".length) with
  | some n => pure (BitVec.ofNat 64 n)
  | none => Job.throw .invalid

/-- Models: src/debugger/T86Process.cpp:153-156 (`ResumeExecution`). -/
def resume (h : Host) : P Unit := do
  Link.send "CONTINUE".toList
  check h

/-- Models: src/debugger/T86Process.cpp:158-163 (`Wait`). -/
def wait (h : Host) : P Unit := do
  match ← Link.receive h with
  | some m => if m = "STOPPED".toList then pure () else Job.throw .debugger
  | none => Job.throw .debugger

/-- Models: src/debugger/T86Process.cpp:165-168 (`Terminate`). -/
def terminate (h : Host) : P Unit := do
  Link.send "TERMINATE".toList
  check h

end Proc

namespace Arch

/-- Models: src/debugger/Arch.h:34-40 (`GetSoftwareBreakpointOpcode`), src/debugger/Native.cpp:433-438. -/
def breakpointOpcode : Str := "BKPT".toList

/-- Models: src/debugger/Arch.h:42-50 (`DebugRegistersCount`). -/
def debugRegistersCount : Nat := 4

/-- `map::at`. -/
def at' (m : Map Str Word) (k : Str) : Except Err Word :=
  match m.find k with
  | some v => .ok v
  | none => .error .outOfRange

/-- The name of a debug register. -/
def debugName (i : Nat) : Str := 'D' :: ofNat i

/-- Models: src/debugger/Arch.h:71-84 (`SetDebugRegister`). -/
def setDebugRegister (i : Nat) (a : Word) (regs : Map Str Word) : Except Err (Map Str Word) :=
  if i ≥ debugRegistersCount then .error .debugger
  else do
    let _ ← at' regs (debugName i)
    return regs.assign (debugName i) a

/-- Models: src/debugger/Arch.h:86-97 (`ActivateDebugRegister`). -/
def activate (i : Nat) (regs : Map Str Word) : Except Err (Map Str Word) := do
  let v ← at' regs "D4".toList
  return regs.assign "D4".toList (v ||| BitVec.ofNat 64 (2 ^ i))

/-- Models: src/debugger/Arch.h:99-110 (`DeactivateDebugRegister`). -/
def deactivate (i : Nat) (regs : Map Str Word) : Except Err (Map Str Word) := do
  let v ← at' regs "D4".toList
  return regs.assign "D4".toList (v &&& ~~~ (BitVec.ofNat 64 (2 ^ i)))

/-- Models: src/debugger/Arch.h:113-123 (`GetResponsibleRegister`). The integer part of the base-2 logarithm of the bits 8 to
15 (`static_cast<int>(std::log2(x))`, exact for `x < 256`); with all these bits zero the logarithm is minus infinity, whose
conversion is undefined. -/
def responsible (regs : Map Str Word) : Except Err Nat := do
  let v ← at' regs "D4".toList
  let m := ((v &&& 0xFF00) >>> 8).toNat
  if m = 0 then .error .ub else .ok (Nat.log2 m)

/-- Models: src/debugger/Arch.h:125-131 (`GetCallInstructions`). -/
def isCall (s : Str) : Bool := isPrefixOf "CALL".toList s

/-- Models: src/debugger/Arch.h:135-141 (`GetReturnInstructions`). -/
def isReturn (s : Str) : Bool := isPrefixOf "RET".toList s

end Arch
end T86
