import Verif.Model.Vm
import Verif.Model.Asm
import Verif.Model.Print
import Verif.Model.DbgBase

/-! # The debug protocol as text: src/t86/debug.cpp (the machine's side), and the connection between debugger and machine -/

namespace T86
open Dbg Str

/-- The machine and the C++ library it runs on: the configuration, what `REGCOUNT` and `DATASIZE` answer, the reader of
floating point literals (`std::stod`), the printers `std::to_string(double)` and `fmt::format("{}", double)`, the reader
`svtonum<double>`, and the number of ticks the debugger is patient: a wait that is longer counts as one that does not end. -/
structure Host where
  cfg : Cfg
  gregs : Nat
  gram : Nat
  stod : Str → Except Err Word
  ftos : Word → Str
  dtos : Word → Str
  dval : Str → Option Word
  wait : Nat

namespace Proto

/-- Models: src/t86/debug.cpp:4-14 (`ReasonToString`). -/
def reason : Reason → Str
  | .begin => "START".toList
  | .swBkpt => "SW_BKPT".toList
  | .hwBkpt => "HW_BKPT".toList
  | .singleStep => "SINGLESTEP".toList
  | .halt => "HALT".toList
  | .cpuError => "CPU_ERROR".toList

/-- `vector::at`. -/
def at' (l : List Str) (i : Nat) : Except Err Str :=
  match l[i]? with
  | some s => .ok s
  | none => .error .outOfRange

/-- Models: src/t86/debug.cpp:16-22 (`svtoidx`). -/
def index (s : Str) : Except Err Nat :=
  match toSigned s with
  | some v => if v < 0 then .error .runtime else .ok v.toNat
  | none => .error .runtime

/-- Models: src/t86/debug.cpp:24-42 (`TranslateToRegister`). -/
def register (s : Str) : Except Err Reg :=
  if s = "IP".toList then .ok .pc
  else if s = "BP".toList then .ok .bp
  else if s = "SP".toList then .ok .sp
  else if s = "FLAGS".toList then .ok .flags
  else match toUnsigned (s.drop 1) with
    | some i => .ok (.gp i)
    | none => .error .runtime

/-- Models: src/t86/debug.cpp:44-53 (`TranslateToFloatRegister`), 55-62 (`TranslateToDebugRegister`). -/
def numbered (s : Str) : Except Err Nat :=
  match toUnsigned (s.drop 1) with
  | some i => .ok i
  | none => .error .runtime

/-- Dereferencing an optional. -/
def deref {α : Type} : Option α → Except Err α
  | some a => .ok a
  | none => .error .ub

/-- The text of the instruction in a `POKETEXT` command. Models: src/t86/debug.cpp:140-149. With fewer than three words
`std::next` leaves the vector, which is undefined. -/
def glued (words : List Str) : Except Err Str :=
  if words.length < 3 then .error .ub
  else do
    let w ← at' words 2
    return w ++ " ".toList ++ join " ".toList (words.drop 3)

/-- The command a message stands for. Models: src/t86/debug.cpp:121-209 (the conditions and the arguments). -/
def parse (h : Host) (m : Str) : Except Err Cmd :=
  match split m ' ' with
  | [] => .error .ub
  | c :: l =>
    if c = "REASON".toList then .ok .reason
    else if m = "CONTINUE".toList then .ok .cont
    else if isPrefixOf "PEEKTEXT".toList c then do
      let i ← at' (c :: l) 1
      let i ← index i
      let n ← at' (c :: l) 2
      let n ← index n
      return .peekText i n
    else if isPrefixOf "POKETEXT".toList c then do
      let i ← at' (c :: l) 1
      let i ← index i
      let s ← glued (c :: l)
      let ins ← Asm.pokedInstruction.run h.stod s
      return .pokeText i ins
    else if isPrefixOf "PEEKDATA".toList c then do
      let i ← at' (c :: l) 1
      let i ← index i
      let n ← at' (c :: l) 2
      let n ← index n
      return .peekData i n
    else if isPrefixOf "POKEDATA".toList c then do
      let i ← at' (c :: l) 1
      let i ← index i
      let v ← at' (c :: l) 2
      match toSigned v with
      | some v => return .pokeData i (BitVec.ofInt 64 v)
      | none => .error .runtime
    else if c = "PEEKREGS".toList then .ok .peekRegs
    else if c = "PEEKFLOATREGS".toList then .ok .peekFloatRegs
    else if c = "PEEKDEBUGREGS".toList then .ok .peekDebugRegs
    else if c = "POKEDEBUGREGS".toList then do
      let r ← at' (c :: l) 1
      let r ← numbered r
      let v ← at' (c :: l) 2
      let v ← deref (toUnsigned v)
      return .pokeDebugReg r (BitVec.ofNat 64 v)
    else if isPrefixOf "POKEFLOATREGS".toList c then do
      let r ← at' (c :: l) 1
      let r ← numbered r
      let v ← at' (c :: l) 2
      let v ← deref (h.dval v)
      return .pokeFloatReg r v
    else if isPrefixOf "POKEREGS".toList c then do
      let r ← at' (c :: l) 1
      let r ← register r
      let v ← at' (c :: l) 2
      let v ← deref (toSigned v)
      return .pokeReg r (BitVec.ofInt 64 v)
    else if c = "SINGLESTEP".toList then .ok .step
    else if c = "REGCOUNT".toList then .ok .regCount
    else if c = "TEXTSIZE".toList then .ok .textSize
    else if c = "DATASIZE".toList then .ok .dataSize
    else if c = "TERMINATE".toList then .ok .terminate
    else .ok .unknown

/-- What precedes the number in the answers to `REGCOUNT`, `TEXTSIZE` and `DATASIZE`.
Models: src/t86/debug.cpp:193-201. -/
def countName : Cmd → Str
  | .regCount => "REGCOUNT:".toList
  | .textSize => "TEXTSIZE:".toList
  | .dataSize => "DATASIZE:".toList
  | _ => []

/-- Lines. -/
def lines (l : List Str) : Str := (l.map (· ++ "\n".toList)).flatten

/-- One line per register, with a letter and its number. Models: src/t86/debug.cpp:71-79, 94-100. -/
def numberedLines (c : Char) : Nat → List Str → List Str
  | _, [] => []
  | i, v :: l => (c :: ofNat i ++ ":".toList ++ v) :: numberedLines c (i + 1) l

/-- The text of a reply to a command. Models: src/t86/debug.cpp:71-100 and the arguments of `messenger->Send` in 111-206. -/
def reply (h : Host) (k : Cmd) : Reply → Str
  | .stopped => "STOPPED".toList
  | .ok => "OK".toList
  | .reason r => reason r
  | .text l => lines (l.map (·.print h.ftos))
  | .data l => lines (l.map fun w => ofInt w.toInt)
  | .regs l => lines (l.map fun p => p.1.print ++ ":".toList ++ ofInt p.2.toInt)
  | .floats l => lines (numberedLines 'F' 0 (l.map h.dtos))
  | .debugs l => lines (numberedLines 'D' 0 (l.map fun w => ofNat w.toNat))
  | .count n => countName k ++ ofNat n
  | .unknown => "UNKNOWN COMMAND".toList

end Proto

/-- The connection: the machine, the messages sent to it and to the debugger that have not been received, and whether an
exception has ended the machine. Simplification: sending to a machine that has ended is not an error (the answer does not
come). The transport itself is modelled in `Verif/Model/Message.lean`. -/
structure Link where
  vm : Vm
  toVm : List Str
  toDbg : List Str
  dead : Bool
  deriving DecidableEq

namespace Link

/-- The four commands whose effect after an exception of the processor is modelled. -/
def afterFailure : Cmd → Bool
  | .reason | .cont | .step | .terminate => true
  | _ => false

/-- The machine takes one step: a tick while it runs, one message while it is stopped. `none` when it has ended; when both
sides wait for each other, nothing ever happens again. An exception of the debug interface ends the machine.
Models: src/t86/os.cpp:28-56, src/t86/debug.cpp:111-121. -/
def turn (h : Host) (l : Link) : Except Err (Option Link) :=
  if l.dead then .ok none
  else match l.vm.phase with
    | .ended _ => .ok none
    | .running =>
      match l.vm.step h.cfg h.gregs h.gram .tick with
      | .ok (vm, rs) => .ok (some { l with vm := vm, toDbg := l.toDbg ++ rs.map (Proto.reply h .unknown) })
      | .error .ub => .error .ub
      | .error _ => .ok (some { l with dead := true })
    | p =>
      match l.toVm with
      | [] => .error .diverge
      | m :: rest =>
        match Proto.parse h m with
        | .error .ub => .error .ub
        | .error _ => .ok (some { l with toVm := rest, dead := true })
        | .ok k =>
          if p = .failed ∧ afterFailure k = false then .error .unspecified
          else match l.vm.step h.cfg h.gregs h.gram (.cmd k) with
            | .ok (vm, rs) => .ok (some { l with vm := vm, toVm := rest, toDbg := l.toDbg ++ rs.map (Proto.reply h k) })
            | .error .ub => .error .ub
            | .error _ => .ok (some { l with toVm := rest, dead := true })

/-- The debugger connected to a program. Models: src/t86/os.cpp:28-30. -/
def start (h : Host) (prog : List Instr) (data : List Word) (inp : List (BitVec 8)) : Link :=
  let x := Vm.start h.cfg prog data inp
  ⟨x.1, [], x.2.map (Proto.reply h .unknown), false⟩

end Link

/-- A computation that changes a state and can fail; the state it has changed stays changed. -/
def Job (σ α : Type) : Type := σ → Except Err α × σ

namespace Job
variable {σ α β : Type}

/-- Sequencing. -/
def bind (x : Job σ α) (f : α → Job σ β) : Job σ β := fun s =>
  match x s with
  | (.ok a, s') => f a s'
  | (.error e, s') => (.error e, s')

instance : Monad (Job σ) where
  pure a := fun s => (.ok a, s)
  bind := bind

/-- `throw`. -/
def throw (e : Err) : Job σ α := fun s => (.error e, s)

/-- Reading the state. -/
def get : Job σ σ := fun s => (.ok s, s)

/-- Changing the state. -/
def modify (f : σ → σ) : Job σ Unit := fun s => (.ok (), f s)

/-- A computation that does not touch the state. -/
def ofExcept (x : Except Err α) : Job σ α := fun s => (x, s)

end Job

namespace Link

/-- `messenger->Send`. -/
def send (m : Str) : Job Link Unit := Job.modify fun l => { l with toVm := l.toVm ++ [m] }

/-- `messenger->Receive`, with a bound on the steps of the machine. -/
def receiveLoop (h : Host) : Nat → Link → Except Err (Option Str) × Link
  | 0, l =>
    match l.toDbg with
    | m :: rest => (.ok (some m), { l with toDbg := rest })
    | [] => (.error .diverge, l)
  | fuel + 1, l =>
    match l.toDbg with
    | m :: rest => (.ok (some m), { l with toDbg := rest })
    | [] =>
      match turn h l with
      | .error e => (.error e, l)
      | .ok none => (.ok none, l)
      | .ok (some l') => receiveLoop h fuel l'

/-- `messenger->Receive`. -/
def receive (h : Host) : Job Link (Option Str) := receiveLoop h (h.wait + 2)

end Link
end T86
