import Verif.Model.SourceDbg

/-! # The command line of the debugger: src/dbg-cli/CLI.h -/

namespace T86
open Dbg Str

namespace Native

/-- The first loop of `SetAllWatchpoints`. Models: src/debugger/Native.cpp:276-278. -/
def removeAll (h : Host) : List Word → N Unit
  | [] => pure ()
  | a :: l => do
    removeWatchpoint h a
    removeAll h l

/-- The second loop of `SetAllWatchpoints`. Models: src/debugger/Native.cpp:280-282. -/
def watchMany (h : Host) : List Word → N Unit
  | [] => pure ()
  | a :: l => do
    setWatchpoint h a
    watchMany h l

/-- Models: src/debugger/Native.cpp:275-283 (`SetAllWatchpoints`). -/
def setAllWatchpoints (h : Host) (l : Map Word Nat) : N Unit := do
  let n ← Job.get
  removeAll h (n.wps.map (·.1))
  watchMany h (l.map (·.1))

end Native

namespace Cli

/-- The help texts. Models: src/dbg-cli/CLI.h:40-204. -/
inductive Usage
  | all | run | breakpoint | istep | inext | step | next | disassemble | register | assemble | memory | watchpoint
  | source | expression | finish | frame | continue'
  deriving DecidableEq, Repr

/-- What is printed. A line of assembly or of source code has a mark for a breakpoint (`some true`: enabled) and one for the
current place. Simplification: colours and the padding of numbers are left out. -/
inductive Out
  | usage (u : Usage)
  | print (s : Str)
  | text (mark : Option Bool) (current : Bool) (address : Nat) (s : Str)
  | code (mark : Option Bool) (current : Bool) (line : Nat) (s : Str)
  | event (s : Str)
  | cpuError (address : Nat)
  | error
  deriving DecidableEq, Repr

/-- What does not change: the machine that has these numbers of registers and this size of memory, the arithmetic of the host,
the file given on the command line (it is assumed to be readable), the input of the program, and a bound on the number of passes of loops that
wait for the program. -/
structure Env where
  host : Nat → Nat → Nat → Host
  mode : Mode
  fo : Ex.Floats
  stod : Str → Except Err Word
  file : Option Str
  inp : List (BitVec 8)
  fuel : Nat

end Cli

/-- The command line, with what it has printed and the lines it has not read yet. `host` and `client` describe the process.
Models: src/dbg-cli/CLI.h:1225-1233 (the data members of `Cli`). -/
structure Cli where
  host : Host
  client : Client
  process : Option Native := none
  source : Src.Source := {}
  running : Bool := true
  out : List Cli.Out := []
  input : List Str := []

namespace Cli

abbrev C := Job Cli

/-- `fmt::print`. -/
def put (o : Out) : C Unit := Job.modify fun s => { s with out := s.out ++ [o] }

/-- `Error(...)`. Models: src/dbg-cli/CLI.h:34-37. -/
def error {α : Type} : C α := Job.throw .debugger

/-- A call of a method of `process`. Without a process the pointer is null. -/
def call {α : Type} (x : Host → Client → Native.N α) : C α := fun s =>
  match s.process with
  | none => (.error .ub, s)
  | some n =>
    let y := x s.host s.client n
    (y.1, { s with process := some y.2 })

/-- Is there a process? Models: src/debugger/Native.cpp:400-402 (`Active`), src/dbg-cli/CLI.h:458-460 and so on. -/
def needProcess : C Unit := do
  let s ← Job.get
  if s.process.isSome then pure () else error

/-- Has the program not finished? Models: src/dbg-cli/CLI.h:600-602 and so on. -/
def needRunning : C Unit := do
  let s ← Job.get
  if s.running then pure () else error

/-- The breakpoints. Models: src/debugger/Native.cpp:392-394 (`GetBreakpoints`). -/
def breakpoints (s : Cli) : Map Word Bp :=
  match s.process with
  | some n => n.bps
  | none => []

/-- The watchpoints. Models: src/debugger/Native.cpp:388-390 (`GetWatchpoints`). -/
def watchpoints (s : Cli) : Map Word Nat :=
  match s.process with
  | some n => n.wps
  | none => []

/-- Models: src/dbg-cli/CLI.h:25-32 (`check_command`). -/
def check (subs : List Str) (of : String) (n : Nat) : Bool :=
  if subs.length < n then false
  else match subs with
    | [] => false
    | w :: _ => isPrefixOf w of.toList

/-- The loop of `ParseString`: `prev` and the rest of the text. The last character is `"`, so `s[++i]` exists after an escape
sequence; where it would not, the behaviour is undefined. Models: src/dbg-cli/CLI.h:221-239. -/
def stringLoop : Char → Str → Except Err Str
  | _, [] => .ok []
  | prev, c :: l =>
    if prev = '\\' then
      match (if c = 'n' then some '\n' else if c = 't' then some '\t' else if c = '0' then some (Char.ofNat 0) else none) with
      | none => .error .debugger
      | some d =>
        match l with
        | [] => .error .ub
        | c' :: l' => do
          let r ← stringLoop c' l'
          return d :: r
    else do
      let r ← stringLoop c l
      return prev :: r

/-- Models: src/dbg-cli/CLI.h:213-241 (`ParseString`). -/
def parseString (s : Str) : Except Err Str :=
  if s.length < 2 ∨ s.head? ≠ some '"' ∨ s.getLast? ≠ some '"' then .error .debugger
  else match s.drop 1 with
    | [] => .error .outOfRange
    | c :: l => stringLoop c l

/-- Models: src/dbg-cli/CLI.h:382-388 (`ParseAddress`). -/
def parseAddress (s : Str) : Except Err Word :=
  match toSigned s with
  | some v => if v < 0 then .error .debugger else .ok (BitVec.ofInt 64 v)
  | none => .error .debugger

/-- `subcommands.at(i)`. -/
def sub (l : List Str) (i : Nat) : Except Err Str := Proto.at' l i

/-- An address among the parameters. -/
def address (l : List Str) (i : Nat) : C Word := do
  let s ← Job.ofExcept (sub l i)
  Job.ofExcept (parseAddress s)

/-- Models: src/debugger/Source/Source.cpp:342-359 (`EvaluateExpression`), on the members of the command line. -/
def evaluate (e : Env) (text : Str) (cache : Bool) : C (Ex.Val × Nat) := fun s =>
  match s.process with
  | none => (.error .ub, s)
  | some n =>
    match Src.evaluateExpression s.host s.client e.mode e.fo text cache s.source n with
    | (.ok (v, i, src), n') => (.ok (v, i), { s with process := some n', source := src })
    | (.error er, n') => (.error er, { s with process := some n' })

/-- `catch (const DebuggerError&)` with nothing printed. Models: src/dbg-cli/CLI.h:272, 281-285. -/
def ignoring (x : C Unit) : C Unit := fun s =>
  match x s with
  | (.error .debugger, s') => (.ok (), s')
  | r => r

/-- The value of one variable. Models: src/dbg-cli/CLI.h:273-280. -/
def printVariable (e : Env) (name : Str) : C Unit := do
  let v ← evaluate e name false
  let s ← Job.get
  let text ← call fun h c => Src.showValue h c s.source.types e.fuel v.1
  let ip ← call fun h _ => Native.getIP h
  match Ex.getVariableType s.source.env ip.toNat name with
  | none => pure ()
  | some ty => do
    let t ← Job.ofExcept (Src.typeToString s.source.types ty)
    put (.print ("(".toList ++ t ++ ") ".toList ++ name ++ " = ".toList ++ text))

/-- The loop over the variables. Models: src/dbg-cli/CLI.h:271-286. -/
def printVariables (e : Env) : List Str → C Unit
  | [] => pure ()
  | v :: l => do
    ignoring (printVariable e v)
    printVariables e l

/-- The names of the variables in scope. Models: src/dbg-cli/CLI.h:256-266. -/
def activeVariables (l : List Str) : Str :=
  match l with
  | [] => []
  | _ => "; active variables: ".toList ++ join ", ".toList l

/-- Models: src/dbg-cli/CLI.h:243-288 (`PrintFunctionInfo`). -/
def printFunction (e : Env) (a : Word) (detailed : Bool) : C Unit := do
  let s ← Job.get
  match getFunctionNameByAddress s.source.top a.toNat with
  | none => pure ()
  | some name =>
    match getFunctionAddrByName s.source.top name with
    | none => pure ()
    | some (b, d) => do
      let vars := Src.scopedVariables s.source a.toNat
      put (.print ("function ".toList ++ name ++ " at ".toList ++ ofNat b ++ "-".toList ++ ofNat d ++
        (if detailed then [] else activeVariables vars)))
      if detailed then printVariables e vars else pure ()

/-- Models: src/dbg-cli/CLI.h:314-326 (`GetPrettyBp`). -/
def mark (bps : Map Word Bp) (a : Word) : Option Bool := (bps.find a).map (·.enabled)

/-- The lines of assembly that are printed. Models: src/dbg-cli/CLI.h:367-379. -/
def textLines (bps : Map Word Bp) (ip : Word) : Word → List Str → List Out
  | _, [] => []
  | a, s :: l => .text (mark bps a) (a == ip) a.toNat s :: textLines bps ip (a + 1) l

/-- Models: src/dbg-cli/CLI.h:363-380 (`PrintText`). -/
def printText (a : Word) (l : List Str) : C Unit := do
  let ip ← call fun h _ => Native.getIP h
  Job.modify fun s => { s with out := s.out ++ textLines (breakpoints s) ip a l }

/-- Models: src/dbg-cli/CLI.h:290-303 (`PrettyPrintText`). -/
def prettyText (e : Env) (a : Word) : C Unit := do
  let size ← call fun h _ => Native.textSize h
  if a.toNat ≥ size.toNat then pure ()
  else do
    let b : Word := if a.toNat < 2 then 0 else a - 2
    let d : Word := if size.toNat ≤ (a + 2 + 1).toNat then size else a + 2 + 1
    let ins ← call fun h _ => Native.readText h b (d - b)
    printFunction e a false
    printText b ins

/-- Models: src/dbg-cli/CLI.h:328-344 (`GetPrettyBpForLine`). -/
def markLine (src : Src.Source) (bps : Map Word Bp) (line : Nat) : Option Bool :=
  match lineToAddr src.lines line with
  | none => none
  | some a => if addrToLine src.lines a = some line then mark bps (BitVec.ofNat 64 a) else none

/-- A line of the source. Models: src/debugger/Source/Source.cpp:82-88 (`GetLine`). -/
def lineOf (src : Src.Source) (i : Nat) : Option Str := src.file.bind fun l => getLine l i

/-- The lines of source code that are printed: `n` lines from line `i` on. Models: src/dbg-cli/CLI.h:348-360. -/
def codeLines (src : Src.Source) (bps : Map Word Bp) (current : Option Nat) : Nat → Nat → List Out
  | 0, _ => []
  | n + 1, i =>
    match lineOf src i with
    | none => codeLines src bps current n (i + 1)
    | some l => .code (markLine src bps i) (current == some i) (i + 1) l :: codeLines src bps current n (i + 1)

/-- Models: src/dbg-cli/CLI.h:346-361 (`PrintCode`). -/
def printCode (b d : Nat) : C Unit := do
  let ip ← call fun h _ => Native.getIP h
  Job.modify fun s =>
    { s with out := s.out ++ codeLines s.source (breakpoints s) (addrToLine s.source.lines ip.toNat) (d - b) b }

/-- Models: src/dbg-cli/CLI.h:305-312 (`PrettyPrintCode`). -/
def prettyCode (e : Env) (line : Nat) : C Unit := do
  let ip ← call fun h _ => Native.getIP h
  printFunction e ip false
  printCode (line - 2) (line + 2 + 1)

/-- Models: src/dbg-cli/CLI.h:390-417 (`DebugEventToString`). -/
def eventText (src : Src.Source) : Event → Str
  | .breakpoint a =>
    match addrToLine src.lines a.toNat with
    | some l => "Software breakpoint hit at line ".toList ++ ofNat (l + 1)
    | none => "Software breakpoint hit at address ".toList ++ ofNat a.toNat
  | .watchpoint a => "Watchpoint triggered at memory address ".toList ++ ofNat a.toNat
  | .singlestep => "Singlestep done".toList
  | .begin => "Execution started".toList
  | .end' => "The program finished execution".toList
  | .cpuError _ => "Inner CPU error occured.".toList

/-- Is it an error of the processor? -/
def isCpuError : Event → Bool
  | .cpuError _ => true
  | _ => false

/-- Models: src/dbg-cli/CLI.h:419-437 (`ReportDebugEvent`). -/
def report (ev : Event) : C Unit := do
  let s ← Job.get
  put (.event (eventText s.source ev))
  if isCpuError ev then do
    let ip ← call fun h _ => Native.getIP h
    put (.cpuError ip.toNat)
    Job.modify fun s => { s with running := false }
  else pure ()

/-- Code if there is a line, or else assembly. Models: src/dbg-cli/CLI.h:446-453, 639-645. -/
def showPlace (e : Env) : C Unit := do
  let ip ← call fun h _ => Native.getIP h
  let s ← Job.get
  match addrToLine s.source.lines ip.toNat with
  | some l => prettyCode e l
  | none => prettyText e ip

/-- Models: src/dbg-cli/CLI.h:439-454 (`ReportBreak`). -/
def reportBreak (e : Env) (ev : Event) : C Unit := if ev = .end' then pure () else showPlace e

/-- What is printed after a change of a breakpoint by line: `how` is undefined behaviour or a failed assertion.
Models: src/dbg-cli/CLI.h:472-479, 483-491 and so on. -/
def printLine (what : String) (a : Word) (how : Err) : C Unit := do
  let s ← Job.get
  match addrToLine s.source.lines a.toNat with
  | none => Job.throw how
  | some l => put (.print (what.toList ++ ofNat (l + 1) ++ " (addr ".toList ++ ofNat a.toNat ++ ")".toList ++
      (match lineOf s.source l with
        | some t => ": ".toList ++ t
        | none => [])))

/-- Insertion in the order of the addresses. -/
def insertAddr {α : Type} (p : Word × α) : List (Word × α) → List (Word × α)
  | [] => [p]
  | q :: l => if p.1.toNat < q.1.toNat then p :: q :: l else q :: insertAddr p l

/-- The order of the iterators of a `std::map<uint64_t, ...>`. -/
def sortAddr {α : Type} (m : List (Word × α)) : List (Word × α) := m.foldl (fun l p => insertAddr p l) []

/-- One line of the list of breakpoints. Models: src/dbg-cli/CLI.h:531-539. -/
def breakpointLine (src : Src.Source) (p : Word × Bp) : Out :=
  .print ("addr: ".toList ++ ofNat p.1.toNat ++
    (match addrToLine src.lines p.1.toNat with
      | some l => ", line: ".toList ++ ofNat l
      | none => []) ++
    "; ".toList ++ (if p.2.enabled then "enabled" else "disabled").toList ++
    (match getFunctionNameByAddress src.top p.1.toNat with
      | some f => "; function: ".toList ++ f
      | none => []))

/-- Where a breakpoint is to be, from a line or the name of a function. Models: src/dbg-cli/CLI.h:470. -/
def place (subs : List Str) : C Word := do
  let t ← Job.ofExcept (sub subs 1)
  let s ← Job.get
  Job.ofExcept (Src.addressFromString s.source t true)

/-- A breakpoint on a line or a function. Models: src/dbg-cli/CLI.h:469-479, 480-491, 492-503, 504-515. -/
def onPlace (subs : List Str) (op : Host → Word → Native.N Unit) (what : String) (how : Err) : C Unit := do
  let a ← place subs
  call fun h _ => op h a
  printLine what a how

/-- A breakpoint at an address. Models: src/dbg-cli/CLI.h:516-527. -/
def onAddress (subs : List Str) (op : Host → Word → Native.N Unit) (what : String) : C Unit := do
  let a ← address subs 1
  call fun h _ => op h a
  put (.print (what.toList ++ ofNat a.toNat))

/-- `br iset`. Models: src/dbg-cli/CLI.h:463-467. -/
def breakAt (subs : List Str) : C Unit := do
  let a ← address subs 1
  let l ← call fun h _ => Native.readText h a 1
  call fun h _ => Native.setBreakpoint h a
  let s ← Job.ofExcept (match l with
    | s :: _ => Except.ok s
    | [] => Except.error Err.ub)
  put (.print ("Breakpoint set on address ".toList ++ ofNat a.toNat ++ ": '".toList ++ s ++ "'".toList))

/-- `br list`. Models: src/dbg-cli/CLI.h:528-540. -/
def listBreakpoints : C Unit :=
  Job.modify fun s => { s with out := s.out ++ (sortAddr (breakpoints s)).map (breakpointLine s.source) }

/-- The parameters of `HandleBreakpoint`. Models: src/dbg-cli/CLI.h:456-544. -/
def onBreakpoint (subs : List Str) : C Unit :=
  if check subs "iset" 2 then breakAt subs
  else if check subs "set" 2 then onPlace subs Native.setBreakpoint "Breakpoint set on line " .ub
  else if check subs "remove" 2 then onPlace subs Native.unsetBreakpoint "Breakpoint removed from line " .abort
  else if check subs "enable" 2 then onPlace subs Native.enable "Breakpoint enabled on line " .abort
  else if check subs "disable" 2 then onPlace subs Native.disable "Breakpoint disabled on line " .abort
  else if check subs "idisable" 2 then onAddress subs Native.disable "Breakpoint disabled at address "
  else if check subs "ienable" 2 then onAddress subs Native.enable "Breakpoint enabled at address "
  else if check subs "iremove" 2 then onAddress subs Native.unsetBreakpoint "Breakpoint removed from address "
  else if check subs "list" 1 then listBreakpoints
  else put (.usage .breakpoint)

/-- Models: src/dbg-cli/CLI.h:456-544 (`HandleBreakpoint`). -/
def handleBreakpoint (command : Str) : C Unit := do
  needProcess
  onBreakpoint (split command ' ')

/-- `watchpoint list`. Models: src/dbg-cli/CLI.h:554-565. -/
def listWatchpoints : C Unit := do
  let s ← Job.get
  match sortAddr (watchpoints s) with
  | [] => put (.print "No active watchpoints".toList)
  | l => Job.modify fun s =>
    { s with out := s.out ++ .print "Active watchpoints:".toList :: l.map fun p => .print (" - address ".toList ++ ofNat p.1.toNat) }

/-- The parameters of `HandleWatchpoint`. Models: src/dbg-cli/CLI.h:546-569. -/
def onWatchpoint (subs : List Str) : C Unit :=
  if check subs "iset" 2 then do
    let a ← address subs 1
    call fun h _ => Native.setWatchpoint h a
  else if check subs "irem" 2 then do
    let a ← address subs 1
    call fun h _ => Native.removeWatchpoint h a
  else if check subs "list" 1 then listWatchpoints
  else put (.usage .watchpoint)

/-- Models: src/dbg-cli/CLI.h:546-569 (`HandleWatchpoint`). -/
def handleWatchpoint (command : Str) : C Unit := onWatchpoint (split command ' ')

/-- A step that is done is not reported. Models: src/dbg-cli/CLI.h:577-579, 633-635, 659-661. -/
def reportStop (ev : Event) : C Unit := if ev = .singlestep then pure () else report ev

/-- After an event of a step. Models: src/dbg-cli/CLI.h:578-583, 633-638, 659-664. -/
def afterStep (ev : Event) (place : C Unit) : C Unit := do
  reportStop ev
  if ev = .end' then Job.modify fun s => { s with running := false } else place

/-- The end of `SourceLevelStep`. Models: src/dbg-cli/CLI.h:584-592. -/
def showLine (e : Env) : C Unit := do
  let ip ← call fun h _ => Native.getIP h
  let s ← Job.get
  match addrToLine s.source.lines ip.toNat with
  | some l => prettyCode e l
  | none => pure ()

/-- Models: src/dbg-cli/CLI.h:571-594 (`SourceLevelStep`). -/
def sourceStep (e : Env) (over : Bool) : C Unit := do
  let s ← Job.get
  let ev ← call fun h c => if over then Src.stepOver h c s.source e.fuel else Src.stepIn h c s.source e.fuel
  afterStep ev (showLine e)

/-- Models: src/dbg-cli/CLI.h:652-671 (`NativeLevelStep`). -/
def nativeStep (e : Env) (over : Bool) : C Unit := do
  let ev ← call fun h c => if over then Native.stepOver h c e.fuel true else Native.singleStep h c
  afterStep ev do
    let ip ← call fun h _ => Native.getIP h
    prettyText e ip

/-- A command that continues the program and has no parameters. Models: src/dbg-cli/CLI.h:596-608 (`HandleStep`), 610-622
(`HandleNext`), 624-650 (`HandleFinish`), 673-685 (`HandleStepi`), 687-700 (`HandleINext`). -/
def stepping (command : Str) (u : Usage) (x : C Unit) : C Unit := do
  needProcess
  needRunning
  if command = [] then x else put (.usage u)

/-- `finish`. Models: src/dbg-cli/CLI.h:632-646. -/
def finish (e : Env) : C Unit := do
  let ev ← call fun h c => Native.stepOut h c e.fuel
  afterStep ev (showPlace e)

/-- `disassemble range`. Models: src/dbg-cli/CLI.h:710-714. -/
def disassembleRange (subs : List Str) : C Unit := do
  let b ← address subs 1
  let d ← address subs 2
  let l ← call fun h _ => Native.readText h b (d - b)
  printText b l

/-- How many instructions `disassemble from` prints. Models: src/dbg-cli/CLI.h:723-725. -/
def amountText (subs : List Str) (rest : Word) : C Word := if subs.length > 2 then address subs 2 else pure rest

/-- `disassemble from`. Models: src/dbg-cli/CLI.h:715-727. -/
def disassembleFrom (subs : List Str) : C Unit := do
  let b ← address subs 1
  let size ← call fun h _ => Native.textSize h
  if b.toNat ≥ size.toNat then error
  else do
    let n ← amountText subs (size - b)
    let l ← call fun h _ => Native.readText h b n
    printText b l

/-- `disassemble function`. Models: src/dbg-cli/CLI.h:728-736. -/
def disassembleFunction (subs : List Str) : C Unit := do
  let id ← Job.ofExcept (sub subs 1)
  let s ← Job.get
  match getFunctionAddrByName s.source.top id with
  | none => error
  | some (b, d) => do
    let l ← call fun h _ => Native.readText h (BitVec.ofNat 64 b) (BitVec.ofNat 64 d - BitVec.ofNat 64 b)
    printText (BitVec.ofNat 64 b) l

/-- The parameters of `HandleDisassemble`. Models: src/dbg-cli/CLI.h:702-740. -/
def onDisassemble (e : Env) (subs : List Str) : C Unit :=
  if subs.length = 0 then do
    let ip ← call fun h _ => Native.getIP h
    prettyText e ip
  else if check subs "range" 3 then disassembleRange subs
  else if check subs "from" 2 then disassembleFrom subs
  else if check subs "function" 2 then disassembleFunction subs
  else put (.usage .disassemble)

/-- Models: src/dbg-cli/CLI.h:702-740 (`HandleDisassemble`). -/
def handleDisassemble (e : Env) (command : Str) : C Unit := do
  needProcess
  onDisassemble e (split command ' ')

/-- `source` without parameters. Models: src/dbg-cli/CLI.h:747-755. -/
def sourceHere : C Unit := do
  let ip ← call fun h _ => Native.getIP h
  let s ← Job.get
  match addrToLine s.source.lines ip.toNat with
  | none => error
  | some l => printCode (l - 2) (l + 2 + 1)

/-- How many lines `source from` prints; `GetLines` fails without a source. Models: src/dbg-cli/CLI.h:762-764. -/
def amountFrom (subs : List Str) (b : Word) : C Word := do
  if subs.length ≥ 3 then address subs 2
  else do
    let s ← Job.get
    match s.source.file with
    | none => error
    | some l => pure (BitVec.ofNat 64 l.length - b)

/-- `source from`. Models: src/dbg-cli/CLI.h:756-765. -/
def sourceFrom (subs : List Str) : C Unit := do
  let l ← address subs 1
  if l = 0 then error
  else do
    let n ← amountFrom subs (l - 1)
    printCode (l - 1).toNat (l - 1 + n).toNat

/-- The parameters of `HandleSource`. Models: src/dbg-cli/CLI.h:742-769. -/
def onSource (subs : List Str) : C Unit :=
  if subs.length = 0 then sourceHere
  else if check subs "from" 2 then sourceFrom subs
  else put (.usage .source)

/-- Models: src/dbg-cli/CLI.h:742-769 (`HandleSource`). -/
def handleSource (command : Str) : C Unit := do
  needProcess
  onSource (split command ' ')

/-- The lines up to an empty one, and what follows it; without an empty line the input has ended too early.
Models: src/dbg-cli/CLI.h:774-789. -/
def readBlock : List Str → Except Err (List Str) × List Str
  | [] => (.error .debugger, [])
  | l :: rest =>
    if l = [] then (.ok [], rest)
    else match readBlock rest with
      | (.ok r, rest') => (.ok (l :: r), rest')
      | (.error er, rest') => (.error er, rest')

/-- Reading them. -/
def block : C (List Str) := fun s =>
  let x := readBlock s.input
  (x.1, { s with input := x.2 })

/-- `assemble interactive`; the text of the error message needs a third parameter. Models: src/dbg-cli/CLI.h:798-803 and
771-791 (`InteractiveAssemble`). -/
def assembleAt (subs : List Str) : C Unit := do
  let t ← Job.ofExcept (sub subs 1)
  match toUnsigned t with
  | none => do
    let _ ← Job.ofExcept (sub subs 2)
    error
  | some a => do
    let l ← block
    call fun h _ => Native.writeText h (BitVec.ofNat 64 a) l

/-- The parameters of `HandleAssemble`. Models: src/dbg-cli/CLI.h:793-807. -/
def onAssemble (subs : List Str) : C Unit :=
  if check subs "interactive" 2 then assembleAt subs else put (.usage .assemble)

/-- Models: src/dbg-cli/CLI.h:793-807 (`HandleAssemble`). -/
def handleAssemble (command : Str) : C Unit := do
  needProcess
  onAssemble (split command ' ')

/-- `register` without parameters. Models: src/dbg-cli/CLI.h:814-818. -/
def listRegisters : C Unit := do
  let regs ← call fun h _ => Native.getRegisters h
  Job.modify fun s =>
    { s with out := s.out ++ (Src.sortKeys regs).map fun p => .print (p.1 ++ ":".toList ++ ofInt p.2.toInt) }

/-- `register set`. Models: src/dbg-cli/CLI.h:819-825. -/
def setRegister (subs : List Str) : C Unit := do
  let r ← Job.ofExcept (sub subs 1)
  let t ← Job.ofExcept (sub subs 2)
  match toSigned t with
  | none => error
  | some v => call fun h c => Native.setRegister h c r (BitVec.ofInt 64 v)

/-- `register fset`. Models: src/dbg-cli/CLI.h:834-840. -/
def setFloat (subs : List Str) : C Unit := do
  let r ← Job.ofExcept (sub subs 1)
  let t ← Job.ofExcept (sub subs 2)
  let s ← Job.get
  match s.host.dval t with
  | none => error
  | some v => call fun h c => Native.setFloatRegister h c r v

/-- The parameters of `HandleRegister`. Models: src/dbg-cli/CLI.h:809-844. -/
def onRegister (subs : List Str) : C Unit :=
  if subs.length = 0 then listRegisters
  else if check subs "set" 3 then setRegister subs
  else if check subs "get" 2 then do
    let r ← Job.ofExcept (sub subs 1)
    let v ← call fun h _ => Native.getRegister h r
    put (.print (ofInt v.toInt))
  else if check subs "fget" 2 then do
    let r ← Job.ofExcept (sub subs 1)
    let v ← call fun h _ => Native.getFloatRegister h r
    let s ← Job.get
    put (.print (s.host.dtos v))
  else if check subs "fset" 3 then setFloat subs
  else put (.usage .register)

/-- Models: src/dbg-cli/CLI.h:809-844 (`HandleRegister`). -/
def handleRegister (command : Str) : C Unit := do
  needProcess
  onRegister (split command ' ')

/-- The values of `memory set`. Models: src/dbg-cli/CLI.h:853-861. -/
def values : List Str → Except Err (List Word)
  | [] => .ok []
  | s :: l =>
    match toSigned s with
    | none => .error .debugger
    | some v => do
      let r ← values l
      return BitVec.ofInt 64 v :: r

/-- `memory set`; the address is not checked before it is used. Models: src/dbg-cli/CLI.h:851-862. -/
def setCells (subs : List Str) : C Unit := do
  let t ← Job.ofExcept (sub subs 1)
  let l ← Job.ofExcept (values (subs.drop 2))
  match toUnsigned t with
  | none => Job.throw .ub
  | some a => call fun h c => Native.setMemory h c (BitVec.ofNat 64 a) l

/-- `memory setstr`. Models: src/dbg-cli/CLI.h:863-876. -/
def setString (subs : List Str) : C Unit := do
  let t ← Job.ofExcept (sub subs 1)
  match toUnsigned t with
  | none => error
  | some a => do
    let s ← Job.ofExcept (parseString (join " ".toList (subs.drop 2)))
    call fun h c => Native.setMemory h c (BitVec.ofNat 64 a) (s.map Asm.cell ++ [0])

/-- The characters of cells, with a mark when the last one does not end a line. Models: src/dbg-cli/CLI.h:886-892. -/
def cellsText : List Word → Str
  | [] => []
  | [w] => if w = 10 then ['\n'] else Src.charOf (w.truncate 8) :: "\\%\n".toList
  | w :: l => Src.charOf (w.truncate 8) :: cellsText l

/-- The cells as numbers. Models: src/dbg-cli/CLI.h:893-897. -/
def cellLines : Word → List Word → List Out
  | _, [] => []
  | a, w :: l => .print (ofNat a.toNat ++ ":".toList ++ ofInt w.toInt) :: cellLines (a + 1) l

/-- `memory get` and `memory getstr`. Models: src/dbg-cli/CLI.h:877-897. -/
def getCells (subs : List Str) : C Unit := do
  let t ← Job.ofExcept (sub subs 1)
  let u ← Job.ofExcept (sub subs 2)
  match toUnsigned t, toUnsigned u with
  | some a, some n => do
    let l ← call fun h c => Native.readMemory h c (BitVec.ofNat 64 a) (BitVec.ofNat 64 n)
    let w ← Job.ofExcept (sub subs 0)
    if isPrefixOf "gets".toList w then put (.print (cellsText l))
    else Job.modify fun s => { s with out := s.out ++ cellLines (BitVec.ofNat 64 a) l }
  | _, _ => error

/-- The parameters of `HandleMemory`. Models: src/dbg-cli/CLI.h:846-901. -/
def onMemory (subs : List Str) : C Unit :=
  if check subs "set" 3 then setCells subs
  else if check subs "setstr" 3 then setString subs
  else if check subs "get" 3 || check subs "getstr" 3 then getCells subs
  else put (.usage .memory)

/-- Models: src/dbg-cli/CLI.h:846-901 (`HandleMemory`). -/
def handleMemory (command : Str) : C Unit := do
  needProcess
  onMemory (split command ' ')

/-- Models: src/dbg-cli/CLI.h:903-911 (`HandleFrame`). -/
def handleFrame (e : Env) : C Unit := do
  needProcess
  needRunning
  let ip ← call fun h _ => Native.getIP h
  printFunction e ip true

/-- The end of the program. Models: src/dbg-cli/CLI.h:921-923. -/
def markEnd (ev : Event) : C Unit := if ev = .end' then Job.modify fun s => { s with running := false } else pure ()

/-- Models: src/dbg-cli/CLI.h:913-927 (`HandleContinue`). -/
def handleContinue (e : Env) : C Unit := do
  needProcess
  needRunning
  let ev ← call fun h c => do
    Native.continue' h c
    Native.waitEvent h c
  markEnd ev
  report ev
  reportBreak e ev

/-- Models: src/dbg-cli/CLI.h:929-940 (`HandleExpression`). -/
def handleExpression (e : Env) (command : Str) : C Unit := do
  needProcess
  if command = [] then put (.usage .expression)
  else do
    let v ← evaluate e command true
    let s ← Job.get
    let t ← Job.ofExcept (Src.valueType s.source.types v.1)
    let x ← call fun h c => Src.showValue h c s.source.types e.fuel v.1
    put (.print ("(".toList ++ t ++ ") $".toList ++ ofNat v.2 ++ " = ".toList ++ x))

/-- The commands, in the order in which `HandleCommand` tries them, and `print`, another name for `expression`. -/
inductive Command
  | run | attach | help | breakpoint | istep | inext | disassemble | assemble | continue' | register | memory | watchpoint
  | next | step | finish | frame | source | expression
  deriving DecidableEq, Repr

/-- Which command a word stands for. Models: the conditions of src/dbg-cli/CLI.h:992-1049. -/
def dispatch (w : Str) : Option Command :=
  if isPrefixOf w "run".toList then some .run
  else if isPrefixOf w "attach".toList then some .attach
  else if isPrefixOf w "help".toList then some .help
  else if isPrefixOf w "breakpoint".toList then some .breakpoint
  else if isPrefixOf w "istep".toList then some .istep
  else if isPrefixOf w "inext".toList then some .inext
  else if isPrefixOf w "disassemble".toList then some .disassemble
  else if isPrefixOf w "assemble".toList then some .assemble
  else if isPrefixOf w "continue".toList then some .continue'
  else if isPrefixOf w "register".toList then some .register
  else if isPrefixOf w "memory".toList then some .memory
  else if isPrefixOf w "watchpoint".toList then some .watchpoint
  else if isPrefixOf w "next".toList then some .next
  else if isPrefixOf w "step".toList then some .step
  else if isPrefixOf w "finish".toList then some .finish
  else if isPrefixOf w "frame".toList then some .frame
  else if isPrefixOf w "source".toList then some .source
  else if isPrefixOf w "expression".toList || isPrefixOf w "print".toList then some .expression
  else none

/-- Models: src/dbg-cli/CLI.h:942-980 (`HandleHelp`). -/
def helpFor (w : Str) : Usage :=
  if w = [] then .all
  else if isPrefixOf w "breakpoint".toList then .breakpoint
  else if isPrefixOf w "istep".toList then .istep
  else if isPrefixOf w "inext".toList then .inext
  else if isPrefixOf w "run".toList then .run
  else if isPrefixOf w "disassemble".toList then .disassemble
  else if isPrefixOf w "assemble".toList then .assemble
  else if isPrefixOf w "continue".toList then .continue'
  else if isPrefixOf w "register".toList then .register
  else if isPrefixOf w "memory".toList then .memory
  else if isPrefixOf w "watchpoint".toList then .watchpoint
  else if isPrefixOf w "next".toList then .next
  else if isPrefixOf w "step".toList then .step
  else if isPrefixOf w "finish".toList then .finish
  else if isPrefixOf w "frame".toList then .frame
  else if isPrefixOf w "source".toList then .source
  else if isPrefixOf w "expression".toList then .expression
  else .all

/-- Models: src/dbg-cli/CLI.h:1108-1116 (`ExitProcess`). -/
def exitProcess : C Unit := do
  let s ← Job.get
  if s.process.isSome then call fun h _ => Native.terminate h else pure ()

/-- Models: src/dbg-cli/CLI.h:1145-1161 (`ParseOptionalCommand`). -/
def option (subs : List Str) (name : String) : Option Nat :=
  match subs.find? (fun s => isPrefixOf name.toList s) with
  | some s => toUnsigned (s.drop name.length)
  | none => none

/-- Models: src/dbg-cli/CLI.h:1211-1223 (`ParseProgram`). -/
def parseProgram (stod : Str → Except Err Word) (text : Str) : Except Err (Src.Source × Asm.Unit') := do
  let u ← Asm.assemble stod text
  let i ← Info.read stod text
  let s ← Src.Source.ofInfos i
  return (s, u)

/-- A new process. Models: src/dbg-cli/CLI.h:1091-1104. -/
def attachNew (e : Env) (nreg nflt size : Nat) (src : Src.Source) (u : Asm.Unit') : C Unit := do
  let s ← Job.get
  let bps := breakpoints s
  let wps := watchpoints s
  let h := e.host nreg nflt size
  Job.modify fun s =>
    { s with host := h, client := ⟨nreg, nflt, size⟩, process := some (Native.connect h u.program u.data e.inp), source := src, running := true }
  let _ ← call fun h c => Native.waitEvent h c
  call fun h _ => Native.setAllBreakpoints h bps
  call fun h _ => Native.setAllWatchpoints h wps
  put (.print "Started process".toList)

/-- The machine is started in a thread of its own. When the data of the program does not fit its memory the exception leaves that
thread (src/t86/cpu.cpp:170-176, src/t86/os.cpp:28-29), which ends the whole debugger. Models: src/dbg-cli/CLI.h:1078-1104. -/
def launch (e : Env) (nreg nflt size : Nat) (src : Src.Source) (u : Asm.Unit') : C Unit :=
  if (e.host nreg nflt size).cfg.ramSize < u.data.length then Job.throw .abort
  else attachNew e nreg nflt size src u

/-- Models: src/dbg-cli/CLI.h:1052-1105 (`HandleRun`). -/
def handleRun (e : Env) (command : Str) : C Unit := do
  let subs := split command ' '
  match e.file with
  | none => put (.print "No file name was provided, provide the file name as argument at startup of the program.".toList)
  | some text => do
    let p ← Job.ofExcept (parseProgram e.stod text)
    launch e ((option subs "--reg-count=").getD 8) ((option subs "--float-reg-count=").getD 4) ((option subs "--data-size=").getD 1024)
      p.1 p.2

/-- `Attach` and what follows it. Connecting to another machine is not modelled. Models: src/dbg-cli/CLI.h:1169-1188 (`Attach`),
1000-1003. -/
def handleAttach (command : Str) : C Unit :=
  match split command ' ' with
  | [] => do
    put (.print "A port is needed, use `attach <port>`".toList)
    Job.modify fun s => { s with running := true }
    let _ ← call fun h c => Native.waitEvent h c
    pure ()
  | p :: _ =>
    match toSigned p with
    | none => Job.throw .ub
    | some _ => Job.throw .unspecified

/-- A command that needs a process. Models: src/dbg-cli/CLI.h:1016-1049. -/
def perform (e : Env) (k : Option Command) (command : Str) : C Unit :=
  match k with
  | some .breakpoint => handleBreakpoint command
  | some .istep => stepping command .istep (nativeStep e false)
  | some .inext => stepping command .inext (nativeStep e true)
  | some .disassemble => handleDisassemble e command
  | some .assemble => handleAssemble command
  | some .continue' => handleContinue e
  | some .register => handleRegister command
  | some .memory => handleMemory command
  | some .watchpoint => handleWatchpoint command
  | some .next => stepping command .next (sourceStep e true)
  | some .step => stepping command .step (sourceStep e false)
  | some .finish => stepping command .finish (finish e)
  | some .frame => handleFrame e
  | some .source => handleSource command
  | some .expression => handleExpression e command
  | _ => put (.usage .all)

/-- Models: src/dbg-cli/CLI.h:1009-1015: without a process these commands print the help. -/
def performIfActive (e : Env) (k : Option Command) (command : Str) : C Unit := do
  let s ← Job.get
  if s.process.isSome then perform e k command
  else do
    put (.usage .all)
    put (.print "Use the `run` or `attach` command to run a process first.".toList)

/-- The first word of a line and the rest of it. Models: src/dbg-cli/CLI.h:983-991. -/
def firstWord (line : Str) : Str × Str := (line.takeWhile (· != ' '), (line.dropWhile (· != ' ')).drop 1)

/-- Models: src/dbg-cli/CLI.h:982-1050 (`HandleCommand`), for a line that is not empty and does not begin with a blank. -/
def handle (e : Env) (line : Str) : C Unit :=
  let w := firstWord line
  match dispatch w.1 with
  | some .run => do
    exitProcess
    handleRun e w.2
  | some .attach => do
    exitProcess
    handleAttach w.2
  | some .help => put (.usage (helpFor w.2))
  | k => performIfActive e k w.2

/-- One line, as it is typed: a `DebuggerError` is printed, any other error ends the debugger.
Models: src/dbg-cli/CLI.h:1128-1137. -/
def typed (e : Env) (raw : Str) : C Unit :=
  let line := squashStrip raw
  if line = [] then pure ()
  else fun s =>
    match handle e line s with
    | (.error .debugger, s') => put .error s'
    | r => r

/-- The loop of `Run`; every pass reads a line at least. Models: src/dbg-cli/CLI.h:1127-1141. -/
def runLoop (e : Env) : Nat → C Unit
  | 0 => exitProcess
  | fuel + 1 => do
    let s ← Job.get
    match s.input with
    | [] => exitProcess
    | raw :: rest => do
      Job.modify fun s => { s with input := rest }
      typed e raw
      runLoop e fuel

/-- The debugger, from its start to the end of its input. Models: src/dbg-cli/CLI.h:1118-1143 (`Run`),
src/dbg-cli/main.cpp:32-44. -/
def session (e : Env) (input : List Str) : Except Err Unit × List Out :=
  let x := runLoop e input.length { host := e.host 8 4 1024, client := .default, input := input }
  (x.1, x.2.out)

end Cli
end T86
