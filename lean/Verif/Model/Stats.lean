import Verif.Model.Cpu

/-! # The statistics of a run: src/t86/utils/stats_logger.cpp

The processor reports to a logger what happens to each instruction in each tick. The machine below is the machine of
`Model/Cpu.lean` together with the numbers the C++ keeps beside the instructions in flight (`loggingId`) and with the logger.

Simplifications: which registers and memory cells an instruction waits for (`operandFetchingStallRSEntries`,
`stallRAMReadRSEntries`, `stallRegisterFetchRSEntries`, `stallFloatRegisterFetchRSEntries`) is left out, and so are the
divisions that yield the averages, which are done in floating point. The logger is one object shared by all processors of a process; here there is
one processor, and the logger starts empty (`reset`, stats_logger.cpp:87-91). -/

namespace T86
namespace Stats

/-- What is recorded about one tick; instructions are recorded by number.
Models: src/t86/utils/stats_logger.h:59-76 (`TickStats`); `activeRSEntries` is never used. -/
structure Tick where
  fetch : Option Nat := none
  decode : Option Nat := none
  preparing : List Nat := []
  noAlu : List Nat := []
  executing : List Nat := []
  waiting : List Nat := []
  retired : List Nat := []
  deriving DecidableEq, Repr

/-- An instruction the logger knows. Models: src/t86/utils/stats_logger.h:131-132 (an element of `instructions_`). -/
structure Rec where
  id : Nat
  pc : Word
  instr : Instr
  deriving DecidableEq, Repr

/-- Models: src/t86/utils/stats_logger.h:126-132 (data members of `StatsLogger`). The map `instructions_` is a list here, its
elements being in the order in which they were added. -/
structure Log where
  ticks : List Tick := []
  next : Nat := 0
  instrs : List Rec := []
  deriving DecidableEq, Repr

/-- A change of the last element. -/
def onLast {α : Type} (f : α → α) : List α → List α
  | [] => []
  | [x] => [f x]
  | x :: y :: ys => x :: onLast f (y :: ys)

namespace Log

/-- Models: src/t86/utils/stats_logger.cpp:32-34 (`newTick`). -/
def newTick (l : Log) : Log := { l with ticks := l.ticks ++ [{}] }

/-- A change of the current tick; there is one whenever something is recorded, because a tick starts with `newTick`.
Models: src/t86/utils/stats_logger.cpp:93-95 (`currentTick`). -/
def upd (l : Log) (f : Tick → Tick) : Log := { l with ticks := onLast f l.ticks }

/-- Models: src/t86/utils/stats_logger.cpp:162-165 (`registerNewInstruction`). -/
def register (l : Log) (pc : Word) (i : Instr) : Log :=
  { l with instrs := l.instrs ++ [⟨l.next, pc, i⟩], next := l.next + 1 }

/-- Models: src/t86/utils/stats_logger.cpp:167-169 (`logClearSpeculation`), for several instructions. -/
def erase (l : Log) (gone : List Nat) : Log := { l with instrs := l.instrs.filter fun r => r.id ∉ gone }

end Log

/-- The numbers of the instructions in flight: of the fetched one, of the decoded one and of the entries of the reservation
station. Models: src/t86/cpu.h:257-261 (`InstructionEntry::loggingId`), src/t86/cpu/reservation_station.h:173
(`Entry::loggingId_`). -/
structure Machine where
  cpu : Cpu
  fetchId : Option Nat := none
  decodeId : Option Nat := none
  ids : List Nat := []
  log : Log := {}

/-- The instructions that are no longer in flight are forgotten. Retirement takes instructions other than the retired one out
of the pipeline only by flushing it, and flushing forgets all of them.
Models: src/t86/cpu/reservation_station.cpp:187-195 (`clear`), src/t86/cpu.cpp:315-327 (`flushPipeline`). -/
def Machine.sync (s : Machine) (c : Cpu) : Machine where
  cpu := c
  fetchId := if c.fetch = none then none else s.fetchId
  decodeId := if c.decode = none then none else s.decodeId
  ids := if c.entries = [] then [] else s.ids
  log := s.log.erase ((if c.entries = [] then s.ids else []) ++ (if c.decode = none then s.decodeId.toList else []) ++
    (if c.fetch = none then s.fetchId.toList else []))

/-- Models: src/t86/cpu/reservation_station.cpp:397-399 (`logRetirement`), src/t86/utils/stats_logger.cpp:121-123. -/
def Tick.retire (id : Nat) (t : Tick) : Tick := { t with retired := t.retired ++ [id] }

/-- Models: src/t86/cpu/reservation_station.cpp:373-375 (`logPreparing`), src/t86/utils/stats_logger.cpp:97-99. -/
def Tick.prepare (id : Nat) (t : Tick) : Tick := { t with preparing := t.preparing ++ [id] }

/-- The second loop of `executeAndRetire`; `fuel` as for `Cpu.retireLoop`.
Models: src/t86/cpu/reservation_station.cpp:30-40. -/
def retireLoop (cfg : Cfg) : Nat → Machine → Res Machine
  | 0, s => .ok s
  | n + 1, s =>
    match s.cpu.entries with
    | [] => .ok s
    | e :: es =>
      if e.st = .retiring then do
        let s1 : Machine := { s with
          ids := s.ids.tail
          log := match s.ids.head? with
            | some id => s.log.upd (Tick.retire id)
            | none => s.log }
        let c ← Cpu.retireEntry cfg { s.cpu with entries := es } e
        let regs ← Cpu.dropTables c.regs e
        retireLoop cfg n (s1.sync { c with regs := regs })
      else .ok s

/-- The start of a tick, up to and including `executeAndRetire`. Models: src/t86/cpu.cpp:14-26,
src/t86/cpu/reservation_station.cpp:11-41. -/
def tickRetire (cfg : Cfg) (s : Machine) : Res Machine := do
  let ram := s.cpu.ram.tick
  let x ← Cpu.execLoop cfg (s.cpu.regs, s.cpu.wm.removeFinished ram) s.cpu.freeAlus s.cpu.entries
  retireLoop cfg x.1.length { s with
    cpu := { s.cpu with intr := 0, ram := ram, entries := x.1, regs := x.2.1.1, wm := x.2.1.2, freeAlus := x.2.2 }
    log := s.log.newTick }

/-- What one pass of the loop of `fetchAndStartExecution` records about its entry, given its state before the pass and after
it. Models: src/t86/cpu/reservation_station.cpp:47-48 (preparing), 115-122 (no ALU is free), 125-134 (executing), 135-139
(waiting for its predecessors to retire). -/
def Tick.pass (before after : EState) (id : Nat) (t : Tick) : Tick :=
  match before with
  | .preparing => t.prepare id
  | .ready => if after = .ready then { t with noAlu := t.noAlu ++ [id] } else { t with executing := t.executing ++ [id] }
  | .executing => { t with executing := t.executing ++ [id] }
  | .retiring => { t with waiting := t.waiting ++ [id] }

/-- What the loop of `fetchAndStartExecution` records.
Models: src/t86/cpu/reservation_station.cpp:43-142. -/
def Tick.passes : List Entry → List Entry → List Nat → Tick → Tick
  | b :: bs, a :: as, id :: ids, t => Tick.passes bs as ids (t.pass b.st a.st id)
  | _, _, _, t => t

/-- Models: src/t86/cpu.cpp:48 and what is recorded there. -/
def fetchAndStart (cfg : Cfg) (s : Machine) : Res Machine := do
  let c ← Cpu.fetchAndStart cfg s.cpu
  return { s with cpu := c, log := s.log.upd (Tick.passes s.cpu.entries c.entries s.ids) }

/-- Models: src/t86/cpu.cpp:50-55, src/t86/cpu/reservation_station.cpp:176-184. -/
def decodeStage (cfg : Cfg) (s : Machine) : Res Machine := do
  let c ← Cpu.decodeStage cfg s.cpu
  match s.cpu.decode, c.decode, s.decodeId with
  | some _, none, some id =>
      return { s with cpu := c, decodeId := none, ids := s.ids ++ [id], log := s.log.upd (Tick.prepare id) }
  | _, _, _ => return { s with cpu := c }

/-- Models: src/t86/cpu.cpp:57-60. -/
def shiftStage (s : Machine) : Machine :=
  match s.cpu.decode with
  | none => { s with cpu := Cpu.shiftStage s.cpu, decodeId := s.fetchId, fetchId := none }
  | some _ => { s with cpu := Cpu.shiftStage s.cpu }

/-- Models: src/t86/cpu.cpp:62-64, 74-85. -/
def fetchStage (s : Machine) : Machine :=
  match s.cpu.fetch with
  | some _ => { s with cpu := Cpu.fetchStage s.cpu }
  | none =>
    { s with
      cpu := Cpu.fetchStage s.cpu
      fetchId := some s.log.next
      log := s.log.register s.cpu.spc (fetchAt s.cpu.prog s.cpu.spc) }

/-- Models: src/t86/cpu.cpp:65-70, src/t86/utils/stats_logger.cpp:11-17 (`logInstructionFetch`, `logInstructionDecode`). -/
def logFront (s : Machine) : Machine :=
  { s with log := s.log.upd fun t =>
      { t with
        fetch := match s.fetchId with
          | some id => some id
          | none => t.fetch
        decode := match s.decodeId with
          | some id => some id
          | none => t.decode } }

/-- The rest of a tick that is not interrupted. Models: src/t86/cpu.cpp:48-71. -/
def tickFront (cfg : Cfg) (s : Machine) : Res Machine := do
  let s ← fetchAndStart cfg s
  let s ← decodeStage cfg s
  return logFront (fetchStage (shiftStage s))

/-- Models: src/t86/cpu.cpp:13-72 (`Cpu::tick`). -/
def tick (cfg : Cfg) (s : Machine) : Res Machine := do
  let s ← tickRetire cfg s
  if s.cpu.halted then return s
  else
    let s1 : Machine := { s with cpu := Cpu.stepInterrupt s.cpu }
    if s1.cpu.intr ≠ 0 then return s1
    else tickFront cfg s1

/-- `n` ticks, stopping at a halt. Models: the loop in src/t86/os.cpp:32-54 without a debugger. -/
def run (cfg : Cfg) : Nat → Machine → Res Machine
  | 0, s => .ok s
  | n + 1, s => if s.cpu.halted then .ok s else do
      let s ← tick cfg s
      run cfg n s

/-- The machine at the start of a program. -/
def init (cfg : Cfg) (prog : List Instr) (data : List Word) (inp : List (BitVec 8)) : Machine :=
  { cpu := Cpu.init cfg prog data inp }

/-- How many ticks an instruction spent where.
Models: src/t86/utils/stats_logger.h:81-92 (`InstructionLifeTime`), except for the stalls of operands. -/
structure LifeTime where
  fetch : Nat := 0
  decode : Nat := 0
  preparing : Nat := 0
  noAlu : Nat := 0
  executing : Nat := 0
  waiting : Nat := 0
  retirement : Nat := 0
  deriving DecidableEq, Repr

/-- Models: src/t86/utils/stats_logger.h:94-96 (`totalTime`). -/
def LifeTime.total (l : LifeTime) : Nat :=
  l.fetch + l.decode + l.preparing + l.noAlu + l.executing + l.waiting + l.retirement

/-- One of the loops: the number of ticks passed over, and the rest. -/
def count (p : Tick → Bool) (ts : List Tick) : Nat × List Tick := ((ts.takeWhile p).length, ts.dropWhile p)

/-- `none` if an assertion fails. Models: src/t86/utils/stats_logger.cpp:171-228 (`getInstructionLifeTime`). -/
def lifeTime (ticks : List Tick) (id : Nat) : Option LifeTime :=
  match ticks.dropWhile fun t => t.fetch != some id with
  | [] => none
  | ts =>
    let f := count (fun t => t.fetch == some id) ts
    let d := count (fun t => t.decode == some id) f.2
    let p := count (fun t => t.preparing.contains id) d.2
    let n := count (fun t => t.noAlu.contains id) p.2
    let x := count (fun t => t.executing.contains id) n.2
    let w := count (fun t => t.waiting.contains id) x.2
    match w.2 with
    | [] => none
    | t :: _ => if t.retired.contains id then some ⟨f.1, d.1, p.1, n.1, x.1, w.1, 1⟩ else none

/-- The life times of all instructions, `none` if an assertion fails. Models: src/t86/utils/stats_logger.cpp:46-49, 71-74. -/
def lifeTimes (l : Log) : Option (List LifeTime) := l.instrs.mapM fun r => lifeTime l.ticks r.id

/-- Models: src/t86/utils/stats_logger.h:98-117 (`operator +=`). -/
def LifeTime.plus (x y : LifeTime) : LifeTime :=
  ⟨x.fetch + y.fetch, x.decode + y.decode, x.preparing + y.preparing, x.noAlu + y.noAlu, x.executing + y.executing, x.waiting + y.waiting,
    x.retirement + y.retirement⟩

/-- Models: src/t86/utils/stats_logger.cpp:45-53 (`accumulativeInstructionLifeTime`). -/
def accumulate (ls : List LifeTime) : LifeTime := ls.foldl LifeTime.plus {}

/-- The averages shown, each before the division by `count`. Models: src/t86/utils/stats_logger.cpp:125-129, 156-159
(`processAverageLifetime`); the subtraction is one of `std::size_t`. -/
structure Averages where
  count : Nat
  lifetime : Nat
  fetchStalls : Word
  decodeStalls : Word
  noAlu : Nat
  executing : Nat
  waiting : Nat
  retirement : Nat
  deriving DecidableEq, Repr

/-- Models: src/t86/utils/stats_logger.cpp:125-160 (`processAverageLifetime`). -/
def averages (l : LifeTime) (count : Nat) : Averages :=
  ⟨count, l.total, BitVec.ofNat 64 l.fetch - 1, BitVec.ofNat 64 l.decode - 1, l.noAlu, l.executing, l.waiting, l.retirement⟩

/-- What `processBasicStats` shows: the number of ticks, the number of instructions and the averages; `none` if an assertion fails.
Models: src/t86/utils/stats_logger.cpp:40-63. -/
def basicStats (l : Log) : Option (Nat × Nat × Averages) := do
  let ls ← lifeTimes l
  return (l.ticks.length, l.instrs.length, averages (accumulate ls) l.instrs.length)

end Stats
end T86
