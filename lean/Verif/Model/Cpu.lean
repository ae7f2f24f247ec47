import Verif.Model.Instr
import Verif.Model.Writes

/-! # The pipelined processor: src/t86/cpu.cpp, src/t86/cpu/reservation_station.cpp,
src/t86/cpu/register_allocation_table.cpp

Statistics (`StatsLogger`) and log messages have no influence on the machine state and are not modelled. The state in
which an exception leaves the processor is not modelled either: `OS::Run` (src/t86/os.cpp:33-39) reports the error and
stops. -/

namespace T86

/-- Models: src/t86/cpu.h:273-277 (`RegisterValue`). -/
structure PReg where
  value : Word
  ready : Bool
  subs : Nat
  deriving DecidableEq, Repr

/-- The register file, indexed by physical register. Models: src/t86/cpu.h:280 (`registers_`). -/
abbrev Regs := List PReg

/-- A register allocation table: physical register by key position (`Cfg.key`).
Models: src/t86/cpu/register_allocation_table.h (`table_`). Simplification: the key set never changes after
construction (`rename` refuses unknown registers), so the map is the list of its values. -/
abbrev Rat := List Nat

/-- Models: src/t86/cpu/register_allocation_table.cpp:11-25 (constructor). The physical index `nreg + nfreg` is skipped
by the pre-increments on lines 20-23. -/
def Rat.init (cfg : Cfg) : Rat :=
  List.range (cfg.nreg + cfg.nfreg) ++
    [cfg.nreg + cfg.nfreg + 1, cfg.nreg + cfg.nfreg + 2, cfg.nreg + cfg.nfreg + 3, cfg.nreg + cfg.nfreg + 4]

/-- Models: src/t86/cpu/register_allocation_table.cpp:97-103 (`translate`, `map::at`). -/
def Rat.translate (cfg : Cfg) (t : Rat) (r : LReg) : Res Nat :=
  match cfg.key r with
  | none => .error (.exn .outOfRange)
  | some k => match t[k]? with
    | none => .error (.exn .outOfRange)
    | some p => .ok p

/-- Models: src/t86/cpu/register_allocation_table.cpp:105-109 (`isUnmapped`). -/
def Rat.isUnmapped (t : Rat) (p : Nat) : Bool := t.all (· != p)

namespace Regs

/-- Models: `registers_.at(i)` (src/t86/cpu.cpp:96,100,160,262,286). -/
def get (rs : Regs) (p : Nat) : Res PReg :=
  match rs[p]? with
  | some r => .ok r
  | none => .error (.exn .outOfRange)

/-- Models: src/t86/cpu.cpp:160-168 (`setRegister(PhysicalRegister, ...)`). -/
def write (rs : Regs) (p : Nat) (v : Word) : Res Regs := do
  let r ← rs.get p
  return rs.set p { r with value := v, ready := true }

/-- Models: src/t86/cpu.cpp:285-287 (`subscribeRegisterRead`). -/
def subscribe (rs : Regs) (p : Nat) : Res Regs := do
  let r ← rs.get p
  return rs.set p { r with subs := r.subs + 1 }

/-- Models: src/t86/cpu.cpp:289-292 (`unsubscribeRegisterRead`). -/
def unsubscribe (rs : Regs) (p : Nat) : Res Regs := do
  let r ← rs.get p
  if r.subs = 0 then .error .abort else return rs.set p { r with subs := r.subs - 1 }

/-- Models: src/t86/cpu/register_allocation_table.cpp:41-45 (`subscribeToReads`). -/
def subscribeAll (rs : Regs) (t : Rat) : Res Regs := t.foldlM subscribe rs

/-- Models: src/t86/cpu/register_allocation_table.cpp:47-51 (`unsubscribeFromReads`). -/
def unsubscribeAll (rs : Regs) (t : Rat) : Res Regs := t.foldlM unsubscribe rs

end Regs

/-- Models: src/t86/cpu/reservation_station.h:65-67 (`Entry::State`). -/
inductive EState
  | preparing | ready | executing | retiring
  deriving DecidableEq, Repr

/-- Models: src/t86/cpu/reservation_station.h:160-178 (data members of `Entry`). `exc` tells whether
`memoryAccessException_` is set (always the `std::out_of_range` of `RAM::read`). -/
structure Entry where
  instr : Instr
  ops : List Operand
  rrat : Rat
  wrat : Rat
  wids : List Nat
  maxW : Nat
  st : EState
  rem : Nat
  exc : Bool
  deriving DecidableEq, Repr

/-- Models: src/t86/cpu.h:257-261 (`InstructionEntry`): the instruction and the address after it. -/
structure Fetched where
  instr : Instr
  nextPc : Word
  deriving DecidableEq, Repr

/-- Models: src/t86/cpu.h:230-310 (data members of `Cpu`) together with the reservation station
(src/t86/cpu/reservation_station.h:42-50) and the streams of the I/O instructions. `retired` is a ghost counter of
retired instructions, not present in the C++. The branch predictor has no state (naive_branch_predictor.cpp:14-16). -/
structure Cpu where
  prog : List Instr
  spc : Word
  fetch : Option Fetched
  decode : Option Fetched
  regs : Regs
  entries : List Entry
  freeAlus : Nat
  dbg : List Word
  rat : Rat
  ram : Ram
  wm : Writes
  preds : List Word
  halted : Bool
  stepped : Bool
  intr : Nat
  trap : Bool
  out : List Out
  inp : List (BitVec 8)
  retired : Nat
  deriving DecidableEq, Repr

/-- Models: src/t86/program.cpp:5-11 (`Program::at`). -/
def fetchAt (prog : List Instr) (pc : Word) : Instr := prog.getD pc.toNat .nop

namespace Cpu

variable (cfg : Cfg)

/-- Models: src/t86/cpu.cpp:120-138 (constructor): every logical register is set, so it is ready. -/
def initRegs : Regs :=
  (List.range cfg.nphys).map fun p =>
    if p ∈ Rat.init cfg then
      { value := if p = cfg.nreg + cfg.nfreg + 2 ∨ p = cfg.nreg + cfg.nfreg + 3 then BitVec.ofNat 64 cfg.ramSize else 0
        ready := true, subs := 1 }
    else { value := 0, ready := false, subs := 0 }

/-- Models: src/t86/cpu.cpp:120-138 (constructor) followed by 170-176 (`start`), for a program whose data fits in the
memory (`data.length ≤ ramSize`, otherwise `setMemory` throws). -/
def init (prog : List Instr) (data : List Word) (inp : List (BitVec 8)) : Cpu :=
  { prog := prog, spc := 0, fetch := none, decode := none, regs := initRegs cfg, entries := [], freeAlus := cfg.alus
    dbg := List.replicate 5 0, rat := Rat.init cfg
    ram := { Ram.init cfg.ramSize cfg.gates with mem := data ++ List.replicate (cfg.ramSize - data.length) 0 }
    wm := Writes.init, preds := [], halted := false, stepped := false, intr := 0, trap := false, out := [], inp := inp
    retired := 0 }

/-- Models: src/t86/cpu.cpp:194-210 (`readMemory`). -/
def readMemory (wm : Writes) (ram : Ram) (a : Word) (maxId : Nat) : Res (Option Word × Ram) :=
  if wm.hasUnspecified maxId then .ok (none, ram)
  else match wm.previousWrite a maxId with
    | some w => .ok (w.value, ram)
    | none => ram.read a

/-- Models: src/t86/cpu/reservation_station.cpp:340-355 (`Entry::readMemory`). The third component tells that an
exception was stored. Only exceptions are caught, not failed assertions. -/
def entryReadMemory (wm : Writes) (ram : Ram) (a : Word) (maxId : Nat) : Res (Option Word × Ram × Bool) :=
  match readMemory wm ram a maxId with
  | .ok (v, ram') => .ok (v, ram', false)
  | .error (.exn _) => .ok (some (-1), ram, true)
  | .error f => .error f

/-- The "very hacky" second lookup for the statistics, made while the first register of an operand is not ready: a copy of
the operand gets 0, and the register it then needs is looked up. It changes nothing but throws if there is no such register.
Models: src/t86/cpu/reservation_station.cpp:62-78. -/
def peekStall (regs : Regs) (rrat : Rat) (op : Operand) : Res Unit := do
  let op' ← op.supply cfg.mode 0
  if op'.isFetched then return ()
  else do
    let q ← op'.requirement
    match q with
    | .reg r => do
        let p ← rrat.translate cfg (.int r)
        let _ ← regs.get p
        return ()
    | _ => return ()

/-- One pass of the loop body `while(!operand.isFetched())`: `none` when the operand has to wait.
Models: src/t86/cpu/reservation_station.cpp:52-108. -/
def fetchStep (regs : Regs) (wm : Writes) (rrat : Rat) (maxW : Nat) (ram : Ram) (op : Operand) :
    Res (Option Operand × Ram × Bool) := do
  let q ← op.requirement
  match q with
  | .reg r => do
      let p ← rrat.translate cfg (.int r)
      let x ← regs.get p
      if x.ready then do
        let op' ← op.supply cfg.mode x.value
        return (some op', ram, false)
      else do
        let _ ← peekStall cfg regs rrat op
        return (none, ram, false)
  | .freg f => do
      let p ← rrat.translate cfg (.flt f)
      let x ← regs.get p
      if x.ready then do
        let op' ← op.supplyFloat x.value
        return (some op', ram, false)
      else return (none, ram, false)
  | .mem a => do
      let y ← entryReadMemory wm ram a maxW
      match y.1 with
      | some v => do
          let op' ← op.supply cfg.mode v
          return (some op', y.2.1, y.2.2)
      | none => return (none, y.2.1, y.2.2)

/-- The loop `while(!operand.isFetched())` for one operand, with `fuel` a bound on the number of passes (`Operand.steps`
always suffices). Models: src/t86/cpu/reservation_station.cpp:52-108. -/
def fetchOperand (regs : Regs) (wm : Writes) (rrat : Rat) (maxW : Nat) : Nat → Ram → Bool → Operand →
    Res (Operand × Ram × Bool)
  | 0, ram, exc, op => .ok (op, ram, exc)
  | n + 1, ram, exc, op =>
    if op.isFetched then .ok (op, ram, exc)
    else do
      let y ← fetchStep cfg regs wm rrat maxW ram op
      match y.1 with
      | some op' => fetchOperand regs wm rrat maxW n y.2.1 (exc || y.2.2) op'
      | none => return (op, y.2.1, exc || y.2.2)

/-- The loop over the operands of an entry. Models: src/t86/cpu/reservation_station.cpp:50-109. -/
def fetchOperands (regs : Regs) (wm : Writes) (rrat : Rat) (maxW : Nat) (ram : Ram) (exc : Bool) :
    List Operand → Res (List Operand × Ram × Bool)
  | [] => .ok ([], ram, exc)
  | op :: ops => do
      let x ← fetchOperand cfg regs wm rrat maxW op.steps ram exc op
      let y ← fetchOperands regs wm rrat maxW x.2.1 x.2.2 ops
      return (x.1 :: y.1, y.2.1, y.2.2)

/-- Models: src/t86/cpu/reservation_station.cpp:298-303 (`checkReady`). -/
def checkReady (e : Entry) : Entry :=
  if e.ops.all Operand.isFetched then { e with st := .ready } else e

/-- One entry of the loop in `fetchAndStartExecution`. Models: src/t86/cpu/reservation_station.cpp:46-141. -/
def fetchStartEntry (regs : Regs) (wm : Writes) (ram : Ram) (freeAlus : Nat) (e : Entry) :
    Res (Entry × Ram × Nat) :=
  match e.st with
  | .preparing => do
      let x ← fetchOperands cfg regs wm e.rrat e.maxW ram e.exc e.ops
      return (checkReady { e with ops := x.1, exc := x.2.2 }, x.2.1, freeAlus)
  | .ready =>
      if e.instr.needsAlu then
        if freeAlus = 0 then .ok (e, ram, freeAlus)
        else .ok ({ e with st := .executing }, ram, freeAlus - 1)
      else .ok ({ e with st := .executing }, ram, freeAlus)
  | .executing => .ok (e, ram, freeAlus)
  | .retiring => .ok (e, ram, freeAlus)

/-- Models: src/t86/cpu/reservation_station.cpp:43-142 (`fetchAndStartExecution`), the loop. -/
def fetchStartLoop (regs : Regs) (wm : Writes) (ram : Ram) (freeAlus : Nat) :
    List Entry → Res (List Entry × Ram × Nat)
  | [] => .ok ([], ram, freeAlus)
  | e :: es => do
      let x ← fetchStartEntry cfg regs wm ram freeAlus e
      let y ← fetchStartLoop regs wm x.2.1 x.2.2 es
      return (x.1 :: y.1, y.2)

/-- Models: src/t86/cpu/reservation_station.cpp:43-142 (`fetchAndStartExecution`). -/
def fetchAndStart (c : Cpu) : Res Cpu := do
  let x ← fetchStartLoop cfg c.regs c.wm c.ram c.freeAlus c.entries
  return { c with entries := x.1, ram := x.2.1, freeAlus := x.2.2 }

/-- A write to a logical register by an entry.
Models: src/t86/cpu/reservation_station.cpp:214-221 (`Entry::setRegister`, `Entry::setFloatRegister`). -/
def setReg (wrat : Rat) (regs : Regs) (r : LReg) (v : Word) : Res Regs := do
  let p ← wrat.translate cfg r
  let x ← regs.get p
  match r with
  | .int .pc => regs.write p v
  | .int _ => if x.ready then .error .abort else regs.write p v
  | .flt _ => regs.write p v

/-- One call made by `execute`. Models: src/t86/cpu/reservation_station.cpp:214-251,357-363. -/
def applyAct (wrat : Rat) (wids : List Nat) (s : Regs × Writes) (a : Act) : Res (Regs × Writes) :=
  match a with
  | .set r v => do
      let regs ← setReg cfg wrat s.1 r v
      return (regs, s.2)
  | .specifyAddress a =>
      match wids with
      | [id] => do
          let q ← s.2.specifyAddress id a
          return (s.1, q)
      | _ => .error .abort
  | .setValue v =>
      match wids with
      | [id] => do
          let q ← s.2.setValue id v
          return (s.1, q)
      | _ => .error .abort

/-- The values of fetched operands, `none` if one is not fetched (`Operand::getValue` asserts). -/
def values (ops : List Operand) : Option (List Word) := ops.mapM Operand.getValue

/-- `instruction_->execute(*this)`. Models: src/t86/cpu/reservation_station.cpp:278. -/
def execute (s : Regs × Writes) (e : Entry) : Res (Entry × (Regs × Writes)) :=
  match values e.ops with
  | none => .error .abort
  | some vs => do
      let x ← e.instr.exec cfg vs
      let s' ← x.acts.foldlM (applyAct cfg e.wrat e.wids) s
      return ({ e with ops := e.ops ++ x.extra }, s')

/-- One entry of the first loop of `executeAndRetire`.
Models: src/t86/cpu/reservation_station.cpp:14-21, 270-283 (`executionTick`). -/
def execEntry (s : Regs × Writes) (freeAlus : Nat) (e : Entry) : Res (Entry × (Regs × Writes) × Nat) :=
  match e.st with
  | .executing =>
      if e.rem - 1 = 0 then do
        let x ← execute cfg s { e with rem := e.rem - 1 }
        return ({ x.1 with st := .retiring }, x.2, if e.instr.needsAlu then freeAlus + 1 else freeAlus)
      else .ok ({ e with rem := e.rem - 1 }, s, freeAlus)
  | .preparing => .ok (e, s, freeAlus)
  | .ready => .ok (e, s, freeAlus)
  | .retiring => .ok (e, s, freeAlus)

/-- Models: src/t86/cpu/reservation_station.cpp:13-22 (first loop of `executeAndRetire`). -/
def execLoop (s : Regs × Writes) (freeAlus : Nat) : List Entry → Res (List Entry × (Regs × Writes) × Nat)
  | [] => .ok ([], s, freeAlus)
  | e :: es => do
      let x ← execEntry cfg s freeAlus e
      let y ← execLoop x.2.1 x.2.2 es
      return (x.1 :: y.1, y.2)

/-- The destructors of the two tables of an entry.
Models: src/t86/cpu/register_allocation_table.cpp:37-39 for `writeRat_` and `readRat_`. -/
def dropTables (regs : Regs) (e : Entry) : Res Regs := do
  let r1 ← regs.unsubscribeAll e.wrat
  r1.unsubscribeAll e.rrat

/-- Models: src/t86/cpu/reservation_station.cpp:187-195 (`clear`). -/
def clearStation (c : Cpu) : Res Cpu := do
  let regs ← c.entries.foldlM dropTables c.regs
  return { c with
    regs := regs
    entries := []
    freeAlus := c.freeAlus + c.entries.countP fun e => e.st = .executing ∧ e.instr.needsAlu }

/-- Models: src/t86/cpu.cpp:315-327 (`flushPipeline`). -/
def flushPipeline (c : Cpu) : Res Cpu := do
  let c ← clearStation c
  return { c with preds := [], fetch := none, decode := none }

/-- Models: src/t86/cpu/register_allocation_table.cpp:53-67 (`operator=`). -/
def assignRat (c : Cpu) (t : Rat) : Res Cpu := do
  let r1 ← c.regs.unsubscribeAll c.rat
  let r2 ← r1.subscribeAll t
  return { c with regs := r2, rat := t }

/-- The value of a logical register through a table. Models: src/t86/cpu.cpp:87-102 (`getRegister`, `getFloatRegister`). -/
def readReg (regs : Regs) (t : Rat) (r : LReg) : Res Word := do
  let p ← t.translate cfg r
  let x ← regs.get p
  return x.value

/-- Models: src/t86/cpu.cpp:329-339 (`unrollSpeculation`). -/
def unroll (c : Cpu) (t : Rat) : Res Cpu := do
  let c ← flushPipeline c
  let c ← assignRat c t
  let pc ← readReg cfg c.regs c.rat (.int .pc)
  return { c with spc := pc, wm := c.wm.removePending }

/-- Sets byte 1 of the debug control register to the bit of debug register `i`, clearing the others.
Models: src/t86/cpu.cpp:456 (little-endian `reinterpret_cast<uint8_t*>(&control_reg)[1] = 1 << i`). -/
def markHit (control : Word) (i : Nat) : Word :=
  (control &&& ~~~(0xFF00 : Word)) ||| (BitVec.ofNat 64 (1 <<< i) <<< (8 : Nat))

/-- One pass of the loop in `checkWrite`; the state is the debug registers and the interrupt code.
Models: src/t86/cpu.cpp:450-459. -/
def checkWriteStep (a : Word) (s : List Word × Nat) (i : Nat) : List Word × Nat :=
  if (s.1.getD 4 0) &&& BitVec.ofNat 64 (1 <<< i) = 0 then s
  else if s.1.getD i 0 = a then (s.1.set 4 (markHit (s.1.getD 4 0) i), 2)
  else s

/-- Models: src/t86/cpu.cpp:448-461 (`checkWrite`). -/
def checkWrite (c : Cpu) (a : Word) : Cpu :=
  let s := (List.range 4).foldl (checkWriteStep a) (c.dbg, c.intr)
  { c with dbg := s.1, intr := s.2 }

/-- Models: src/t86/cpu.cpp:212-216 (`writeMemory`). -/
def writeMemory (c : Cpu) (id : Nat) : Res Cpu := do
  let w ← c.wm.getWrite id
  let x ← c.wm.startWriting id c.ram
  return checkWrite { c with wm := x.1, ram := x.2 } w.addr

/-- The write of a retiring store: there must be exactly one id (src/t86/instruction.cpp:323-325,504-508,538-541,572-578). -/
def retireStore (c : Cpu) (e : Entry) : Res Cpu :=
  match e.wids with
  | [id] => writeMemory c id
  | _ => .error .abort

/-- Models: src/t86/cpu.cpp:235-260 (`jump`, `checkBranchPrediction`); `registerBranchTaken`/`NotTaken` do nothing. -/
def processJump (c : Cpu) (e : Entry) : Res Cpu := do
  let dest ← readReg cfg c.regs e.wrat (.int .pc)
  let p ← e.rrat.translate cfg (.int .pc)
  let x ← c.regs.get p
  if !x.ready then .error .abort
  else match c.preds with
    | [] => .error .abort
    | q :: qs =>
      if q = dest then return { c with preds := qs }
      else unroll cfg { c with preds := qs } e.wrat

/-- C++ `isspace` in the "C" locale, used by `is >> c`. -/
def isSpace (b : BitVec 8) : Bool := b = 32 || (9 ≤ b.toNat && b.toNat ≤ 13)

/-- `is_ >> c` on the remaining input: skips white space, `none` at the end of input (where the C++ then reads the
uninitialised `c`). Models: src/t86/instruction.cpp:722-723. -/
def readChar : List (BitVec 8) → Option (BitVec 8 × List (BitVec 8))
  | [] => none
  | b :: bs => if isSpace b then readChar bs else some (b, bs)

/-- A value of a fetched operand, by position (`operands[i].getValue()`). -/
def opValue (e : Entry) (i : Nat) : Res Word :=
  match e.ops[i]? with
  | some op => match op.getValue with
    | some v => .ok v
    | none => .error .abort
  | none => .error .abort

/-- Models the `retire` functions: src/t86/instruction.cpp:316-327 (MOV), 404-406 (CLF), 408-412 (conditional jumps),
422-426 (JMP), 500-504 (LOOP), 506-512 (PUSH), 535-541 (FPUSH), 549-551 (POP), 568-570 (FPOP), 572-579 (CALL), 592-596
(RET), 610-614 (BKPT), 616-619 (BREAK, no break handler connected: nothing in the repository connects one), 621-624
(HALT), 709-719 (PUTCHAR, PUTNUM), 721-725 (GETCHAR; `char` is signed). -/
def retireInstr (c : Cpu) (e : Entry) : Res Cpu :=
  match e.instr with
  | .mov (.val (.reg _)) _ => .ok c
  | .mov (.freg _) _ => .ok c
  | .mov _ _ => retireStore c e
  | .clf => do
      let regs ← setReg cfg e.wrat c.regs (.int .flags) (Alu.flagsToWord ⟨false, false, false, false⟩)
      return { c with regs := regs }
  | .jcc _ _ => processJump cfg c e
  | .jmp _ => processJump cfg c e
  | .loop _ _ => processJump cfg c e
  | .call _ => do
      let c ← retireStore c e
      processJump cfg c e
  | .ret => processJump cfg c e
  | .push _ => retireStore c e
  | .fpush _ => retireStore c e
  | .bkpt => do
      let c ← unroll cfg c e.wrat
      return { c with intr := 3 }
  | .brk => unroll cfg c e.wrat
  | .halt => do
      let c ← unroll cfg c e.wrat
      return { c with halted := true }
  | .putchar _ => do
      let v ← opValue e 0
      return { c with out := c.out ++ [.char (v.setWidth 8)] }
  | .putnum _ => do
      let v ← opValue e 0
      return { c with out := c.out ++ [.num (v.setWidth 32)] }
  | .getchar r =>
      match readChar c.inp with
      | none => .error .ub
      | some (b, rest) => do
          let regs ← setReg cfg e.wrat c.regs (.int r) (b.signExtend 64)
          return { c with regs := regs, inp := rest }
  | _ => .ok c

/-- Models: src/t86/cpu/reservation_station.cpp:305-320 (`Entry::retire`). -/
def retireEntry (c : Cpu) (e : Entry) : Res Cpu := do
  let c ← retireInstr cfg c e
  if e.exc then .error (.exn .outOfRange)
  else if c.trap then do
    let c ← unroll cfg c e.wrat
    return { c with stepped := true, retired := c.retired + 1 }
  else if c.intr ≠ 0 then do
    let c ← unroll cfg c e.wrat
    return { c with retired := c.retired + 1 }
  else return { c with retired := c.retired + 1 }

/-- The second loop of `executeAndRetire`; `fuel` bounds the number of retired entries (the station's size suffices).
Models: src/t86/cpu/reservation_station.cpp:30-40; the local `entry` is destroyed at the end of each pass. -/
def retireLoop : Nat → Cpu → Res Cpu
  | 0, c => .ok c
  | n + 1, c =>
    match c.entries with
    | [] => .ok c
    | e :: es =>
      if e.st = .retiring then do
        let c ← retireEntry cfg { c with entries := es } e
        let regs ← dropTables c.regs e
        retireLoop n { c with regs := regs }
      else .ok c

/-- Models: src/t86/cpu/reservation_station.cpp:11-41 (`executeAndRetire`). -/
def executeAndRetire (c : Cpu) : Res Cpu := do
  let x ← execLoop cfg (c.regs, c.wm) c.freeAlus c.entries
  retireLoop cfg x.1.length { c with entries := x.1, regs := x.2.1.1, wm := x.2.1.2, freeAlus := x.2.2 }

/-- Models: src/t86/cpu.cpp:306-313 (`nextFreeRegister`). -/
def nextFree (regs : Regs) (t : Rat) : Res Nat :=
  match (List.range cfg.nphys).find? fun i => t.isUnmapped i && (match regs[i]? with
      | some r => r.subs == 0
      | none => false) with
  | some i => .ok i
  | none => .error (.exn .runtimeError)

/-- Models: src/t86/cpu.cpp:294-304 (`renameRegister`, `renameFloatRegister`) with
src/t86/cpu/register_allocation_table.cpp:69-95 (`rename`). -/
def rename (s : Regs × Rat) (r : LReg) : Res (Regs × Rat) := do
  let p ← nextFree cfg s.1 s.2
  match cfg.key r with
  | none => .error (.exn .executionError)
  | some k => do
      let old ← s.2.translate cfg r
      let r1 ← s.1.unsubscribe old
      let r2 ← r1.subscribe p
      let x ← r2.get p
      return (r2.set p { x with ready := false }, s.2.set k p)

/-- State of the product loop in `add`: register file, table, pending writes, ids registered so far. -/
structure AddState where
  regs : Regs
  rat : Rat
  wm : Writes
  wids : List Nat

/-- One product. Models: src/t86/cpu/reservation_station.cpp:157-174. -/
def addProduct (s : AddState) (p : Product) : Res AddState :=
  match p with
  | .reg .pc => .ok s
  | .reg r => do
      let x ← rename cfg (s.regs, s.rat) (.int r)
      return { s with regs := x.1, rat := x.2 }
  | .freg i => do
      let x ← rename cfg (s.regs, s.rat) (.flt i)
      return { s with regs := x.1, rat := x.2 }
  | .memImm a =>
      let x := s.wm.registerAt a
      .ok { s with wm := x.2, wids := s.wids ++ [x.1] }
  | .memReg =>
      let x := s.wm.registerUnspecified
      .ok { s with wm := x.2, wids := s.wids ++ [x.1] }

/-- Models: src/t86/cpu/reservation_station.cpp:151-185 (`ReservationStation::add`). -/
def add (c : Cpu) (f : Fetched) : Res Cpu :=
  if c.entries.length < cfg.rsMax then do
    let x ← rename cfg (c.regs, c.rat) (.int .pc)
    let p ← x.2.translate cfg (.int .pc)
    let r1 ← x.1.write p f.nextPc
    let r2 ← r1.subscribeAll x.2
    let prods ← f.instr.produces
    let s ← prods.foldlM (addProduct cfg) ⟨r2, x.2, c.wm, []⟩
    let r3 ← s.regs.subscribeAll s.rat
    let ops ← f.instr.operands
    let e : Entry := checkReady
      { instr := f.instr, ops := ops, rrat := x.2, wrat := s.rat, wids := s.wids, maxW := s.wm.cur, st := .preparing
        rem := f.instr.execLength, exc := false }
    return { c with regs := r3, rat := s.rat, wm := s.wm, entries := c.entries ++ [e] }
  else .error .abort

/-- Models: src/t86/cpu.cpp:50-55. -/
def decodeStage (c : Cpu) : Res Cpu :=
  match c.decode with
  | none => .ok c
  | some f =>
    if c.entries.length < cfg.rsMax then do
      let c ← add cfg c f
      return { c with decode := none }
    else .ok c

/-- Models: src/t86/cpu.cpp:57-60. -/
def shiftStage (c : Cpu) : Cpu :=
  match c.decode with
  | none => { c with decode := c.fetch, fetch := none }
  | some _ => c

/-- Models: src/t86/cpu.cpp:74-85 (`fetchInstruction`) as called on lines 62-64. -/
def fetchStage (c : Cpu) : Cpu :=
  match c.fetch with
  | some _ => c
  | none =>
    let i := fetchAt c.prog c.spc
    match i.jumpDest with
    | some d =>
      { c with fetch := some ⟨i, c.spc + 1⟩, spc := nextGuess c.spc d, preds := c.preds ++ [nextGuess c.spc d] }
    | none => { c with fetch := some ⟨i, c.spc + 1⟩, spc := c.spc + 1 }

/-- The start of a tick, up to and including `executeAndRetire`. Models: src/t86/cpu.cpp:14-26. -/
def tickRetire (c : Cpu) : Res Cpu :=
  let ram := c.ram.tick
  executeAndRetire cfg { c with intr := 0, ram := ram, wm := c.wm.removeFinished ram }

/-- Turning a finished single step into interrupt 1. Models: src/t86/cpu.cpp:32-40. -/
def stepInterrupt (c : Cpu) : Cpu :=
  if c.stepped then { c with stepped := false, intr := if c.intr = 0 then 1 else c.intr } else c

/-- The rest of a tick that is not interrupted. Models: src/t86/cpu.cpp:48-64. -/
def tickFront (c : Cpu) : Res Cpu := do
  let c ← fetchAndStart cfg c
  let c ← decodeStage cfg c
  return fetchStage (shiftStage c)

/-- Models: src/t86/cpu.cpp:13-72 (`Cpu::tick`). -/
def tick (c : Cpu) : Res Cpu := do
  let c ← tickRetire cfg c
  if c.halted then return c
  else
    let c := stepInterrupt c
    if c.intr ≠ 0 then return c
    else tickFront cfg c

/-- `n` ticks, stopping at a halt. Models: the loop in src/t86/os.cpp:32-54 without a debugger. -/
def run : Nat → Cpu → Res Cpu
  | 0, c => .ok c
  | n + 1, c => if c.halted then .ok c else do
      let c ← tick cfg c
      run n c

end Cpu
end T86
