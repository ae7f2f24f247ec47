import Verif.Model.Cpu
import Verif.Lemmas.Effect
import Mathlib.Tactic.Common

/-! The invariant that relates the pipeline to the sequential machine. -/

set_option linter.unusedSimpArgs false
set_option linter.unusedVariables false

namespace T86
open Isa

/-- Undefined behaviour, where it is possible. -/
def HostUb (cfg : Cfg) (prog : List Instr) (f : Fault) : Prop := f = .ub ∧ UbPossible cfg prog

/-! ## Keys -/

/-- The key of IP. -/
def Cfg.pcK (cfg : Cfg) : Nat := cfg.nreg + cfg.nfreg

section
variable {cfg : Cfg}

theorem key_pc : cfg.key (.int .pc) = some cfg.pcK := rfl

theorem key_inj {r r' : LReg} {k : Nat} (h : cfg.key r = some k) (h' : cfg.key r' = some k) : r = r' := by
  unfold Cfg.key at h h'
  split at h <;> split at h' <;> simp_all <;> omega

theorem key_lt {r : LReg} {k : Nat} (h : cfg.key r = some k) : k < cfg.nkeys := by
  unfold Cfg.key at h
  unfold Cfg.nkeys
  split at h <;> simp_all <;> omega

theorem key_ne_pcK {r : LReg} {k : Nat} (h : cfg.key r = some k) (hr : r ≠ .int .pc) : k ≠ cfg.pcK := by
  rintro rfl
  exact hr (key_inj h key_pc)

theorem pcK_lt : cfg.pcK < cfg.nkeys := key_lt key_pc
end

/-- The keys whose physical register an instruction replaces. -/
def freshKeys (cfg : Cfg) (i : Instr) : List Nat := cfg.pcK :: (regProds i).filterMap cfg.key

/-! ## Register cells -/

/-- The physical register holds the value `v`. -/
def CellVal (regs : Regs) (p : Nat) (v : Word) : Prop := ∃ c, regs[p]? = some c ∧ c.ready = true ∧ c.value = v

/-- The physical register waits for a value. -/
def CellBusy (regs : Regs) (p : Nat) : Prop := ∃ c, regs[p]? = some c ∧ c.ready = false

/-- What an observer of values sees in a cell. -/
def cellView (regs : Regs) (p : Nat) : Option (Word × Bool) := regs[p]?.map fun c => (c.value, c.ready)

theorem cellVal_iff {regs : Regs} {p : Nat} {v : Word} : CellVal regs p v ↔ cellView regs p = some (v, true) := by
  unfold CellVal cellView
  constructor
  · rintro ⟨c, h, h1, h2⟩; simp [h, h1, h2]
  · intro h
    cases hc : regs[p]? with
    | none => simp [hc] at h
    | some c => simp [hc] at h; exact ⟨c, rfl, h.2, h.1⟩

theorem cellBusy_iff {regs : Regs} {p : Nat} : CellBusy regs p ↔ ∃ v, cellView regs p = some (v, false) := by
  unfold CellBusy cellView
  constructor
  · rintro ⟨c, h, h1⟩; exact ⟨c.value, by simp [h, h1]⟩
  · rintro ⟨v, h⟩
    cases hc : regs[p]? with
    | none => simp [hc] at h
    | some c => simp [hc] at h; exact ⟨c, rfl, h.2⟩

theorem CellVal.congr {regs regs' : Regs} {p : Nat} {v : Word} (h : CellVal regs p v)
    (hs : cellView regs' p = cellView regs p) : CellVal regs' p v := by
  rw [cellVal_iff] at h ⊢; rw [hs]; exact h

theorem CellBusy.congr {regs regs' : Regs} {p : Nat} (h : CellBusy regs p)
    (hs : cellView regs' p = cellView regs p) : CellBusy regs' p := by
  rw [cellBusy_iff] at h ⊢; rw [hs]; exact h

/-! ## Memory write records -/

/-- The record of a write, without the validity of its reference. -/
def Writes.recOf (q : Writes) (id : Nat) : Option (Word × Option Word × Option Nat) :=
  (q.ws.find? (·.id == id)).map fun w => (w.addr, w.value, w.ramId)

/-- The records handed over to the RAM. -/
def Writes.outs (q : Writes) : List (Nat × Word × Option Word × Option Nat) :=
  (q.ws.filter (·.ramId.isSome)).map fun w => (w.id, w.addr, w.value, w.ramId)

/-- Everything the proof needs about a context of an entry. -/
structure Ctx where
  prog : List Instr
  regs : Regs
  wm : Writes
  own : Nat → Nat × Nat

def predict (pc : Word) (i : Instr) : Word :=
  match i.jumpDest with
  | some d => nextGuess pc d
  | none => pc + 1

/-- The state after an instruction as the front end expects it. -/
def specNext (cfg : Cfg) (S : State) (i : Instr) : State := { dataStep cfg S i with pc := predict S.pc i }

/-- The relation of the two tables of an entry to the table `b` before it. -/
structure TabOK (cfg : Cfg) (b : Rat) (e : Entry) : Prop where
  lenr : e.rrat.length = cfg.nkeys
  lenw : e.wrat.length = cfg.nkeys
  read : ∀ k, k ≠ cfg.pcK → e.rrat[k]? = b[k]?
  pc : e.rrat[cfg.pcK]? = e.wrat[cfg.pcK]?
  write : ∀ k, k ∉ freshKeys cfg e.instr → e.wrat[k]? = b[k]?

/-- An operand in the course of being fetched. -/
def OpRel (cfg : Cfg) (S : State) (op op0 : Operand) : Prop := opVal S op = opVal S op0 ∧ op.ok cfg = true

/-- The operands of an entry. -/
def OpsOK (cfg : Cfg) (S : State) (e : Entry) : Prop :=
  if e.st = .retiring then
    e.exc = faultOf S e.instr ∧
      ∀ (j : Nat) (v : Word), (valsOf S e.instr)[j]? = some v → ∃ op : Operand, e.ops[j]? = some op ∧ op.getValue = some v
  else
    List.Forall₂ (OpRel cfg S) e.ops (opsOf e.instr) ∧
    (e.exc || e.ops.any (opFault S)) = faultOf S e.instr ∧
    (e.st ≠ .preparing → e.ops.all Operand.isFetched = true)

/-- The memory write of an entry. -/
def StoreOK (cfg : Cfg) (wm : Writes) (S : State) (m : Nat) (e : Entry) : Prop :=
  match storeProd e.instr with
  | none => e.wids = [] ∧ e.maxW = m
  | some sp => e.wids = [m + 1] ∧ e.maxW = m + 1 ∧
    if e.st = .retiring then
      m + 1 ∉ wm.unspec ∧ ∃ a v, storeOf cfg S e.instr = some (a, v) ∧ wm.recOf (m + 1) = some (a, some v, none)
    else match sp with
      | some a => m + 1 ∉ wm.unspec ∧ wm.recOf (m + 1) = some (a, none, none)
      | none => m + 1 ∈ wm.unspec ∧ wm.recOf (m + 1) = none

/-- An entry of the station, `S` being the state before its instruction, `m` the last memory write before it, `b` the
allocation table before it and `n` its number. -/
structure EntryOK (cfg : Cfg) (X : Ctx) (S : State) (m : Nat) (b : Rat) (n : Nat) (e : Entry) : Prop where
  instr : e.instr = fetchAt X.prog S.pc
  tab : TabOK cfg b e
  own : ∀ k ∈ freshKeys cfg e.instr, ∀ p, e.wrat[k]? = some p → X.own p = (n, k)
  pcCell : ∀ p, e.wrat[cfg.pcK]? = some p →
    CellVal X.regs p (if e.st = .retiring then (dataStep cfg S e.instr).pc else S.pc + 1)
  cells : ∀ r ∈ regProds e.instr, ∀ k, cfg.key r = some k → ∀ p, e.wrat[k]? = some p →
    if e.st = .retiring ∧ lateReg e.instr ≠ some r then CellVal X.regs p ((dataStep cfg S e.instr).reg r)
    else CellBusy X.regs p
  done : e.st = .retiring → ∃ x, e.instr.exec cfg (valsOf S e.instr) = .ok x
  ops : OpsOK cfg S e
  store : StoreOK cfg X.wm S m e

def PredOK (pc : Word) (i : Instr) (ps : List Word) : Prop :=
  ∀ d, i.jumpDest = some d → ps.head? = some (nextGuess pc d)

def dropPred (i : Instr) (ps : List Word) : List Word := if i.jumpDest.isSome then ps.drop 1 else ps

/-- The instructions in flight. -/
def Win (cfg : Cfg) (X : Ctx) (T : State → Nat → Rat → Nat → List Word → Prop) :
    List Entry → State → Nat → Rat → Nat → List Word → Prop
  | [], S, m, b, n, ps => T S m b n ps
  | e :: es, S, m, b, n, ps =>
    EntryOK cfg X S m b n e ∧ PredOK S.pc e.instr ps ∧
      Win cfg X T es (specNext cfg S e.instr) e.maxW e.wrat (n + 1) (dropPred e.instr ps)

/-- The front end: fetched but not yet decoded instructions. -/
def Front (prog : List Instr) (spc : Word) : List Fetched → Word → List Word → Prop
  | [], pc, ps => pc = spc ∧ ps = []
  | f :: fs, pc, ps => f.instr = fetchAt prog pc ∧ f.nextPc = pc + 1 ∧ PredOK pc f.instr ps ∧
      Front prog spc fs (predict pc f.instr) (dropPred f.instr ps)

/-- The end of the window. -/
def Tail (c : Cpu) (S : State) (m : Nat) (b : Rat) (n : Nat) (ps : List Word) : Prop :=
  m = c.wm.cur ∧ b = c.rat ∧ Front c.prog c.spc (c.decode.toList ++ c.fetch.toList) S.pc ps

/-- The table of retired values. -/
structure BaseOK (cfg : Cfg) (regs : Regs) (own : Nat → Nat × Nat) (S : State) (b : Rat) (n : Nat) : Prop where
  len : b.length = cfg.nkeys
  cells : ∀ r k, cfg.key r = some k → r ≠ .int .pc →
    ∃ p, b[k]? = some p ∧ (own p).2 = k ∧ (own p).1 < n ∧ CellVal regs p (S.reg r)

/-- A table along the window: a register that is ready has the right value. -/
structure TblOK (cfg : Cfg) (regs : Regs) (S : State) (b : Rat) : Prop where
  len : b.length = cfg.nkeys
  cells : ∀ r k, cfg.key r = some k → r ≠ .int .pc →
    ∃ p c, b[k]? = some p ∧ regs[p]? = some c ∧ (c.ready = true → c.value = S.reg r)

/-- The reference counts: `L` lists all entries of all live tables. -/
structure SubsOK (cfg : Cfg) (regs : Regs) (L : List Nat) : Prop where
  len : regs.length = cfg.nphys
  subs : ∀ p c, regs[p]? = some c → c.subs = L.count p
  bound : ∀ p ∈ L, p < cfg.nphys

/-- The queue of memory writes; writes up to `m` are handed over to the RAM. -/
structure WmOK (wm : Writes) (m : Nat) : Prop where
  sorted : wm.ws.Pairwise fun x y => x.id > y.id
  old : ∀ w ∈ wm.ws, w.id ≤ m → w.ramId.isSome = true
  new : ∀ w ∈ wm.ws, m < w.id → w.ramId = none ∧ w.id ≤ wm.cur
  unspec : ∀ u ∈ wm.unspec, m < u ∧ u ≤ wm.cur

/-- `w` is the latest write to its address among those handed over to the RAM. -/
def Newest (outs : List (Nat × Word × Option Word × Option Nat)) (w : Nat × Word × Option Word × Option Nat) : Prop :=
  ∀ w' ∈ outs, w'.2.1 = w.2.1 → w'.1 ≤ w.1

/-- The RAM, `mem` being the memory of the sequential machine. -/
structure RamOK (cfg : Cfg) (ram : Ram) (outs : List (Nat × Word × Option Word × Option Nat))
    (mem : Word → Option Word) : Prop where
  size : ram.mem.length = cfg.ramSize
  memEq : ∀ a, mem a = ram.mem[a.toNat]?
  reads : ∀ x ∈ ram.reads, x.rem ≤ readLatency ∧
    (mem x.addr = some x.value ∨ ∃ w ∈ ram.writes, w.addr = x.addr ∧ x.rem ≤ w.rem)
  writes : ∀ we ∈ ram.writes, ∃ w ∈ outs, w.2.2.2 = some we.id ∧ w.2.1 = we.addr ∧ Newest outs w
  outRid : ∀ w ∈ outs, ∃ rid, w.2.2.2 = some rid ∧ rid < ram.nextId
  newest : ∀ w ∈ outs, Newest outs w → mem w.2.1 = w.2.2.1
  inj : ∀ w ∈ outs, ∀ w' ∈ outs, w.2.2.2 = w'.2.2.2 → w.1 = w'.1

/-- The memory as seen by an entry. -/
def MemOK (wm : Writes) (mem0 : Word → Option Word) (S : State) (m : Nat) : Prop :=
  (∀ u ∈ wm.unspec, m < u) → ∀ a,
    match wm.previousWrite a m with
    | some w => ∀ v, w.value = some v → S.mem a = some v
    | none => S.mem a = mem0 a

/-- The cells of the tables of the entries. -/
def tables (es : List Entry) : List Nat := es.flatMap fun e => e.rrat ++ e.wrat

/-- The number of entries occupying an ALU. -/
def aluUsers (es : List Entry) : Nat := es.countP fun e => e.st = .executing ∧ e.instr.needsAlu

/-- The invariant, with its witnesses. `extra` lists further live tables. -/
structure Inv0 (cfg : Cfg) (c : Cpu) (S : State) (extra : List Nat) (own : Nat → Nat × Nat) (n m : Nat) (b : Rat) :
    Prop where
  wf : ∀ i ∈ c.prog, i.wf cfg = true
  win : Win cfg ⟨c.prog, c.regs, c.wm, own⟩ (Tail c) c.entries S m b n c.preds
  base : BaseOK cfg c.regs own S b n
  pc : c.entries = [] → ∃ p, c.rat[cfg.pcK]? = some p ∧ (own p).2 = cfg.pcK ∧ CellVal c.regs p S.pc
  subs : SubsOK cfg c.regs (c.rat ++ tables c.entries ++ extra)
  wm : WmOK c.wm m
  ram : RamOK cfg c.ram c.wm.outs S.mem
  out : c.out = S.out
  inp : c.inp = S.inp
  halted : c.halted = S.halted
  alus : c.freeAlus + aluUsers c.entries = cfg.alus
  cap : c.entries.length ≤ cfg.rsMax

/-- The pipeline `c` has retired exactly the instructions that lead to `S`. -/
def Inv (cfg : Cfg) (c : Cpu) (S : State) : Prop := ∃ own n m b, Inv0 cfg c S [] own n m b

end T86
