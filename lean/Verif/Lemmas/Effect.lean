import Verif.Spec.Isa
import Verif.Lemmas.Res
import Verif.Lemmas.Arith

/-! The effect of an instruction in the form in which the pipeline computes it, and its agreement with `Isa.exec`. -/

set_option linter.unusedSimpArgs false
set_option linter.unnecessarySimpa false
set_option linter.unusedVariables false

namespace T86
open Isa

/-- Operand value, with the value `-1` that the pipeline carries on with after a bad read. -/
def opVal (s : State) : Operand → Word
  | .imm w => w
  | .fimm w => w
  | .val e => ea s.get e
  | .freg i => s.get (.flt i)
  | .memImm a => (s.mem a).getD (-1)
  | .mem e => (s.mem (ea s.get e)).getD (-1)

/-- Does evaluating the operand read a memory cell that does not exist? -/
def opFault (s : State) : Operand → Bool
  | .memImm a => (s.mem a).isNone
  | .mem e => (s.mem (ea s.get e)).isNone
  | _ => false

theorem operand_ok {s : State} {op : Operand} (h : opFault s op = false) : s.operand op = .ok (opVal s op) := by
  cases op <;> simp [opFault, State.operand, opVal, State.load] at h ⊢
  all_goals (revert h; cases s.mem _ <;> simp)

theorem operand_fault {s : State} {op : Operand} (h : opFault s op = true) :
    s.operand op = .error (.exn .outOfRange) := by
  cases op <;> simp [opFault, State.operand, opVal, State.load] at h ⊢
  all_goals rw [h]

def opsOf (i : Instr) : List Operand := match i.operands with
  | .ok l => l
  | .error _ => []

def valsOf (s : State) (i : Instr) : List Word := (opsOf i).map (opVal s)

def faultOf (s : State) (i : Instr) : Bool := (opsOf i).any (opFault s)

/-- A register write or memory write of `execute`, on the architectural state. -/
def actStep (x : State × Option Word) : Act → State × Option Word
  | .set (.int .pc) v => ({ x.1 with pc := v }, x.2)
  | .set r v => (x.1.set r v, x.2)
  | .specifyAddress a => (x.1, some a)
  | .setValue v => match x.2 with
    | some a => ({ x.1 with mem := fun a' => if a' = a then some v else x.1.mem a' }, x.2)
    | none => x

def staticAddr : Instr → Option Word
  | .mov (.memImm a) _ => some a
  | _ => none

/-- The effects that take place at retirement. -/
def retireFx (i : Instr) (vs : List Word) (s : State) : State :=
  match i with
  | .clf => s.setFlags ⟨false, false, false, false⟩
  | .halt => { s with halted := true }
  | .putchar _ => { s with out := s.out ++ [.char ((vs.headD 0).setWidth 8)] }
  | .putnum _ => { s with out := s.out ++ [.num ((vs.headD 0).setWidth 32)] }
  | .getchar r => match skipSpace s.inp with
    | [] => s
    | b :: rest => { s.set (.int r) (b.signExtend 64) with inp := rest }
  | _ => s

/-- The total effect of an instruction. -/
def dataStep (cfg : Cfg) (s : State) (i : Instr) : State :=
  match i.exec cfg (valsOf s i) with
  | .ok x => retireFx i (valsOf s i) (x.acts.foldl actStep (s.next, staticAddr i)).1
  | .error _ => s.next

/-- The memory write among the calls of `execute`. -/
def actsStore : Option Word → List Act → Option (Word × Word)
  | _, [] => none
  | _, .specifyAddress a :: as => actsStore (some a) as
  | some a, .setValue v :: _ => some (a, v)
  | none, .setValue _ :: as => actsStore none as
  | ad, .set _ _ :: as => actsStore ad as

theorem sadd_ok_eq {m : Mode} {x y z : Word} (h : sadd m x y = .ok z) : z = x + y := by
  unfold sadd at h; split at h <;> simp at h; exact h.symm

theorem ssub_ok_eq {m : Mode} {x y z : Word} (h : ssub m x y = .ok z) : z = x - y := by
  unfold ssub at h; split at h <;> simp at h; exact h.symm

theorem smul_ok_eq {m : Mode} {x y z : Word} (h : smul m x y = .ok z) : z = x * y := by
  unfold smul at h; split at h <;> simp at h; exact h.symm

theorem sadd_sat {m : Mode} {x y : Word} : Sat (sadd m x y) (· = x + y) (fun f => f = .ub ∧ m = .strict) := by
  unfold sadd; split <;> simp_all [Sat]

theorem ssub_sat {m : Mode} {x y : Word} : Sat (ssub m x y) (· = x - y) (fun f => f = .ub ∧ m = .strict) := by
  unfold ssub; split <;> simp_all [Sat]

theorem smul_sat {m : Mode} {x y : Word} : Sat (smul m x y) (· = x * y) (fun f => f = .ub ∧ m = .strict) := by
  unfold smul; split <;> simp_all [Sat]

/-- The value of a half-supplied register expression. -/
def eaSum (get : LReg → Word) : Word ⊕ RegExpr → Word
  | .inl w => w
  | .inr e => ea get e

theorem supply_sat (m : Mode) (get : LReg → Word) (e : RegExpr) :
    Sat (e.supply m (get (.int e.req))) (fun x => eaSum get x = ea get e ∧
      (match x with
      | .inl _ => e.steps = 1
      | .inr e' => e.steps = e'.steps + 1 ∧ e.regs = e.req :: e'.regs)) (fun f => f = .ub ∧ m = .strict) := by
  cases e with
  | reg r => exact ⟨rfl, rfl⟩
  | regImm r i => exact Sat.bind sadd_sat (by rintro a rfl; exact ⟨rfl, rfl⟩)
  | regReg r1 r2 => exact ⟨BitVec.add_comm _ _, rfl, rfl⟩
  | regScaled r k => exact Sat.bind smul_sat (by rintro a rfl; exact ⟨rfl, rfl⟩)
  | regImmReg r1 i r2 =>
      refine Sat.bind sadd_sat ?_
      rintro a rfl
      refine ⟨?_, rfl, rfl⟩
      simp only [eaSum, ea, RegExpr.req]
      rw [BitVec.add_comm i, BitVec.add_comm]
  | regRegScaled r1 r2 k =>
      refine Sat.bind smul_sat ?_
      rintro a rfl
      refine ⟨?_, rfl, rfl⟩
      simp only [eaSum, ea, RegExpr.req]
      rw [BitVec.mul_comm k]
  | regImmRegScaled r1 i r2 k =>
      refine Sat.bind smul_sat ?_
      rintro a rfl
      refine Sat.bind sadd_sat ?_
      rintro b rfl
      refine ⟨?_, rfl, rfl⟩
      simp only [eaSum, ea, RegExpr.req]
      rw [BitVec.mul_comm k, BitVec.add_assoc]

theorem steps_pos (e : RegExpr) : 0 < e.steps := by cases e <;> simp [RegExpr.steps]

theorem address_sat (m : Mode) (get : LReg → Word) (e : RegExpr) :
    Sat (e.address m (e.regs.map fun r => get (.int r))) (· = ea get e) (fun f => f = .ub ∧ m = .strict) := by
  have key := supply_sat m get e
  have two : e.regs = [e.req] ∧ e.steps = 1 ∨ ∃ r, e.regs = [e.req, r] ∧ e.steps = 2 := by
    cases e <;> simp [RegExpr.regs, RegExpr.req, RegExpr.steps]
  rcases two with ⟨h, hs⟩ | ⟨r, h, hs⟩
  · rw [h]
    simp only [List.map, RegExpr.address]
    refine Sat.bind key ?_
    rintro (w | e') ⟨h1, h2⟩
    · exact h1
    · have := steps_pos e'; simp only at h2; omega
  · rw [h]
    simp only [List.map, RegExpr.address]
    refine Sat.bind key ?_
    rintro (w | e') ⟨h1, h2⟩
    · simp only at h2; omega
    · simp only at h2
      have hr : e'.req = r := by
        have h3 := h2.2; rw [h] at h3
        have h4 : e'.regs = [r] := by injection h3 with _ h5; exact h5.symm
        have h5 : e'.steps = 1 := by omega
        cases e' <;> simp [RegExpr.regs, RegExpr.req, RegExpr.steps] at h4 h5 ⊢ <;> exact h4
      have key' := supply_sat m get e'
      rw [hr] at key'
      refine Sat.bind key' ?_
      rintro (w | e'') ⟨h3, h4⟩
      · simp only [eaSum] at h3 h1
        exact h3.trans h1
      · have := steps_pos e''; simp only at h4; omega

theorem address_ok_eq {m : Mode} {get : LReg → Word} {e : RegExpr} {a : Word}
    (h : e.address m (e.regs.map fun r => get (.int r)) = .ok a) : a = ea get e := by
  have := address_sat m get e
  rw [h] at this; exact this

theorem opVal_ofReg (s : State) (r : Reg) : opVal s (.ofReg r) = s.get (.int r) := rfl

theorem map_opVal_ofReg (s : State) (l : List Reg) :
    (l.map Operand.ofReg).map (opVal s) = l.map fun r => s.get (.int r) := by
  simp [List.map_map, Function.comp_def, opVal_ofReg]

/-! ## The register and memory writes of `execute` -/

/-- The register writes among the calls of `execute`. -/
def actSets (acts : List Act) : List (LReg × Word) := acts.filterMap fun
  | .set r v => some (r, v)
  | _ => none

/-- The memory calls of `execute`. -/
def actMems (acts : List Act) : List Act := acts.filter fun
  | .set _ _ => false
  | _ => true

def prodsOf (i : Instr) : List Product := match i.produces with
  | .ok l => l
  | .error _ => []

def Product.lreg? : Product → Option LReg
  | .reg .pc => none
  | .reg r => some (.int r)
  | .freg i => some (.flt i)
  | _ => none

def Product.store? : Product → Option (Option Word)
  | .memImm a => some (some a)
  | .memReg => some none
  | _ => none

/-- The registers other than IP that an instruction produces. -/
def regProds (i : Instr) : List LReg := (prodsOf i).filterMap Product.lreg?

/-- Does the instruction write memory, and if so is the address known in advance? -/
def storeProd (i : Instr) : Option (Option Word) := ((prodsOf i).filterMap Product.store?).head?

/-- The register that is written at retirement only. -/
def lateReg : Instr → Option LReg
  | .clf => some (.int .flags)
  | .getchar r => some (.int r)
  | _ => none

/-- What the calls of `execute` look like. -/
structure ExecShape (i : Instr) (acts : List Act) : Prop where
  nodup : ((actSets acts).map Prod.fst).Nodup
  sub : ∀ r v, (r, v) ∈ actSets acts → (r = .int .pc ∧ i.jumpDest.isSome) ∨ (r ≠ .int .pc ∧ r ∈ regProds i ∧ lateReg i ≠ some r)
  cover : ∀ r ∈ regProds i, lateReg i ≠ some r → ∃ v, (r, v) ∈ actSets acts
  mem : match storeProd i with
    | none => actMems acts = []
    | some (some a) => staticAddr i = some a ∧ ∃ v, actMems acts = [.setValue v]
    | some none => staticAddr i = none ∧ ∃ a v, actMems acts = [.specifyAddress a, .setValue v]

theorem destReg_ne {cfg : Cfg} {d : Reg} (h : cfg.destReg d = true) : d ≠ .pc ∧ d ≠ .flags := by
  simp [Cfg.destReg] at h; exact ⟨h.1.2, h.2⟩

theorem lreg?_reg {d : Reg} (h : d ≠ .pc) : Product.lreg? (.reg d) = some (.int d) := by
  cases d <;> simp_all [Product.lreg?]

theorem store?_reg {d : Reg} : Product.store? (.reg d) = none := rfl
theorem store?_freg {d} : Product.store? (.freg d) = none := rfl
theorem store?_memImm {d} : Product.store? (.memImm d) = some (some d) := rfl
theorem store?_memReg : Product.store? .memReg = some none := rfl
theorem lreg?_freg {d} : Product.lreg? (.freg d) = some (.flt d) := rfl
theorem lreg?_memImm {d} : Product.lreg? (.memImm d) = none := rfl
theorem lreg?_memReg : Product.lreg? .memReg = none := rfl
theorem lreg?_pc : Product.lreg? (.reg .pc) = none := rfl
theorem lreg?_sp : Product.lreg? (.reg .sp) = some (.int .sp) := rfl
theorem lreg?_flags : Product.lreg? (.reg .flags) = some (.int .flags) := rfl



section
variable (cfg : Cfg)
theorem exec_bin {op k d r v x y} : Instr.exec cfg (.bin op k d r v) [x, y] = (do
      let r ← op.alu cfg.mode x y
      return ⟨[.set (.int d) r.value, .set (.int .flags) (Alu.flagsToWord r.flags)], []⟩) := rfl
theorem exec_fbin {op f v x y} : Instr.exec cfg (.fbin op f v) [x, y] = 
      .ok ⟨[.set (.flt f) (op.alu cfg.fo x y).value, .set (.int .flags) (Alu.flagsToWord (op.alu cfg.fo x y).flags)], []⟩ := rfl
theorem exec_un {op d x} : Instr.exec cfg (.un op d) [x] = (do
      let r ← op.alu cfg.mode x
      return ⟨[.set (.int d) r.value, .set (.int .flags) (Alu.flagsToWord r.flags)], []⟩) := rfl
theorem exec_mov_reg {d v x} : Instr.exec cfg (.mov (.val (.reg d)) v) [x] = .ok ⟨[.set (.int d) x], []⟩ := rfl
theorem exec_mov_freg {d v x} : Instr.exec cfg (.mov (.freg d) v) [x] = .ok ⟨[.set (.flt d) x], []⟩ := rfl
theorem exec_mov_memImm {a v x} : Instr.exec cfg (.mov (.memImm a) v) [x] = .ok ⟨[.setValue x], []⟩ := rfl
theorem exec_mov_mem {e v x as} : Instr.exec cfg (.mov (.mem e) v) (x :: as) = (do
      let a ← e.address cfg.mode as
      return ⟨[.specifyAddress a, .setValue x], []⟩) := rfl
theorem exec_lea_rr {d r r' as} : Instr.exec cfg (.lea d (.mem (.regReg r r'))) as = .error .ub := rfl
theorem exec_lea {d e as} (h : ∀ r r', e ≠ .regReg r r') : Instr.exec cfg (.lea d (.mem e)) as = (do
      let a ← e.address cfg.mode as
      return ⟨[.set (.int d) a], []⟩) := by
  cases e <;> first | rfl | exact absurd rfl (h _ _)
theorem exec_cmp {r v x y} : Instr.exec cfg (.cmp r v) [x, y] = (do
      let r ← Alu.subtract cfg.mode x y
      return ⟨[.set (.int .flags) (Alu.flagsToWord r.flags)], []⟩) := rfl
theorem exec_fcmp {r v x y} : Instr.exec cfg (.fcmp r v) [x, y] = 
      .ok ⟨[.set (.int .flags) (Alu.flagsToWord (Alu.fsubtract cfg.fo x y).flags)], []⟩ := rfl
theorem exec_jmp {v a} : Instr.exec cfg (.jmp v) [a] = .ok ⟨[.set (.int .pc) a], []⟩ := rfl
theorem exec_jcc {c v a f} : Instr.exec cfg (.jcc c v) [a, f] =
  .ok ⟨if c.taken f then [.set (.int .pc) a] else [], []⟩ := rfl
theorem exec_loop {d v x a} : Instr.exec cfg (.loop d v) [x, a] = (do
      let r ← Alu.subtract cfg.mode x 1
      return ⟨[.set (.int d) r.value, .set (.int .flags) (Alu.flagsToWord r.flags)] ++
        (if r.value ≠ 0 then [.set (.int .pc) a] else []), [.imm r.value]⟩) := rfl
theorem exec_call {v a pc sp} : Instr.exec cfg (.call v) [a, pc, sp] = (do
      let s ← ssub cfg.mode sp 1
      return ⟨[.set (.int .pc) a, .specifyAddress s, .setValue pc, .set (.int .sp) s], []⟩) := rfl
theorem exec_ret {a sp} : Instr.exec cfg .ret [a, sp] = (do
      let s ← sadd cfg.mode sp 1
      return ⟨[.set (.int .pc) a, .set (.int .sp) s], []⟩) := rfl
theorem exec_push {v x sp} : Instr.exec cfg (.push v) [x, sp] = (do
      let s ← ssub cfg.mode sp 1
      return ⟨[.specifyAddress s, .setValue x, .set (.int .sp) s], []⟩) := rfl
theorem exec_fpush {v x sp} : Instr.exec cfg (.fpush v) [x, sp] = (do
      let s ← ssub cfg.mode sp 1
      return ⟨[.specifyAddress s, .setValue x, .set (.int .sp) s], []⟩) := rfl
theorem exec_pop {d x sp} : Instr.exec cfg (.pop d) [x, sp] = (do
      let s ← sadd cfg.mode sp 1
      return ⟨[.set (.int d) x, .set (.int .sp) s], []⟩) := rfl
theorem exec_fpop {d x sp} : Instr.exec cfg (.fpop d) [x, sp] = (do
      let s ← sadd cfg.mode sp 1
      return ⟨[.set (.flt d) x, .set (.int .sp) s], []⟩) := rfl
theorem exec_ext {f r x} : Instr.exec cfg (.ext f r) [x] = .ok ⟨[.set (.flt f) (cfg.fo.ofInt x)], []⟩ := rfl
theorem exec_nrw {d f x} : Instr.exec cfg (.nrw d f) [x] = (match cfg.fo.toInt x with
      | some w => .ok ⟨[.set (.int d) w], []⟩
      | none => .error .ub) := rfl
theorem exec_nop : Instr.exec cfg .nop [] = .ok ⟨[], []⟩ := rfl
theorem exec_halt : Instr.exec cfg .halt [] = .ok ⟨[], []⟩ := rfl
theorem exec_brk : Instr.exec cfg .brk [] = .ok ⟨[], []⟩ := rfl
theorem exec_bkpt : Instr.exec cfg .bkpt [] = .ok ⟨[], []⟩ := rfl
theorem exec_clf : Instr.exec cfg .clf [] = .ok ⟨[], []⟩ := rfl
theorem exec_putchar {r x} : Instr.exec cfg (.putchar r) [x] = .ok ⟨[], []⟩ := rfl
theorem exec_putnum {r x} : Instr.exec cfg (.putnum r) [x] = .ok ⟨[], []⟩ := rfl
theorem exec_getchar {r} : Instr.exec cfg (.getchar r) [] = .ok ⟨[], []⟩ := rfl
end

/-- The operand values, by instruction. -/
theorem valsOf_mov_mem {s : State} {e v} : valsOf s (.mov (.mem e) v) = opVal s v :: e.regs.map (fun r => s.get (.int r)) := by
  simp [valsOf, opsOf, Instr.operands, List.map_map, Function.comp_def, opVal_ofReg]

theorem valsOf_lea {s : State} {d e} (h : ∀ r, e ≠ .reg r) : valsOf s (.lea d (.mem e)) = e.regs.map (fun r => s.get (.int r)) := by
  cases e
  case reg => exact absurd rfl (h _)
  all_goals rfl

macro "shape_tac" "[" l:Lean.Parser.Tactic.simpLemma,* "]" : tactic =>
  `(tactic| (constructor <;> simp [actSets, actMems, regProds, prodsOf, Instr.produces, Instr.jumpDest, storeProd, lateReg,
    store?_reg, store?_freg, store?_memImm, store?_memReg, lreg?_freg, lreg?_memImm, lreg?_memReg, lreg?_pc, lreg?_sp,
    lreg?_flags, staticAddr, List.findSome?, or_imp, forall_and, $l,*]))

/-- Case analysis on a well-formed instruction that executes without fault. -/
theorem exec_shape {cfg : Cfg} {i : Instr} {s : State} {x : ExecOut} (hw : i.wf cfg = true)
    (h : i.exec cfg (valsOf s i) = .ok x) : ExecShape i x.acts := by
  cases i
  case mov dst v =>
    cases dst
    case imm => simp [Instr.wf] at hw
    case fimm => simp [Instr.wf] at hw
    case freg =>
      change Except.ok _ = _ at h
      cases h
      constructor <;> simp [actSets, actMems, regProds, prodsOf, Instr.produces, Product.fromOperand, bind, Except.bind, pure, Except.pure,
        storeProd, store?_freg, store?_memImm, store?_memReg, lreg?_freg, lreg?_memImm, lreg?_memReg, lateReg]
    case memImm =>
      change Except.ok _ = _ at h
      cases h
      constructor <;> simp [actSets, actMems, regProds, prodsOf, Instr.produces, Product.fromOperand, bind, Except.bind, pure, Except.pure,
        storeProd, store?_freg, store?_memImm, store?_memReg, lreg?_freg, lreg?_memImm, lreg?_memReg, lateReg, staticAddr]
    case mem e =>
      rw [valsOf_mov_mem, exec_mov_mem, bind_ok_iff] at h
      obtain ⟨a, _, h⟩ := h
      cases h
      constructor <;> simp [actSets, actMems, regProds, prodsOf, Instr.produces, Product.fromOperand, bind, Except.bind, pure, Except.pure,
        storeProd, store?_freg, store?_memImm, store?_memReg, lreg?_freg, lreg?_memImm, lreg?_memReg, lateReg, staticAddr]
    case val e =>
      cases e
      case reg d =>
        simp only [Instr.wf, Bool.and_eq_true] at hw
        have hne := destReg_ne hw.2
        change Except.ok _ = _ at h
        cases h
        constructor <;> simp [actSets, actMems, regProds, prodsOf, Instr.produces, Product.fromOperand, bind, Except.bind, pure, Except.pure,
          lreg?_reg hne.1, storeProd, store?_reg, lateReg, hne.1]
      all_goals simp [Instr.wf] at hw
  case lea d m =>
    cases m
    case mem e =>
      by_cases h1 : ∃ r, e = .reg r
      · obtain ⟨r, rfl⟩ := h1; simp [Instr.wf] at hw
      by_cases h2 : ∃ r r', e = .regReg r r'
      · obtain ⟨r, r', rfl⟩ := h2; rw [exec_lea_rr] at h; cases h
      rw [exec_lea cfg (fun r r' hh => h2 ⟨r, r', hh⟩), bind_ok_iff] at h
      obtain ⟨a, _, h⟩ := h
      cases h
      have hne : d ≠ .pc ∧ d ≠ .flags := by
        apply destReg_ne (cfg := cfg)
        simp only [Instr.wf, Bool.and_eq_true] at hw; exact hw.1
      constructor <;> simp [actSets, actMems, regProds, prodsOf, Instr.produces, Product.fromOperand, bind, Except.bind, pure, Except.pure,
          lreg?_reg hne.1, storeProd, store?_reg, lateReg, hne.1]
    all_goals simp [Instr.wf] at hw
  case bin op k d r v =>
    have hne : d ≠ .pc ∧ d ≠ .flags := by
      apply destReg_ne (cfg := cfg)
      simp only [Instr.wf, Bool.and_eq_true] at hw; exact hw.1.1
    change Instr.exec cfg _ [_, _] = _ at h
    rw [exec_bin, bind_ok_iff] at h
    obtain ⟨a, _, h⟩ := h
    cases h
    shape_tac [hne.1, hne.2, lreg?_reg hne.1]
  case fbin op f v =>
    change Except.ok _ = _ at h
    cases h
    shape_tac []
  case un op d =>
    have hne : d ≠ .pc ∧ d ≠ .flags := by
      apply destReg_ne (cfg := cfg)
      simpa only [Instr.wf] using hw
    change Instr.exec cfg _ [_] = _ at h
    rw [exec_un, bind_ok_iff] at h
    obtain ⟨a, _, h⟩ := h
    cases h
    shape_tac [hne.1, hne.2, lreg?_reg hne.1]
  case cmp r v =>
    change Instr.exec cfg _ [_, _] = _ at h
    rw [exec_cmp, bind_ok_iff] at h
    obtain ⟨a, _, h⟩ := h
    cases h
    shape_tac []
  case fcmp r v =>
    change Except.ok _ = _ at h
    cases h
    shape_tac []
  case jmp a =>
    change Except.ok _ = _ at h
    cases h
    shape_tac []
  case jcc c a =>
    change Except.ok _ = _ at h
    cases h
    generalize c.taken _ = t
    cases t <;> shape_tac []
  case loop d a =>
    have hne : d ≠ .pc ∧ d ≠ .flags := by
      apply destReg_ne (cfg := cfg)
      simp only [Instr.wf, Bool.and_eq_true] at hw; exact hw.1
    change Instr.exec cfg _ [_, _] = _ at h
    rw [exec_loop, bind_ok_iff] at h
    obtain ⟨r, _, h⟩ := h
    cases h
    by_cases hz : r.value = 0 <;> simp only [hz, ne_eq, not_true_eq_false, not_false_eq_true, if_true, if_false, List.append_nil, List.cons_append, List.nil_append] <;>
      shape_tac [hne.1, hne.2, lreg?_reg hne.1]
  case call a =>
    change Instr.exec cfg _ [_, _, _] = _ at h
    rw [exec_call, bind_ok_iff] at h
    obtain ⟨a, _, h⟩ := h
    cases h
    shape_tac []
  case ret =>
    change Instr.exec cfg _ [_, _] = _ at h
    rw [exec_ret, bind_ok_iff] at h
    obtain ⟨a, _, h⟩ := h
    cases h
    shape_tac []
  case push v =>
    change Instr.exec cfg _ [_, _] = _ at h
    rw [exec_push, bind_ok_iff] at h
    obtain ⟨a, _, h⟩ := h
    cases h
    shape_tac []
  case fpush v =>
    change Instr.exec cfg _ [_, _] = _ at h
    rw [exec_fpush, bind_ok_iff] at h
    obtain ⟨a, _, h⟩ := h
    cases h
    shape_tac []
  case pop d =>
    have hne : (d ≠ .pc ∧ d ≠ .flags) ∧ d ≠ .sp := by
      simp only [Instr.wf, Bool.and_eq_true] at hw
      exact ⟨destReg_ne hw.1, by simpa using hw.2⟩
    change Instr.exec cfg _ [_, _] = _ at h
    rw [exec_pop, bind_ok_iff] at h
    obtain ⟨a, _, h⟩ := h
    cases h
    shape_tac [hne.1.1, hne.2, lreg?_reg hne.1.1]
  case fpop f =>
    change Instr.exec cfg _ [_, _] = _ at h
    rw [exec_fpop, bind_ok_iff] at h
    obtain ⟨a, _, h⟩ := h
    cases h
    shape_tac []
  case ext f r =>
    change Except.ok _ = _ at h
    cases h
    shape_tac []
  case nrw d f =>
    have hne : d ≠ .pc ∧ d ≠ .flags := by
      apply destReg_ne (cfg := cfg)
      simp only [Instr.wf, Bool.and_eq_true] at hw; exact hw.1
    change Instr.exec cfg _ [_] = _ at h
    rw [exec_nrw] at h
    split at h
    · cases h
      shape_tac [hne.1, hne.2, lreg?_reg hne.1]
    · cases h
  case getchar d =>
    have hne : d ≠ .pc ∧ d ≠ .flags := by
      apply destReg_ne (cfg := cfg)
      simpa only [Instr.wf] using hw
    change Except.ok _ = _ at h
    cases h
    shape_tac [hne.1, hne.2, lreg?_reg hne.1]
  all_goals
    change Except.ok _ = _ at h
    cases h
    shape_tac []

/-! ## The effect of the calls -/

theorem actStep_set_ne {x : State × Option Word} {r : LReg} {v : Word} (h : r ≠ .int .pc) :
    actStep x (.set r v) = (x.1.set r v, x.2) := by
  cases r with
  | flt i => rfl
  | int r => cases r <;> first | rfl | exact absurd rfl h

theorem actStep_pc {x : State × Option Word} {v : Word} : actStep x (.set (.int .pc) v) = ({ x.1 with pc := v }, x.2) := rfl

/-- The memory write of an instruction, if it executes. -/
def storeOf (cfg : Cfg) (s : State) (i : Instr) : Option (Word × Word) :=
  match i.exec cfg (valsOf s i) with
  | .ok x => actsStore (staticAddr i) x.acts
  | .error _ => none

section
variable {cfg : Cfg} {s : State}

theorem actsStore_none {l : List Act} {ad : Option Word} (he : actMems l = []) : actsStore ad l = none := by
  induction l with
  | nil => cases ad <;> rfl
  | cons y l ih =>
    cases y with
    | set r v => cases ad <;> simpa [actsStore] using ih (by simpa [actMems] using he)
    | specifyAddress => simp [actMems] at he
    | setValue => simp [actMems] at he

/-- If nothing goes wrong, the total effect is the effect in the specification. -/
theorem exec_eq_dataStep {i : Instr} {x : ExecOut} (hw : i.wf cfg = true) (hf : faultOf s i = false)
    (h : i.exec cfg (valsOf s i) = .ok x)
    (hs : ∀ a v, storeOf cfg s i = some (a, v) → (s.mem a).isSome)
    (hi : ∀ r, i = .getchar r → skipSpace s.inp ≠ []) :
    Isa.exec cfg s i = .ok (dataStep cfg s i) := by
  have hst : storeOf cfg s i = actsStore (staticAddr i) x.acts := by simp only [storeOf, h]
  rw [hst] at hs
  have hds : dataStep cfg s i = retireFx i (valsOf s i) (x.acts.foldl actStep (s.next, staticAddr i)).1 := by
    simp only [dataStep, h]
  rw [hds]
  cases i
  case mov dst v =>
    cases dst
    case imm => simp [Instr.wf] at hw
    case fimm => simp [Instr.wf] at hw
    case freg f =>
      have hf : opFault s v = false := by simpa [faultOf, opsOf, Instr.operands] using hf
      change Except.ok _ = _ at h
      cases h
      simp only [Isa.exec, operand_ok hf]
      rfl
    case memImm a =>
      have hf : opFault s v = false := by simpa [faultOf, opsOf, Instr.operands] using hf
      change Except.ok _ = _ at h
      cases h
      simp only [Isa.exec, operand_ok hf]
      have := hs a _ rfl
      obtain ⟨w, hw⟩ := Option.isSome_iff_exists.1 this
      simp only [ok_bind, State.store, hw]
      rfl
    case mem e =>
      have hf : opFault s v = false := by
        simp only [faultOf, opsOf, Instr.operands, List.any_cons, Bool.or_eq_false_iff] at hf; exact hf.1
      rw [valsOf_mov_mem, exec_mov_mem, bind_ok_iff] at h
      obtain ⟨a, ha, h⟩ := h
      cases h
      have ha := address_ok_eq ha
      subst ha
      have := hs _ _ rfl
      obtain ⟨w, hw⟩ := Option.isSome_iff_exists.1 this
      simp only [Isa.exec, operand_ok hf, ok_bind, State.store, hw]
      rfl
    case val e =>
      cases e
      case reg d =>
        have hf : opFault s v = false := by simpa [faultOf, opsOf, Instr.operands] using hf
        simp only [Instr.wf, Bool.and_eq_true] at hw
        have hne := destReg_ne hw.2
        change Except.ok _ = _ at h
        cases h
        simp only [Isa.exec, operand_ok hf, List.foldl]
        rw [actStep_set_ne (r := .int d) (by simpa using hne.1)]
        rfl
      all_goals simp [Instr.wf] at hw
  case lea d m =>
    cases m
    case mem e =>
      by_cases h1 : ∃ r, e = .reg r
      · obtain ⟨r, rfl⟩ := h1; simp [Instr.wf] at hw
      by_cases h2 : ∃ r r', e = .regReg r r'
      · obtain ⟨r, r', rfl⟩ := h2; rw [exec_lea_rr] at h; cases h
      rw [exec_lea cfg (fun r r' hh => h2 ⟨r, r', hh⟩), bind_ok_iff, valsOf_lea (fun r hr => h1 ⟨r, hr⟩)] at h
      obtain ⟨a, ha, h⟩ := h
      cases h
      have ha := address_ok_eq ha
      subst ha
      have hne : d ≠ .pc ∧ d ≠ .flags := by
        apply destReg_ne (cfg := cfg)
        simp only [Instr.wf, Bool.and_eq_true] at hw; exact hw.1
      simp only [Isa.exec, List.foldl]
      rw [actStep_set_ne (r := .int d) (by simpa using hne.1)]
      rfl
    all_goals simp [Instr.wf] at hw
  case bin op k d r v =>
    have hne : d ≠ .pc ∧ d ≠ .flags := by
      apply destReg_ne (cfg := cfg)
      simp only [Instr.wf, Bool.and_eq_true] at hw; exact hw.1.1
    have hf : opFault s v = false := by
      simpa [faultOf, opsOf, Instr.operands, opFault, Operand.ofReg] using hf
    change Instr.exec cfg _ [_, _] = _ at h
    rw [exec_bin, bind_ok_iff] at h
    obtain ⟨a, ha, h⟩ := h
    cases h
    simp only [Isa.exec, operand_ok hf, List.foldl, ok_bind]
    change op.alu cfg.mode (s.get (.int r)) (opVal s v) = _ at ha
    rw [ha]
    rw [actStep_set_ne (r := .int d) (by simpa using hne.1)]
    rfl
  case fbin op f v =>
    have hf : opFault s v = false := by
      simpa [faultOf, opsOf, Instr.operands, opFault, Operand.ofReg] using hf
    change Except.ok _ = _ at h
    cases h
    simp only [Isa.exec, operand_ok hf, List.foldl, ok_bind]
    rfl
  case un op d =>
    have hne : d ≠ .pc ∧ d ≠ .flags := by
      apply destReg_ne (cfg := cfg)
      simpa only [Instr.wf] using hw
    change Instr.exec cfg _ [_] = _ at h
    rw [exec_un, bind_ok_iff] at h
    obtain ⟨a, ha, h⟩ := h
    cases h
    change op.alu cfg.mode (s.get (.int d)) = _ at ha
    simp only [Isa.exec, ha, List.foldl, ok_bind]
    rw [actStep_set_ne (r := .int d) (by simpa using hne.1)]
    rfl
  case cmp r v =>
    have hf : opFault s v = false := by
      simpa [faultOf, opsOf, Instr.operands, opFault, Operand.ofReg] using hf
    change Instr.exec cfg _ [_, _] = _ at h
    rw [exec_cmp, bind_ok_iff] at h
    obtain ⟨a, ha, h⟩ := h
    cases h
    change Alu.subtract cfg.mode (s.get (.int r)) (opVal s v) = _ at ha
    simp only [Isa.exec, operand_ok hf, ha, List.foldl, ok_bind]
    rfl
  case fcmp r v =>
    have hf : opFault s v = false := by
      simpa [faultOf, opsOf, Instr.operands, opFault, Operand.ofReg] using hf
    change Except.ok _ = _ at h
    cases h
    simp only [Isa.exec, operand_ok hf, List.foldl, ok_bind]
    rfl
  case jmp a =>
    have hf : opFault s a = false := by
      simpa [faultOf, opsOf, Instr.operands, opFault, Operand.ofReg] using hf
    change Except.ok _ = _ at h
    cases h
    simp only [Isa.exec, operand_ok hf, List.foldl, ok_bind]
    rfl
  case jcc c a =>
    have hf : opFault s a = false := by
      simpa [faultOf, opsOf, Instr.operands, opFault, Operand.ofReg] using hf
    change Except.ok _ = _ at h
    cases h
    simp only [Isa.exec, operand_ok hf, ok_bind]
    change (pure (if c.taken (s.get (.int .flags)) = true then _ else _) : Res State) =
      Except.ok (retireFx _ _ (List.foldl actStep _ (if c.taken (s.get (.int .flags)) = true then _ else _)).1)
    by_cases ht : c.taken (s.get (.int .flags)) = true
    · rw [if_pos ht, if_pos ht]; rfl
    · rw [if_neg ht, if_neg ht]; rfl
  case loop d a =>
    have hf : opFault s a = false := by
      simpa [faultOf, opsOf, Instr.operands, opFault, Operand.ofReg] using hf
    have hne : d ≠ .pc ∧ d ≠ .flags := by
      apply destReg_ne (cfg := cfg)
      simp only [Instr.wf, Bool.and_eq_true] at hw; exact hw.1
    change Instr.exec cfg _ [_, _] = _ at h
    rw [exec_loop, bind_ok_iff] at h
    obtain ⟨r, ha, h⟩ := h
    cases h
    change Alu.subtract cfg.mode (s.get (.int d)) 1 = _ at ha
    simp only [Isa.exec, operand_ok hf, ha, ok_bind]
    by_cases hz : r.value ≠ 0
    · rw [if_pos hz, if_pos hz]
      simp only [List.foldl, List.cons_append, List.nil_append]
      rw [actStep_set_ne (r := .int d) (by simpa using hne.1)]
      rfl
    · rw [if_neg hz, if_neg hz]
      simp only [List.foldl, List.cons_append, List.append_nil]
      rw [actStep_set_ne (r := .int d) (by simpa using hne.1)]
      rfl
  case call a =>
    have hf : opFault s a = false := by
      simpa [faultOf, opsOf, Instr.operands, opFault, Operand.ofReg] using hf
    change Instr.exec cfg _ [_, _, _] = _ at h
    rw [exec_call, bind_ok_iff] at h
    obtain ⟨sp, ha, h⟩ := h
    cases h
    have ha := ssub_ok_eq ha
    subst ha
    have := hs _ _ rfl
    obtain ⟨w, hw⟩ := Option.isSome_iff_exists.1 this
    simp only [Isa.exec, operand_ok hf, ok_bind, State.store]
    change s.mem (s.get (.int .sp) - 1) = _ at hw
    rw [hw]
    rfl
  case ret =>
    have hf : opFault s .top = false := by
      simp only [faultOf, opsOf, Instr.operands, List.any_cons, Bool.or_eq_false_iff] at hf; exact hf.1
    change Instr.exec cfg _ [_, _] = _ at h
    rw [exec_ret, bind_ok_iff] at h
    obtain ⟨sp, ha, h⟩ := h
    cases h
    have ha := sadd_ok_eq ha
    subst ha
    have hl := operand_ok hf
    change s.load (s.get (.int .sp)) = _ at hl
    simp only [Isa.exec, hl]
    rfl
  case push v =>
    have hf : opFault s v = false := by
      simpa [faultOf, opsOf, Instr.operands, opFault, Operand.ofReg] using hf
    change Instr.exec cfg _ [_, _] = _ at h
    rw [exec_push, bind_ok_iff] at h
    obtain ⟨sp, ha, h⟩ := h
    cases h
    have ha := ssub_ok_eq ha
    subst ha
    have := hs _ _ rfl
    obtain ⟨w, hw⟩ := Option.isSome_iff_exists.1 this
    simp only [Isa.exec, operand_ok hf, ok_bind, State.store]
    change s.mem (s.get (.int .sp) - 1) = _ at hw
    rw [hw]
    rfl
  case fpush v =>
    have hf : opFault s v = false := by
      simpa [faultOf, opsOf, Instr.operands, opFault, Operand.ofReg] using hf
    change Instr.exec cfg _ [_, _] = _ at h
    rw [exec_fpush, bind_ok_iff] at h
    obtain ⟨sp, ha, h⟩ := h
    cases h
    have ha := ssub_ok_eq ha
    subst ha
    have := hs _ _ rfl
    obtain ⟨w, hw⟩ := Option.isSome_iff_exists.1 this
    simp only [Isa.exec, operand_ok hf, ok_bind, State.store]
    change s.mem (s.get (.int .sp) - 1) = _ at hw
    rw [hw]
    rfl
  case pop d =>
    have hne : (d ≠ .pc ∧ d ≠ .flags) ∧ d ≠ .sp := by
      simp only [Instr.wf, Bool.and_eq_true] at hw
      exact ⟨destReg_ne hw.1, by simpa using hw.2⟩
    have hf : opFault s .top = false := by
      simp only [faultOf, opsOf, Instr.operands, List.any_cons, Bool.or_eq_false_iff] at hf; exact hf.1
    change Instr.exec cfg _ [_, _] = _ at h
    rw [exec_pop, bind_ok_iff] at h
    obtain ⟨sp, ha, h⟩ := h
    cases h
    have ha := sadd_ok_eq ha
    subst ha
    have hl := operand_ok hf
    change s.load (s.get (.int .sp)) = _ at hl
    simp only [Isa.exec, hl, List.foldl]
    rw [actStep_set_ne (r := .int d) (by simpa using hne.1.1)]
    rfl
  case fpop f =>
    have hf : opFault s .top = false := by
      simp only [faultOf, opsOf, Instr.operands, List.any_cons, Bool.or_eq_false_iff] at hf; exact hf.1
    change Instr.exec cfg _ [_, _] = _ at h
    rw [exec_fpop, bind_ok_iff] at h
    obtain ⟨sp, ha, h⟩ := h
    cases h
    have ha := sadd_ok_eq ha
    subst ha
    have hl := operand_ok hf
    change s.load (s.get (.int .sp)) = _ at hl
    simp only [Isa.exec, hl, List.foldl]
    rfl
  case nrw d f =>
    have hne : d ≠ .pc ∧ d ≠ .flags := by
      apply destReg_ne (cfg := cfg)
      simp only [Instr.wf, Bool.and_eq_true] at hw; exact hw.1
    change Instr.exec cfg _ [_] = _ at h
    rw [exec_nrw] at h
    change (match cfg.fo.toInt (s.get (.flt f)) with | some w => _ | none => _) = _ at h
    split at h
    · next w hw' =>
      cases h
      simp only [Isa.exec, hw', List.foldl]
      rw [actStep_set_ne (r := .int d) (by simpa using hne.1)]
      rfl
    · cases h
  case getchar d =>
    have := hi d rfl
    change Except.ok _ = _ at h
    cases h
    simp only [Isa.exec, List.foldl, retireFx]
    change _ = Except.ok (match skipSpace s.inp with | [] => _ | b :: rest => _)
    cases hk : skipSpace s.inp with
    | nil => exact absurd hk this
    | cons b rest => rfl
  all_goals
    change Except.ok _ = _ at h
    cases h
    rfl

/-- A bad operand read is an error in the specification. -/
theorem exec_fault {i : Instr} (hw : i.wf cfg = true) (hf : faultOf s i = true) :
    Isa.exec cfg s i = .error (.exn .outOfRange) := by
  have ofreg : ∀ (r : Reg), opFault s (.ofReg r) = false := fun _ => rfl
  have ofregs : ∀ l : List Reg, (l.map Operand.ofReg).any (opFault s) = false := by
    intro l; induction l with
    | nil => rfl
    | cons a l ih => simp [ofreg, ih]
  have top : opFault s .top = true → s.load (s.get (.int .sp)) = .error (.exn .outOfRange) := fun h => operand_fault h
  cases i
  case mov dst v =>
    have hf : opFault s v = true := by
      cases dst
      case val e => cases e <;> simpa [faultOf, opsOf, Instr.operands, ofregs] using hf
      all_goals simpa [faultOf, opsOf, Instr.operands, ofregs] using hf
    simp only [Isa.exec, operand_fault hf, error_bind]
  case lea d m =>
    cases m
    case mem e =>
      cases e
      all_goals simp only [faultOf, opsOf, Instr.operands, ofregs] at hf; simp at hf
    all_goals simp [Instr.wf] at hw
  case ret =>
    simp only [faultOf, opsOf, Instr.operands, List.any_cons, ofreg, List.any_nil, Bool.or_false, Bool.false_or] at hf
    simp only [Isa.exec, top hf, error_bind]
  case pop =>
    simp only [faultOf, opsOf, Instr.operands, List.any_cons, ofreg, List.any_nil, Bool.or_false, Bool.false_or] at hf
    simp only [Isa.exec, top hf, error_bind]
  case fpop =>
    simp only [faultOf, opsOf, Instr.operands, List.any_cons, ofreg, List.any_nil, Bool.or_false, Bool.false_or] at hf
    simp only [Isa.exec, top hf, error_bind]
  all_goals
    have offreg : ∀ (r : Nat), opFault s (.freg r) = false := fun _ => rfl
    simp only [faultOf, opsOf, Instr.operands, List.any_cons, ofreg, offreg, List.any_nil, Bool.or_false, Bool.false_or,
      Bool.false_eq_true] at hf
    try simp only [Isa.exec, operand_fault hf, error_bind]

/-- A store to a missing cell is an error in the specification. -/
theorem exec_bad_store {i : Instr} {a v : Word} (hw : i.wf cfg = true)
    (hs : storeOf cfg s i = some (a, v)) (hm : s.mem a = none) :
    Isa.exec cfg s i = .error (.exn .outOfRange) := by
  by_cases hf : faultOf s i = true
  · exact exec_fault hw hf
  rw [Bool.not_eq_true] at hf
  unfold storeOf at hs
  split at hs
  case h_2 => cases hs
  next x h =>
  cases i
  case mov dst v' =>
    cases dst
    case memImm a' =>
      have hf' : opFault s v' = false := by simpa [faultOf, opsOf, Instr.operands] using hf
      change Except.ok _ = _ at h
      cases h
      cases hs
      simp only [Isa.exec, operand_ok hf', ok_bind, State.store, hm, error_bind]
    case mem e =>
      have hf : opFault s v' = false := by
        simp only [faultOf, opsOf, Instr.operands, List.any_cons, Bool.or_eq_false_iff] at hf; exact hf.1
      rw [valsOf_mov_mem, exec_mov_mem, bind_ok_iff] at h
      obtain ⟨a', ha, h⟩ := h
      cases h
      have ha := address_ok_eq ha
      subst ha
      cases hs
      simp only [Isa.exec, operand_ok hf, ok_bind, State.store, hm, error_bind]
    case val e =>
      cases e
      case reg d => cases h; cases hs
      all_goals simp [Instr.wf] at hw
    case freg => cases h; cases hs
    all_goals simp [Instr.wf] at hw
  case call a' =>
    have hf : opFault s a' = false := by
      simpa [faultOf, opsOf, Instr.operands, opFault, Operand.ofReg] using hf
    change Instr.exec cfg _ [_, _, _] = _ at h
    rw [exec_call, bind_ok_iff] at h
    obtain ⟨sp, ha, h⟩ := h
    cases h
    have ha := ssub_ok_eq ha
    subst ha
    cases hs
    change s.mem (s.get (.int .sp) - 1) = _ at hm
    simp only [Isa.exec, operand_ok hf, ok_bind, State.store, hm, error_bind]
  case push v' =>
    have hf : opFault s v' = false := by
      simpa [faultOf, opsOf, Instr.operands, opFault, Operand.ofReg] using hf
    change Instr.exec cfg _ [_, _] = _ at h
    rw [exec_push, bind_ok_iff] at h
    obtain ⟨sp, ha, h⟩ := h
    cases h
    have ha := ssub_ok_eq ha
    subst ha
    cases hs
    change s.mem (s.get (.int .sp) - 1) = _ at hm
    simp only [Isa.exec, operand_ok hf, ok_bind, State.store, hm, error_bind]
  case fpush v' =>
    have hf : opFault s v' = false := by
      simpa [faultOf, opsOf, Instr.operands, opFault, Operand.ofReg] using hf
    change Instr.exec cfg _ [_, _] = _ at h
    rw [exec_fpush, bind_ok_iff] at h
    obtain ⟨sp, ha, h⟩ := h
    cases h
    have ha := ssub_ok_eq ha
    subst ha
    cases hs
    change s.mem (s.get (.int .sp) - 1) = _ at hm
    simp only [Isa.exec, operand_ok hf, ok_bind, State.store, hm, error_bind]
  all_goals
    exfalso
    have sh := (exec_shape hw h).mem
    have he : actMems x.acts = [] := by
      simpa [storeProd, prodsOf, Instr.produces, store?_reg, store?_freg, List.findSome?] using sh
    rw [actsStore_none he] at hs
    cases hs

/-! ## Components of the effect -/

theorem foldl_actStep_reg {acts : List Act} {x : State × Option Word} {r : LReg}
    (h : ∀ v, (r, v) ∉ actSets acts) (hr : r ≠ .int .pc) : (acts.foldl actStep x).1.reg r = x.1.reg r := by
  induction acts generalizing x with
  | nil => rfl
  | cons a l ih =>
    rw [List.foldl_cons]
    cases a with
    | set r' v =>
      have h1 : r ≠ r' := by
        rintro rfl; exact h v (by simp [actSets])
      rw [ih (fun w hw => h w (by simp [actSets] at hw ⊢; exact Or.inr hw))]
      by_cases hp : r' = .int .pc
      · subst hp; rfl
      · rw [actStep_set_ne hp]; simp [State.set, h1]
    | specifyAddress b =>
      rw [ih (fun w hw => h w (by simpa [actSets] using hw))]; rfl
    | setValue w =>
      rw [ih (fun w hw => h w (by simpa [actSets] using hw))]
      simp only [actStep]
      split <;> rfl

theorem foldl_actStep_reg_mem {acts : List Act} {x : State × Option Word} {r : LReg} {v : Word}
    (hn : ((actSets acts).map Prod.fst).Nodup)
    (h : (r, v) ∈ actSets acts) (hr : r ≠ .int .pc) : (acts.foldl actStep x).1.reg r = v := by
  induction acts generalizing x with
  | nil => simp [actSets] at h
  | cons a l ih =>
    rw [List.foldl_cons]
    cases a with
    | set r' w =>
      have hc : actSets (.set r' w :: l) = (r', w) :: actSets l := rfl
      rw [hc] at h hn
      simp only [List.map_cons, List.nodup_cons] at hn
      rcases List.mem_cons.1 h with h | h
      · cases h
        rw [foldl_actStep_reg (fun w hw => hn.1 (List.mem_map_of_mem hw)) hr, actStep_set_ne hr]
        simp [State.set]
      · exact ih hn.2 h
    | specifyAddress b => exact ih hn h
    | setValue w => exact ih hn h

theorem foldl_actStep_pc {acts : List Act} {x : State × Option Word}
    (h : ∀ v, (LReg.int .pc, v) ∉ actSets acts) : (acts.foldl actStep x).1.pc = x.1.pc := by
  induction acts generalizing x with
  | nil => rfl
  | cons a l ih =>
    rw [List.foldl_cons]
    cases a with
    | set r' v =>
      have h1 : LReg.int .pc ≠ r' := by
        rintro rfl; exact h v (by simp [actSets])
      rw [ih (fun w hw => h w (by simp [actSets] at hw ⊢; exact Or.inr hw)), actStep_set_ne (Ne.symm h1)]
      rfl
    | specifyAddress b =>
      rw [ih (fun w hw => h w (by simpa [actSets] using hw))]; rfl
    | setValue w =>
      rw [ih (fun w hw => h w (by simpa [actSets] using hw))]
      simp only [actStep]
      split <;> rfl

theorem foldl_actStep_pc_mem {acts : List Act} {x : State × Option Word} {v : Word}
    (hn : ((actSets acts).map Prod.fst).Nodup)
    (h : (LReg.int .pc, v) ∈ actSets acts) : (acts.foldl actStep x).1.pc = v := by
  induction acts generalizing x with
  | nil => simp [actSets] at h
  | cons a l ih =>
    rw [List.foldl_cons]
    cases a with
    | set r' w =>
      have hc : actSets (.set r' w :: l) = (r', w) :: actSets l := rfl
      rw [hc] at h hn
      simp only [List.map_cons, List.nodup_cons] at hn
      rcases List.mem_cons.1 h with h | h
      · cases h
        rw [foldl_actStep_pc (fun w hw => hn.1 (List.mem_map_of_mem hw))]
        rfl
      · exact ih hn.2 h
    | specifyAddress b => exact ih hn h
    | setValue w => exact ih hn h

/-- The memory after a store. -/
def storeMem (st : Option (Word × Word)) (mem : Word → Option Word) : Word → Option Word :=
  match st with
  | none => mem
  | some (a, v) => fun a' => if a' = a then some v else mem a'

theorem foldl_actStep_mem_none {acts : List Act} {x : State × Option Word} (h : actMems acts = []) :
    (acts.foldl actStep x).1.mem = x.1.mem ∧ actsStore x.2 acts = none := by
  induction acts generalizing x with
  | nil => exact ⟨rfl, by cases x.2 <;> rfl⟩
  | cons a l ih =>
    cases a with
    | set r' v =>
      rw [List.foldl_cons]
      obtain ⟨h1, h2⟩ := ih (x := actStep x (.set r' v)) (by simpa [actMems] using h)
      have hx : (actStep x (.set r' v)).1.mem = x.1.mem ∧ (actStep x (.set r' v)).2 = x.2 := by
        by_cases hp : r' = .int .pc
        · subst hp; exact ⟨rfl, rfl⟩
        · rw [actStep_set_ne hp]; exact ⟨rfl, rfl⟩
      refine ⟨h1.trans hx.1, ?_⟩
      rw [hx.2] at h2
      cases hx2 : x.2 <;> rw [hx2] at h2 <;> simpa [actsStore] using h2
    | specifyAddress b => simp [actMems] at h
    | setValue w => simp [actMems] at h

theorem foldl_actStep_mem_one {acts : List Act} {x : State × Option Word} {a v : Word} (h : actMems acts = [.setValue v])
    (hx : x.2 = some a) :
    (acts.foldl actStep x).1.mem = storeMem (some (a, v)) x.1.mem ∧ actsStore x.2 acts = some (a, v) := by
  induction acts generalizing x with
  | nil => simp [actMems] at h
  | cons b l ih =>
    rw [List.foldl_cons]
    cases b with
    | set r' v =>
      have hx' : (actStep x (.set r' v)).1.mem = x.1.mem ∧ (actStep x (.set r' v)).2 = x.2 := by
        by_cases hp : r' = .int .pc
        · subst hp; exact ⟨rfl, rfl⟩
        · rw [actStep_set_ne hp]; exact ⟨rfl, rfl⟩
      obtain ⟨h1, h2⟩ := ih (x := actStep x (.set r' v)) (by simpa [actMems] using h) (hx'.2.trans hx)
      rw [hx'.1] at h1
      rw [hx'.2] at h2
      refine ⟨h1, ?_⟩
      rw [hx] at h2 ⊢
      simpa [actsStore] using h2
    | specifyAddress b => simp [actMems] at h
    | setValue w =>
      have h' : w = v ∧ actMems l = [] := by simpa [actMems] using h
      obtain ⟨rfl, h'⟩ := h'
      obtain ⟨h1, h2⟩ := foldl_actStep_mem_none (x := actStep x (.setValue w)) h'
      rw [h1]
      obtain ⟨s, o⟩ := x
      simp only at hx
      subst hx
      exact ⟨rfl, rfl⟩

theorem foldl_actStep_mem_two {acts : List Act} {x : State × Option Word} {a v : Word}
    (h : actMems acts = [.specifyAddress a, .setValue v]) :
    (acts.foldl actStep x).1.mem = storeMem (some (a, v)) x.1.mem ∧ actsStore x.2 acts = some (a, v) := by
  induction acts generalizing x with
  | nil => simp [actMems] at h
  | cons b l ih =>
    rw [List.foldl_cons]
    cases b with
    | set r' v =>
      have hx' : (actStep x (.set r' v)).1.mem = x.1.mem ∧ (actStep x (.set r' v)).2 = x.2 := by
        by_cases hp : r' = .int .pc
        · subst hp; exact ⟨rfl, rfl⟩
        · rw [actStep_set_ne hp]; exact ⟨rfl, rfl⟩
      obtain ⟨h1, h2⟩ := ih (x := actStep x (.set r' v)) (by simpa [actMems] using h)
      rw [hx'.1] at h1
      rw [hx'.2] at h2
      refine ⟨h1, ?_⟩
      cases hx2 : x.2 <;> rw [hx2] at h2 <;> simpa [actsStore] using h2
    | specifyAddress b =>
      have h' : b = a ∧ actMems l = [.setValue v] := by simpa [actMems] using h
      obtain ⟨rfl, h'⟩ := h'
      obtain ⟨h1, h2⟩ := foldl_actStep_mem_one (x := actStep x (.specifyAddress b)) (a := b) h' rfl
      refine ⟨h1, ?_⟩
      change actsStore (some b) l = _ at h2
      cases hx2 : x.2 <;> simpa [actsStore] using h2
    | setValue w => simp [actMems] at h

theorem foldl_actStep_io {acts : List Act} {x : State × Option Word} :
    (acts.foldl actStep x).1.out = x.1.out ∧ (acts.foldl actStep x).1.inp = x.1.inp ∧
    (acts.foldl actStep x).1.halted = x.1.halted := by
  induction acts generalizing x with
  | nil => exact ⟨rfl, rfl, rfl⟩
  | cons a l ih =>
    rw [List.foldl_cons]
    obtain ⟨h1, h2, h3⟩ := ih (x := actStep x a)
    have : (actStep x a).1.out = x.1.out ∧ (actStep x a).1.inp = x.1.inp ∧ (actStep x a).1.halted = x.1.halted := by
      cases a with
      | set r v => 
        by_cases hp : r = .int .pc
        · subst hp; exact ⟨rfl, rfl, rfl⟩
        · rw [actStep_set_ne hp]; exact ⟨rfl, rfl, rfl⟩
      | specifyAddress => exact ⟨rfl, rfl, rfl⟩
      | setValue => simp only [actStep]; split <;> exact ⟨rfl, rfl, rfl⟩
    exact ⟨h1.trans this.1, h2.trans this.2.1, h3.trans this.2.2⟩

variable {i : Instr} {x : ExecOut}

theorem retireFx_pc (vs : List Word) (t : State) : (retireFx i vs t).pc = t.pc := by
  cases i <;> try rfl
  simp only [retireFx]; split <;> rfl

theorem retireFx_mem (vs : List Word) (t : State) : (retireFx i vs t).mem = t.mem := by
  cases i <;> try rfl
  simp only [retireFx]; split <;> rfl

theorem retireFx_reg (vs : List Word) (t : State) {r : LReg} (h : lateReg i ≠ some r) :
    (retireFx i vs t).reg r = t.reg r := by
  cases i <;> try rfl
  · have : r ≠ .int .flags := fun hr => h (by rw [hr]; rfl)
    simp [retireFx, State.setFlags, State.set, this]
  · next d =>
    have : r ≠ .int d := fun hr => h (by rw [hr]; rfl)
    simp only [retireFx]; split
    · rfl
    · simp [State.set, this]

theorem dataStep_ok (h : i.exec cfg (valsOf s i) = .ok x) :
    dataStep cfg s i = retireFx i (valsOf s i) (x.acts.foldl actStep (s.next, staticAddr i)).1 := by
  simp only [dataStep, h]

theorem dataStep_error {f : Fault} (h : i.exec cfg (valsOf s i) = .error f) : dataStep cfg s i = s.next := by
  simp only [dataStep, h]

theorem dataStep_reg_set (hw : i.wf cfg = true) (h : i.exec cfg (valsOf s i) = .ok x) {r : LReg} {v : Word}
    (hm : (r, v) ∈ actSets x.acts) (hr : r ≠ .int .pc) : (dataStep cfg s i).reg r = v := by
  have sh := exec_shape hw h
  rw [dataStep_ok h, retireFx_reg, foldl_actStep_reg_mem sh.nodup hm hr]
  rcases sh.sub r v hm with ⟨h1, _⟩ | ⟨_, _, h1⟩
  · exact absurd h1 hr
  · exact h1

theorem lateReg_mem (hw : i.wf cfg = true) {r : LReg} (h : lateReg i = some r) : r ∈ regProds i := by
  cases i <;> try cases h
  · simp [regProds, prodsOf, Instr.produces, lreg?_flags]
  · next d =>
    have hne := destReg_ne (cfg := cfg) (d := d) (by simpa only [Instr.wf] using hw)
    simp [regProds, prodsOf, Instr.produces, lreg?_reg hne.1]

theorem dataStep_reg_other (hw : i.wf cfg = true) {r : LReg} (hr : r ∉ regProds i) (hp : r ≠ .int .pc) :
    (dataStep cfg s i).reg r = s.reg r := by
  cases h : i.exec cfg (valsOf s i) with
  | error f => rw [dataStep_error h]; rfl
  | ok x =>
    have sh := exec_shape hw h
    rw [dataStep_ok h, retireFx_reg, foldl_actStep_reg _ hp]
    · rfl
    · intro v hv
      rcases sh.sub r v hv with ⟨h1, _⟩ | ⟨_, h1, _⟩
      · exact hp h1
      · exact hr h1
    · intro hl; exact hr (lateReg_mem hw hl)

theorem dataStep_pc_set (hw : i.wf cfg = true) (h : i.exec cfg (valsOf s i) = .ok x) {v : Word}
    (hm : (LReg.int .pc, v) ∈ actSets x.acts) : (dataStep cfg s i).pc = v := by
  rw [dataStep_ok h, retireFx_pc, foldl_actStep_pc_mem (exec_shape hw h).nodup hm]

theorem dataStep_pc_other (h : i.exec cfg (valsOf s i) = .ok x)
    (hm : ∀ v, (LReg.int .pc, v) ∉ actSets x.acts) : (dataStep cfg s i).pc = s.pc + 1 := by
  rw [dataStep_ok h, retireFx_pc, foldl_actStep_pc hm]; rfl

theorem dataStep_pc_nojump (hw : i.wf cfg = true) (hj : i.jumpDest = none) : (dataStep cfg s i).pc = s.pc + 1 := by
  cases h : i.exec cfg (valsOf s i) with
  | error f => rw [dataStep_error h]; rfl
  | ok x =>
    apply dataStep_pc_other h
    intro v hv
    rcases (exec_shape hw h).sub _ v hv with ⟨_, h1⟩ | ⟨h1, _⟩
    · rw [hj] at h1; cases h1
    · exact h1 rfl

/-- The memory after an instruction, and when it writes. -/
theorem dataStep_mem (hw : i.wf cfg = true) : (dataStep cfg s i).mem = storeMem (storeOf cfg s i) s.mem := by
  cases h : i.exec cfg (valsOf s i) with
  | error f => rw [dataStep_error h]; simp only [storeOf, h]; rfl
  | ok x =>
    have sh := (exec_shape hw h).mem
    rw [dataStep_ok h, retireFx_mem]
    simp only [storeOf, h]
    split at sh
    · obtain ⟨h1, h2⟩ := foldl_actStep_mem_none (x := (s.next, staticAddr i)) sh
      rw [h1, h2]; rfl
    · obtain ⟨ha, v, hv⟩ := sh
      obtain ⟨h1, h2⟩ := foldl_actStep_mem_one (x := (s.next, staticAddr i)) hv ha
      rw [h1, h2]; rfl
    · obtain ⟨ha, a, v, hv⟩ := sh
      obtain ⟨h1, h2⟩ := foldl_actStep_mem_two (x := (s.next, staticAddr i)) hv
      rw [h1, h2]; rfl

theorem storeOf_none (hw : i.wf cfg = true) (h : storeProd i = none) : storeOf cfg s i = none := by
  cases hx : i.exec cfg (valsOf s i) with
  | error f => simp only [storeOf, hx]
  | ok x =>
    have sh := (exec_shape hw hx).mem
    rw [h] at sh
    simp only [storeOf, hx]
    exact (foldl_actStep_mem_none (x := (s.next, staticAddr i)) sh).2

theorem storeOf_static (hw : i.wf cfg = true) {a : Word} (h : storeProd i = some (some a))
    (hx : i.exec cfg (valsOf s i) = .ok x) : ∃ v, actMems x.acts = [.setValue v] ∧ storeOf cfg s i = some (a, v) := by
  have sh := (exec_shape hw hx).mem
  rw [h] at sh
  obtain ⟨ha, v, hv⟩ := sh
  refine ⟨v, hv, ?_⟩
  simp only [storeOf, hx]
  exact (foldl_actStep_mem_one (x := (s.next, staticAddr i)) hv ha).2

theorem storeOf_dynamic (hw : i.wf cfg = true) (h : storeProd i = some none)
    (hx : i.exec cfg (valsOf s i) = .ok x) :
    ∃ a v, actMems x.acts = [.specifyAddress a, .setValue v] ∧ storeOf cfg s i = some (a, v) := by
  have sh := (exec_shape hw hx).mem
  rw [h] at sh
  obtain ⟨ha, a, v, hv⟩ := sh
  refine ⟨a, v, hv, ?_⟩
  simp only [storeOf, hx]
  exact (foldl_actStep_mem_two (x := (s.next, staticAddr i)) hv).2

/-- With an address known in advance, the only cell that can change is that one. -/
theorem storeOf_static_addr (hw : i.wf cfg = true) {a a' v : Word} (h : storeProd i = some (some a))
    (hs : storeOf cfg s i = some (a', v)) : a' = a := by
  cases hx : i.exec cfg (valsOf s i) with
  | error f => simp only [storeOf, hx] at hs; cases hs
  | ok x =>
    obtain ⟨w, _, h2⟩ := storeOf_static hw h hx
    rw [h2] at hs; cases hs; rfl

end

end T86
