import Verif.Lemmas.Mem

/-! Operand fetching preserves the invariant. -/

set_option linter.unusedSimpArgs false
set_option linter.unusedVariables false

namespace T86
open Isa

section
variable {cfg : Cfg}

/-- Undefined behaviour of a machine whose signed overflow is undefined. -/
def StrictUb (cfg : Cfg) (f : Fault) : Prop := f = .ub ∧ cfg.mode = .strict

theorem hostUb_mode (prog : List Instr) (f : Fault) (h : StrictUb cfg f) : HostUb cfg prog f := ⟨h.1, Or.inl h.2⟩

theorem wf_fetchAt {prog : List Instr} (h : ∀ i ∈ prog, i.wf cfg = true) (pc : Word) :
    (fetchAt prog pc).wf cfg = true := by
  unfold fetchAt
  rw [List.getD_eq_getElem?_getD]
  cases hg : prog[pc.toNat]? with
  | none => rfl
  | some i => exact h i (List.mem_of_getElem? hg)

theorem EntryOK.wf {X : Ctx} {S : State} {m : Nat} {b : Rat} {n : Nat} {e : Entry} (h : EntryOK cfg X S m b n e)
    (hp : ∀ i ∈ X.prog, i.wf cfg = true) : e.instr.wf cfg = true := by
  rw [h.instr]; exact wf_fetchAt hp _

/-- Reading memory for an entry. -/
theorem entryReadMemory_sat {wm : Writes} {ram : Ram} {mem0 : Word → Option Word} {S : State} {m0 m : Nat} {a : Word}
    (hw : WmOK wm m0) (hr : RamOK cfg ram wm.outs mem0) (hm : MemOK wm mem0 S m) (hle : m0 ≤ m) :
    Sat (Cpu.entryReadMemory wm ram a m) (fun y => RamOK cfg y.2.1 wm.outs mem0 ∧
      (∀ v, y.1 = some v → v = (S.mem a).getD (-1) ∧ y.2.2 = (S.mem a).isNone) ∧ (y.1 = none → y.2.2 = false))
      (fun _ => False) := by
  unfold Cpu.entryReadMemory Cpu.readMemory
  by_cases hu : wm.hasUnspecified m = true
  · rw [if_pos hu]
    exact ⟨hr, by simp, by simp⟩
  · rw [if_neg hu]
    have hu' : ∀ u ∈ wm.unspec, m < u := by
      intro u hu'
      by_contra hlt
      exact hu (List.any_eq_true.2 ⟨u, hu', by simpa using hlt⟩)
    have hma := hm hu' a
    cases hp : wm.previousWrite a m with
    | some w =>
      rw [hp] at hma
      refine ⟨hr, ?_, by simp⟩
      intro v hv
      have := hma v hv
      simp [this]
    | none =>
      rw [hp] at hma
      simp only at hma
      have hnw : ∀ we ∈ ram.writes, we.addr ≠ a := by
        intro we hwe ha
        obtain ⟨x, hx, _, h2, _⟩ := hr.writes we hwe
        obtain ⟨w, hw1, _, rfl⟩ := outs_mem hx
        have h3 := hw.outs_le hx
        have := previousWrite_none hp w hw1 (h2.trans ha)
        simp only at h3
        omega
      simp only
      unfold Ram.read
      cases hf : ram.reads.find? (·.addr == a) with
      | some x =>
        simp only
        have hx := hr.reads x (List.mem_of_find?_eq_some hf)
        have hxa : x.addr = a := by simpa using List.find?_some hf
        have hv : mem0 a = some x.value := by
          rcases hx.2 with h | ⟨w, h1, h2, _⟩
          · rw [← hxa]; exact h
          · exact absurd (h2.trans hxa) (hnw w h1)
        refine ⟨hr, ?_, by simp⟩
        intro v h
        split at h
        · cases h
          rw [hma, hv]; simp
        · cases h
      | none =>
        simp only
        by_cases hb : ram.isBusy = true
        · rw [if_pos hb]; exact ⟨hr, by simp, by simp⟩
        · rw [if_neg hb]
          have hany : ram.writes.any (·.addr == a) = false := by
            rw [List.any_eq_false]
            intro we hwe
            simpa using hnw we hwe
          rw [hany]
          have hme := hr.memEq a
          cases hv : ram.mem[a.toNat]? with
          | none =>
            simp only [Bool.false_eq_true, if_false]
            refine ⟨hr, ?_, by simp⟩
            intro v h
            cases h
            rw [hma, hme, hv]; simp
          | some v0 =>
            simp only [Bool.false_eq_true, if_false]
            refine ⟨⟨hr.size, hr.memEq, ?_, hr.writes, hr.outRid, hr.newest, hr.inj⟩, by simp, by simp⟩
            intro x hx
            rcases List.mem_cons.1 hx with rfl | hx
            · exact ⟨Nat.le_refl _, Or.inl (by rw [hme, hv])⟩
            · exact hr.reads x hx

theorem req_mem_regs (e : RegExpr) : e.req ∈ e.regs := by cases e <;> simp [RegExpr.req, RegExpr.regs]

theorem RegExpr.ok_req {e : RegExpr} (h : e.ok cfg = true) : ∃ k, cfg.key (.int e.req) = some k := by
  unfold RegExpr.ok at h
  rw [List.all_eq_true] at h
  exact Option.isSome_iff_exists.1 (h _ (req_mem_regs e))

theorem RegExpr.ok_tail {e e' : RegExpr} {r : Reg} (h : e.ok cfg = true) (he : e.regs = r :: e'.regs) : e'.ok cfg = true := by
  unfold RegExpr.ok at h ⊢
  rw [List.all_eq_true] at h ⊢
  intro x hx
  exact h x (by rw [he]; exact List.mem_cons_of_mem _ hx)

theorem regs_get {regs : Regs} {p : Nat} {c : PReg} (h : regs[p]? = some c) : Regs.get regs p = .ok c := by
  unfold Regs.get; rw [h]

/-- The lookup for the statistics finds its register. -/
theorem peekStall_sat {X : Ctx} {S : State} {m : Nat} {b : Rat} {n : Nat} {e : Entry} {op : Operand}
    (he : EntryOK cfg X S m b n e) (hst : e.st ≠ .retiring) (hb : TblOK cfg X.regs S b) (hok : op.ok cfg = true)
    (hop : (∃ x, op = .val x) ∨ ∃ x, op = .mem x) :
    Sat (Cpu.peekStall cfg X.regs e.rrat op) (fun _ => True) (StrictUb cfg) := by
  have look : ∀ {x : RegExpr}, x.ok cfg = true → Sat (do
      let p ← e.rrat.translate cfg (.int x.req)
      let _ ← Regs.get X.regs p
      return ()) (fun _ => True) (StrictUb cfg) := by
    intro x hx
    obtain ⟨k, hk⟩ := RegExpr.ok_req (e := x) hx
    obtain ⟨p, c, h1, h2, _⟩ := he.read hst hb hk
    simp only [h1, ok_bind, regs_get h2]
    trivial
  unfold Cpu.peekStall
  rcases hop with ⟨x, rfl⟩ | ⟨x, rfl⟩
  · refine Sat.bind (P := fun op' => op'.isFetched = true ∨ ∃ x', op' = .val x' ∧ x'.ok cfg = true) ?_ ?_
    · refine Sat.bind ((supply_sat cfg.mode (fun _ => 0) x).mono (fun _ h => h) (fun _ h => h)) ?_
      rintro (w | x') ⟨_, g2⟩
      · exact Or.inl rfl
      · exact Or.inr ⟨x', rfl, RegExpr.ok_tail hok g2.2⟩
    · rintro op' (h | ⟨x', rfl, h⟩)
      · rw [if_pos h]; trivial
      · rw [if_neg (by simp [Operand.isFetched])]
        exact look h
  · refine Sat.bind (P := fun op' => (∃ a, op' = .memImm a) ∨ ∃ x', op' = .mem x' ∧ x'.ok cfg = true) ?_ ?_
    · refine Sat.bind ((supply_sat cfg.mode (fun _ => 0) x).mono (fun _ h => h) (fun _ h => h)) ?_
      rintro (w | x') ⟨_, g2⟩
      · exact Or.inl ⟨w, rfl⟩
      · exact Or.inr ⟨x', rfl, RegExpr.ok_tail hok g2.2⟩
    · rintro op' (⟨a, rfl⟩ | ⟨x', rfl, h⟩)
      · trivial
      · rw [if_neg (by simp [Operand.isFetched])]
        exact look h

/-- One step of operand fetching. -/
theorem fetchStep_sat {X : Ctx} {S : State} {m0 m : Nat} {b : Rat} {n : Nat} {e : Entry} {mem0 : Word → Option Word}
    {ram : Ram} {op : Operand}
    (he : EntryOK cfg X S m b n e) (hst : e.st ≠ .retiring) (hb : TblOK cfg X.regs S b)
    (hw : WmOK X.wm m0) (hr : RamOK cfg ram X.wm.outs mem0) (hm : MemOK X.wm mem0 S e.maxW) (hle : m0 ≤ e.maxW)
    (hok : op.ok cfg = true) (hf : op.isFetched = false) :
    Sat (Cpu.fetchStep cfg X.regs X.wm e.rrat e.maxW ram op) (fun y => RamOK cfg y.2.1 X.wm.outs mem0 ∧
      (∀ op', y.1 = some op' → opVal S op' = opVal S op ∧ op'.ok cfg = true ∧
        (y.2.2 || opFault S op') = opFault S op ∧ op.steps = op'.steps + 1) ∧ (y.1 = none → y.2.2 = false)) (StrictUb cfg) := by
  cases op with
  | imm w => simp [Operand.isFetched] at hf
  | fimm w => simp [Operand.isFetched] at hf
  | val x =>
    obtain ⟨k, hk⟩ := RegExpr.ok_req (e := x) hok
    obtain ⟨p, c, h1, h2, h3⟩ := he.read hst hb hk
    simp only [Cpu.fetchStep, Operand.requirement, ok_bind, h1, regs_get h2]
    by_cases hc : c.ready = true
    · rw [if_pos hc, h3 hc]
      simp only [Operand.supply]
      refine Sat.bind (P := fun op' => opVal S op' = opVal S (.val x) ∧ op'.ok cfg = true ∧ opFault S op' = false ∧
        (Operand.val x).steps = op'.steps + 1) ?_ ?_
      · refine Sat.bind ((supply_sat cfg.mode S.get x).mono (fun _ h => h) (fun _ h => h)) ?_
        rintro (w | x') ⟨g1, g2⟩
        · exact ⟨g1, rfl, rfl, g2⟩
        · exact ⟨g1, RegExpr.ok_tail hok g2.2, rfl, g2.1⟩
      · rintro op' ⟨g1, g2, g3, g4⟩
        refine ⟨hr, ?_, by simp⟩
        intro op'' hop
        cases hop
        exact ⟨g1, g2, by rw [g3]; rfl, g4⟩
    · rw [if_neg hc]
      refine Sat.bind (peekStall_sat he hst hb hok (Or.inl ⟨x, rfl⟩)) fun _ _ => ?_
      exact ⟨hr, by simp, by simp⟩
  | freg i =>
    have hk : cfg.key (.flt i) = some (cfg.nreg + i) := by
      simp [Operand.ok] at hok
      simp [Cfg.key, hok]
    obtain ⟨p, c, h1, h2, h3⟩ := he.read hst hb hk
    simp only [Cpu.fetchStep, Operand.requirement, ok_bind, h1, regs_get h2]
    by_cases hc : c.ready = true
    · rw [if_pos hc, h3 hc]
      refine ⟨hr, ?_, by simp⟩
      intro op'' hop
      cases hop
      exact ⟨rfl, rfl, rfl, rfl⟩
    · rw [if_neg hc]
      exact ⟨hr, by simp, by simp⟩
  | memImm a =>
    simp only [Cpu.fetchStep, Operand.requirement, ok_bind]
    refine Sat.bind ((entryReadMemory_sat (a := a) hw hr hm hle).mono (fun _ h => h) (fun _ h => h.elim)) ?_
    rintro ⟨ov, ram', ex⟩ ⟨g1, g2, g3⟩
    cases ov with
    | none => exact ⟨g1, by simp, fun _ => g3 rfl⟩
    | some v =>
      refine ⟨g1, ?_, by simp⟩
      intro op' hop
      cases hop
      obtain ⟨h1, h2⟩ := g2 v rfl
      simp only at h2
      exact ⟨h1, rfl, by simp [opFault, h2], rfl⟩
  | mem x =>
    obtain ⟨k, hk⟩ := RegExpr.ok_req (e := x) hok
    obtain ⟨p, c, h1, h2, h3⟩ := he.read hst hb hk
    simp only [Cpu.fetchStep, Operand.requirement, ok_bind, h1, regs_get h2]
    by_cases hc : c.ready = true
    · rw [if_pos hc, h3 hc]
      simp only [Operand.supply]
      refine Sat.bind (P := fun op' => opVal S op' = opVal S (.mem x) ∧ op'.ok cfg = true ∧ opFault S op' = opFault S (.mem x) ∧
        (Operand.mem x).steps = op'.steps + 1) ?_ ?_
      · refine Sat.bind ((supply_sat cfg.mode S.get x).mono (fun _ h => h) (fun _ h => h)) ?_
        rintro (w | x') ⟨g1, g2⟩
        · simp only [eaSum] at g1
          refine ⟨?_, rfl, ?_, ?_⟩
          · simp only [pure_ok, opVal, g1]
          · simp only [pure_ok, opFault, g1]
          · simp only [Operand.steps]; simp only at g2; rw [g2]
        · simp only [eaSum] at g1
          refine ⟨?_, RegExpr.ok_tail hok g2.2, ?_, ?_⟩
          · simp only [pure_ok, opVal, g1]
          · simp only [pure_ok, opFault, g1]
          · simp only [Operand.steps]; simp only at g2; rw [g2.1]
      · rintro op' ⟨g1, g2, g3, g4⟩
        refine ⟨hr, ?_, by simp⟩
        intro op'' hop
        cases hop
        exact ⟨g1, g2, by rw [g3]; rfl, g4⟩
    · rw [if_neg hc]
      refine Sat.bind (peekStall_sat he hst hb hok (Or.inr ⟨x, rfl⟩)) fun _ _ => ?_
      exact ⟨hr, by simp, by simp⟩

/-- The fetching loop of one operand. -/
theorem fetchOperand_sat {X : Ctx} {S : State} {m0 m : Nat} {b : Rat} {n : Nat} {e : Entry} {mem0 : Word → Option Word}
    (he : EntryOK cfg X S m b n e) (hst : e.st ≠ .retiring) (hb : TblOK cfg X.regs S b)
    (hw : WmOK X.wm m0) (hm : MemOK X.wm mem0 S e.maxW) (hle : m0 ≤ e.maxW) :
    ∀ (fuel : Nat) {ram : Ram} {op : Operand} {exc : Bool} (hr : RamOK cfg ram X.wm.outs mem0) (hok : op.ok cfg = true),
    Sat (Cpu.fetchOperand cfg X.regs X.wm e.rrat e.maxW fuel ram exc op) (fun y => RamOK cfg y.2.1 X.wm.outs mem0 ∧
      opVal S y.1 = opVal S op ∧ y.1.ok cfg = true ∧ (y.2.2 || opFault S y.1) = (exc || opFault S op)) (StrictUb cfg)
  | 0, ram, op, exc, hr, hok => ⟨hr, rfl, hok, rfl⟩
  | fuel + 1, ram, op, exc, hr, hok => by
    unfold Cpu.fetchOperand
    by_cases hf : op.isFetched = true
    · rw [if_pos hf]; exact ⟨hr, rfl, hok, rfl⟩
    · rw [if_neg hf]
      refine Sat.bind (fetchStep_sat he hst hb hw hr hm hle hok (by simpa using hf)) ?_
      rintro ⟨oop, ram', ex⟩ ⟨h1, h2, h3⟩
      cases oop with
      | none =>
        simp only at h3
        refine ⟨h1, rfl, hok, ?_⟩
        rw [h3 trivial]; simp
      | some op' =>
        obtain ⟨g1, g2, g3, _⟩ := h2 op' rfl
        refine (fetchOperand_sat he hst hb hw hm hle fuel h1 g2).imp ?_
        rintro ⟨op'', ram'', exc''⟩ ⟨k1, k2, k3, k4⟩
        refine ⟨k1, k2.trans g1, k3, k4.trans ?_⟩
        rw [← g3, Bool.or_assoc]

/-- The fetching loop over all operands. -/
theorem fetchOperands_sat {X : Ctx} {S : State} {m0 m : Nat} {b : Rat} {n : Nat} {e : Entry} {mem0 : Word → Option Word}
    (he : EntryOK cfg X S m b n e) (hst : e.st ≠ .retiring) (hb : TblOK cfg X.regs S b)
    (hw : WmOK X.wm m0) (hm : MemOK X.wm mem0 S e.maxW) (hle : m0 ≤ e.maxW) :
    ∀ (ops : List Operand) {ram : Ram} {exc : Bool} (hr : RamOK cfg ram X.wm.outs mem0) (hok : ∀ op ∈ ops, op.ok cfg = true),
    Sat (Cpu.fetchOperands cfg X.regs X.wm e.rrat e.maxW ram exc ops) (fun y => RamOK cfg y.2.1 X.wm.outs mem0 ∧
      List.Forall₂ (fun op' op => opVal S op' = opVal S op ∧ op'.ok cfg = true) y.1 ops ∧
      (y.2.2 || y.1.any (opFault S)) = (exc || ops.any (opFault S))) (StrictUb cfg)
  | [], ram, exc, hr, hok => ⟨hr, List.Forall₂.nil, rfl⟩
  | op :: ops, ram, exc, hr, hok => by
    unfold Cpu.fetchOperands
    refine Sat.bind (fetchOperand_sat he hst hb hw hm hle op.steps hr (hok op (List.mem_cons_self ..))) ?_
    rintro ⟨op', ram', exc'⟩ ⟨h1, h2, h3, h4⟩
    refine Sat.bind (fetchOperands_sat he hst hb hw hm hle ops h1 fun o ho => hok o (List.mem_cons_of_mem _ ho)) ?_
    rintro ⟨ops', ram'', exc''⟩ ⟨g1, g2, g3⟩
    refine ⟨g1, List.Forall₂.cons ⟨h2, h3⟩ g2, ?_⟩
    simp only [List.any_cons]
    simp only at g3 h4
    rw [← Bool.or_assoc exc, ← h4, Bool.or_comm exc', Bool.or_assoc, ← g3]
    cases opFault S op' <;> cases exc'' <;> simp

/-- Changing what concerns the operands only. -/
theorem EntryOK.upd {X : Ctx} {S : State} {m : Nat} {b : Rat} {n : Nat} {e e' : Entry} (he : EntryOK cfg X S m b n e)
    (hi : e'.instr = e.instr) (hrr : e'.rrat = e.rrat) (hwr : e'.wrat = e.wrat) (hwi : e'.wids = e.wids)
    (hmx : e'.maxW = e.maxW) (h1 : e.st ≠ .retiring) (h2 : e'.st ≠ .retiring) (ho : OpsOK cfg S e') :
    EntryOK cfg X S m b n e' where
  instr := by rw [hi]; exact he.instr
  tab := by
    obtain ⟨a1, a2, a3, a4, a5⟩ := he.tab
    exact ⟨hrr ▸ a1, hwr ▸ a2, hrr ▸ a3, by rw [hrr, hwr]; exact a4, by rw [hi, hwr]; exact a5⟩
  own := by rw [hi, hwr]; exact he.own
  pcCell := by
    have := he.pcCell
    rw [if_neg h1] at this
    rw [if_neg h2, hwr]; exact this
  cells := by
    rw [hi, hwr]
    intro r hr k hk p hp
    have := he.cells r hr k hk p hp
    rw [if_neg (fun h => h1 h.1)] at this
    rw [if_neg (fun h => h2 h.1)]
    exact this
  done := fun h => absurd h h2
  ops := ho
  store := by
    have := he.store
    unfold StoreOK at this ⊢
    rw [hi, hwi, hmx]
    split at this
    · exact this
    · rw [if_neg h1] at this
      rw [if_neg h2]
      exact this

theorem forall2_trans {S : State} {l1 l2 l3 : List Operand}
    (h1 : List.Forall₂ (fun op' op => opVal S op' = opVal S op ∧ op'.ok cfg = true) l1 l2)
    (h2 : List.Forall₂ (OpRel cfg S) l2 l3) : List.Forall₂ (OpRel cfg S) l1 l3 := by
  induction h1 generalizing l3 with
  | nil => cases h2; exact List.Forall₂.nil
  | cons h _ ih =>
    cases h2 with
    | cons h' t => exact List.Forall₂.cons ⟨h.1.trans h'.1, h.2⟩ (ih t)

theorem forall2_ok {S : State} {l1 l2 : List Operand} (h : List.Forall₂ (OpRel cfg S) l1 l2) : ∀ op ∈ l1, op.ok cfg = true := by
  induction h with
  | nil => simp
  | cons h _ ih =>
    intro op hop
    rcases List.mem_cons.1 hop with rfl | hop
    · exact h.2
    · exact ih op hop

/-- What matters of an entry outside the window. -/
structure SameShape (e' e : Entry) : Prop where
  instr : e'.instr = e.instr
  rrat : e'.rrat = e.rrat
  wrat : e'.wrat = e.wrat
  maxW : e'.maxW = e.maxW

theorem aluUsers_nil : aluUsers [] = 0 := rfl

theorem aluUsers_cons (e : Entry) (es : List Entry) :
    aluUsers (e :: es) = (if e.st = .executing ∧ e.instr.needsAlu = true then 1 else 0) + aluUsers es := by
  unfold aluUsers
  rw [List.countP_cons]
  simp only [decide_eq_true_eq]
  omega

theorem OpsOK.checkReady {S : State} {e : Entry} (hst : e.st = .preparing) (h : OpsOK cfg S e) :
    OpsOK cfg S (Cpu.checkReady e) := by
  unfold Cpu.checkReady
  split
  · next ha =>
    unfold OpsOK at h ⊢
    rw [if_neg (by rw [hst]; decide)] at h
    rw [if_neg (by simp)]
    exact ⟨h.1, h.2.1, fun _ => ha⟩
  · exact h

/-- One entry of the fetching stage. -/
theorem fetchStartEntry_sat {X : Ctx} {S : State} {m0 m : Nat} {b : Rat} {n : Nat} {e : Entry} {mem0 : Word → Option Word}
    {ram : Ram} {fa : Nat}
    (he : EntryOK cfg X S m b n e) (hb : TblOK cfg X.regs S b)
    (hw : WmOK X.wm m0) (hr : RamOK cfg ram X.wm.outs mem0) (hm : MemOK X.wm mem0 S m) (hle : m0 ≤ m) :
    Sat (Cpu.fetchStartEntry cfg X.regs X.wm ram fa e) (fun y => EntryOK cfg X S m b n y.1 ∧ RamOK cfg y.2.1 X.wm.outs mem0 ∧
      y.2.2 + aluUsers [y.1] = fa + aluUsers [e] ∧ SameShape y.1 e) (StrictUb cfg) := by
  unfold Cpu.fetchStartEntry
  cases hst : e.st with
  | preparing =>
    have hne : e.st ≠ .retiring := by rw [hst]; decide
    have hops := he.ops
    unfold OpsOK at hops
    rw [if_neg hne] at hops
    have hle' : m0 ≤ e.maxW := by have := he.le_maxW; omega
    refine Sat.bind (fetchOperands_sat he hne hb hw (he.memOK_self hne hw.sorted hm) hle' e.ops hr (forall2_ok hops.1)) ?_
    rintro ⟨ops', ram', exc'⟩ ⟨h1, h2, h3⟩
    have hO : OpsOK cfg S { e with ops := ops', exc := exc', st := .preparing } := by
      unfold OpsOK
      rw [if_neg (by simp)]
      exact ⟨forall2_trans h2 hops.1, h3.trans hops.2.1, fun h => absurd rfl h⟩
    have hcr : Cpu.checkReady { e with ops := ops', exc := exc', st := .preparing } = { e with ops := ops', exc := exc', st := .preparing } ∨
      Cpu.checkReady { e with ops := ops', exc := exc', st := .preparing } = { e with ops := ops', exc := exc', st := .ready } := by
      unfold Cpu.checkReady; split <;> simp
    have hO' := OpsOK.checkReady (e := { e with ops := ops', exc := exc', st := .preparing }) rfl hO
    refine ⟨?_, h1, ?_, ?_⟩
    · apply he.upd (h1 := hne) (ho := hO')
      all_goals rcases hcr with h | h <;> rw [h]
      all_goals simp
    · simp only [aluUsers_cons, hst]
      rcases hcr with h | h <;> simp only [h] <;> simp
    · rcases hcr with h | h <;> exact ⟨by rw [h], by rw [h], by rw [h], by rw [h]⟩
  | ready =>
    have hne : e.st ≠ .retiring := by rw [hst]; decide
    have hx : EntryOK cfg X S m b n { e with st := .executing } := by
      refine he.upd rfl rfl rfl rfl rfl hne (by simp) ?_
      have hops := he.ops
      unfold OpsOK at hops ⊢
      rw [if_neg hne] at hops
      rw [if_neg (by simp)]
      exact ⟨hops.1, hops.2.1, fun _ => hops.2.2 (by rw [hst]; decide)⟩
    simp only
    split
    · next ha =>
      split
      · exact ⟨he, hr, rfl, rfl, rfl, rfl, rfl⟩
      · refine ⟨hx, hr, ?_, rfl, rfl, rfl, rfl⟩
        rw [aluUsers_cons, aluUsers_cons]
        simp only [hst, ha]
        simp
        omega
    · next ha =>
      refine ⟨hx, hr, ?_, rfl, rfl, rfl, rfl⟩
      rw [aluUsers_cons, aluUsers_cons]
      simp [hst, ha]
  | executing => exact ⟨he, hr, rfl, rfl, rfl, rfl, rfl⟩
  | retiring => exact ⟨he, hr, rfl, rfl, rfl, rfl, rfl⟩

/-- The fetching stage. -/
theorem fetchStartLoop_sat {X : Ctx} {T : State → Nat → Rat → Nat → List Word → Prop} {m0 : Nat} {mem0 : Word → Option Word}
    (hp : ∀ i ∈ X.prog, i.wf cfg = true) (hw : WmOK X.wm m0) :
    ∀ (es : List Entry) {S : State} {m : Nat} {b : Rat} {n : Nat} {ps : List Word} {ram : Ram} {fa : Nat},
    Win cfg X T es S m b n ps → TblOK cfg X.regs S b → RamOK cfg ram X.wm.outs mem0 → MemOK X.wm mem0 S m → m0 ≤ m →
    Sat (Cpu.fetchStartLoop cfg X.regs X.wm ram fa es) (fun y => Win cfg X T y.1 S m b n ps ∧
      RamOK cfg y.2.1 X.wm.outs mem0 ∧ y.2.2 + aluUsers y.1 = fa + aluUsers es ∧ tables y.1 = tables es ∧
      y.1.length = es.length) (StrictUb cfg)
  | [], S, m, b, n, ps, ram, fa, h, hb, hr, hm, hle => ⟨h, hr, rfl, rfl, rfl⟩
  | e :: es, S, m, b, n, ps, ram, fa, h, hb, hr, hm, hle => by
    unfold Cpu.fetchStartLoop
    have hwf := h.1.wf hp
    have hm' := h.1.memOK hwf hw.sorted hm
    have hle' : m0 ≤ e.maxW := by have := h.1.le_maxW; omega
    refine Sat.bind (fetchStartEntry_sat h.1 hb hw hr hm hle) ?_
    rintro ⟨e', ram', fa'⟩ ⟨h1, h2, h3, h4⟩
    obtain ⟨g1, g2, g3, g4⟩ := h4
    refine Sat.bind (fetchStartLoop_sat hp hw es (fa := fa') h.2.2 (h.1.tbl hwf hb) h2 hm' hle') ?_
    rintro ⟨es', ram'', fa''⟩ ⟨k1, k2, k3, k4, k5⟩
    refine ⟨⟨h1, by rw [g1]; exact h.2.1, by rw [g1, g3, g4]; exact k1⟩, k2, ?_, ?_, ?_⟩
    · simp only [aluUsers_cons, aluUsers_nil] at h3 k3 ⊢
      omega
    · simp only [tables, List.flatMap_cons] at k4 ⊢
      rw [g2, g3, k4]
    · simp [k5]

end
end T86
