import Verif.Lemmas.Retire

/-! Retirement of one instruction. -/

set_option linter.unusedSimpArgs false
set_option linter.unusedVariables false

namespace T86
open Isa

section
variable {cfg : Cfg}

/-- Nothing is in flight. -/
structure Quiet (c : Cpu) : Prop where
  entries : c.entries = []
  fetch : c.fetch = none
  decode : c.decode = none
  preds : c.preds = []

/-- The effect of a retirement on the rest of the machine. -/
structure Fx (c c' : Cpu) (S : State) (i : Instr) (es : List Entry) : Prop where
  prog : c'.prog = c.prog
  trap : c'.trap = c.trap
  stepped : c'.stepped = c.stepped
  retired : c'.retired = c.retired
  dbg : c'.dbg = hitDbg c.dbg ((writeAddr S i).bind (watchHit c.dbg))
  intr : c.intr = 0 → c'.intr = stopCode c.dbg S i
  quiet : i = .bkpt ∨ i = .halt → Quiet c'
  rest : (c'.entries = es ∧ c'.fetch = c.fetch ∧ c'.decode = c.decode ∧ c'.spc = c.spc) ∨ Quiet c'

/-- The instructions that do nothing special at retirement. -/
def plainFx (i : Instr) : Prop := ∀ vs s, retireFx i vs s = s

theorem dataStep_io {S : State} {i : Instr} (h : plainFx i) :
    (dataStep cfg S i).out = S.out ∧ (dataStep cfg S i).inp = S.inp ∧ (dataStep cfg S i).halted = S.halted := by
  cases hx : i.exec cfg (valsOf S i) with
  | error f => rw [dataStep_error hx]; exact ⟨rfl, rfl, rfl⟩
  | ok x =>
    rw [dataStep_ok hx, h]
    exact foldl_actStep_io

section
variable {c : Cpu} {S : State} {own : Nat → Nat × Nat} {n m : Nat} {b : Rat} {e : Entry} {es : List Entry}

theorem Inv0.head (h : Inv0 cfg c S [] own n m b) (hes : c.entries = e :: es) :
    EntryOK cfg ⟨c.prog, c.regs, c.wm, own⟩ S m b n e := by
  have hw := h.win
  rw [hes] at hw
  exact hw.1

theorem specNext_eq {i : Instr} (hw : i.wf cfg = true) (hj : i.jumpDest = none) : specNext cfg S i = dataStep cfg S i := by
  have := dataStep_pc_nojump (s := S) hw hj
  unfold specNext predict
  rw [hj]
  simp only
  rw [← this]

/-- No write, no late register. -/
theorem mid_pure (h : Inv0 cfg c S [] own n m b) (hes : c.entries = e :: es) (hst : e.st = .retiring) {c' : Cpu} {S1 : State}
    (hsp : storeProd e.instr = none) (hl : lateReg e.instr = none)
    (hf : c' = { c with entries := es, out := c'.out })
    (hreg : S1.reg = (dataStep cfg S e.instr).reg) (hpc : S1.pc = (dataStep cfg S e.instr).pc)
    (hmem : S1.mem = (dataStep cfg S e.instr).mem)
    (hout : c'.out = S1.out) (hinp : S.inp = S1.inp) (hhalt : S.halted = S1.halted) :
    Mid cfg c' S S1 e.instr (e.rrat ++ e.wrat) own (n + 1) e.maxW e.wrat := by
  have he := h.head hes
  have hwf := he.wf h.wf
  have hs := he.store
  unfold StoreOK at hs
  rw [hsp] at hs
  have hwm : c'.wm = c.wm := by rw [hf]
  have hregs : c'.regs = c.regs := by rw [hf]
  have hram : c'.ram = c.ram := by rw [hf]
  refine h.mid hes hst ?_ hreg hpc hout ?_ (h.halted.trans hhalt) ?_ ?_ ?_ ?_ ?_ ?_ ?_ ?_ ?_
  · rw [hf]
  · rw [hf]; exact h.inp.trans hinp
  · intro p _; rw [hregs]
  · intro r k p hr; rw [hl] at hr; cases hr
  · rw [hregs]
  · intro p; rw [hregs]
  · intro j _; rw [hwm]
  · rw [hwm]
  · rw [hwm]
  · rw [hwm, hs.2]; exact h.wm
  · rw [hwm, hram, hmem, dataStep_mem hwf, storeOf_none hwf hsp]; exact h.ram

/-- The conclusion about a retired instruction. -/
def Retd (cfg : Cfg) (c c' : Cpu) (S : State) (own : Nat → Nat × Nat) (n : Nat) (e : Entry) (es : List Entry) : Prop :=
  (∃ m', Inv0 cfg c' (dataStep cfg S e.instr) (e.rrat ++ e.wrat) own (n + 1) m' e.wrat) ∧
  (∃ p, e.wrat[cfg.pcK]? = some p ∧ (own p).2 = cfg.pcK ∧ CellVal c'.regs p (dataStep cfg S e.instr).pc) ∧
  Fx c c' S e.instr es ∧
  (∀ a v, storeOf cfg S e.instr = some (a, v) → (S.mem a).isSome) ∧
  (∀ r, e.instr = .getchar r → skipSpace S.inp ≠ []) ∧
  ((dataStep cfg S e.instr).pc = predict S.pc e.instr ∨ Quiet c')

/-- Errors at retirement. -/
def RetErr (cfg : Cfg) (prog : List Instr) (S : State) (i : Instr) (f : Fault) : Prop :=
  HostUb cfg prog f ∨ (f = .exn .outOfRange ∧ Isa.exec cfg S i = .error (.exn .outOfRange))

theorem Mid.retd_keep {c' : Cpu} {m1 : Nat}
    (h : Mid cfg c' S (dataStep cfg S e.instr) e.instr (e.rrat ++ e.wrat) own (n + 1) m1 e.wrat)
    (hwf : e.instr.wf cfg = true) (hj : e.instr.jumpDest = none) (hfx : Fx c c' S e.instr es)
    (hs : ∀ a v, storeOf cfg S e.instr = some (a, v) → (S.mem a).isSome)
    (hg : ∀ r, e.instr = .getchar r → skipSpace S.inp ≠ []) : Retd cfg c c' S own n e es := by
  refine ⟨⟨m1, ?_⟩, h.pre.pcv, hfx, hs, hg, Or.inl (congrArg State.pc (specNext_eq hwf hj)).symm⟩
  have := h.keep (specNext_eq hwf hj)
  rw [show dropPred e.instr c'.preds = c'.preds by unfold dropPred; rw [hj]; rfl] at this
  exact this

/-- Unrolling after the effects. -/
theorem Mid.retd_unroll {c' : Cpu} {m1 : Nat}
    (h : Mid cfg c' S (dataStep cfg S e.instr) e.instr (e.rrat ++ e.wrat) own (n + 1) m1 e.wrat)
    (ps : List Word) :
    ∃ c2, Cpu.unroll cfg { c' with preds := ps } e.wrat = .ok c2 ∧
      (∃ m', Inv0 cfg c2 (dataStep cfg S e.instr) (e.rrat ++ e.wrat) own (n + 1) m' e.wrat) ∧
      (∃ p, e.wrat[cfg.pcK]? = some p ∧ (own p).2 = cfg.pcK ∧ CellVal c2.regs p (dataStep cfg S e.instr).pc) ∧ Quiet c2 ∧
      c2.prog = c'.prog ∧ c2.trap = c'.trap ∧ c2.stepped = c'.stepped ∧ c2.retired = c'.retired ∧ c2.dbg = c'.dbg ∧
      c2.intr = c'.intr := by
  have hp : RPre cfg { c' with preds := ps } (dataStep cfg S e.instr) (e.rrat ++ e.wrat) own (n + 1) m1 e.wrat :=
    ⟨h.pre.wf, h.pre.base, h.pre.pcv, h.pre.subs, h.pre.bsub, h.pre.wm, h.pre.le, h.pre.ram, h.pre.out, h.pre.inp,
      h.pre.halted, h.pre.alus⟩
  obtain ⟨r, h1, h2, h3⟩ := hp.unroll
  obtain ⟨p, g1, g0, g2⟩ := h.pre.pcv
  exact ⟨_, h1, ⟨_, h2⟩, ⟨p, g1, g0, g2.congr (h3 p)⟩, ⟨rfl, rfl, rfl, rfl⟩, rfl, rfl, rfl, rfl, rfl, rfl⟩

/-- A jump. -/
theorem Mid.jump {c' : Cpu} {m1 : Nat} {b0 : Rat} {m0 : Nat} {X : Ctx} {d : Operand}
    (h : Mid cfg c' S (dataStep cfg S e.instr) e.instr (e.rrat ++ e.wrat) own (n + 1) m1 e.wrat)
    (he : EntryOK cfg X S m0 b0 n e)
    (hwf : e.instr.wf cfg = true) (hj : e.instr.jumpDest = some d) (hfx : Fx c c' S e.instr es)
    (hs : ∀ a v, storeOf cfg S e.instr = some (a, v) → (S.mem a).isSome) :
    Sat (Cpu.processJump cfg c' e) (Retd cfg c · S own n e es) (RetErr cfg c.prog S e.instr) := by
  have hg : ∀ r, e.instr = .getchar r → skipSpace S.inp ≠ [] := by
    intro r hr; rw [hr] at hj; cases hj
  have hnb : ¬ (e.instr = .bkpt ∨ e.instr = .halt) := by
    rintro (hb | hb) <;> rw [hb] at hj <;> cases hj
  obtain ⟨p, hp, _, x, hx, hxr, hxv⟩ := h.pre.pcv
  have hp2 : e.rrat[cfg.pcK]? = some p := by rw [he.tab.pc]; exact hp
  have ht : ∀ t : Rat, t[cfg.pcK]? = some p → t.translate cfg (.int .pc) = .ok p := by
    intro t h; unfold Rat.translate; rw [key_pc]; simp only [h]
  have hgr : c'.regs.get p = .ok x := regs_get hx
  unfold Cpu.processJump Cpu.readReg
  rw [ht _ hp, ok_bind, hgr, ok_bind, pure_ok, ok_bind, ht _ hp2, ok_bind, hgr, ok_bind, hxr]
  have hhead := h.pred d hj
  cases hps : c'.preds with
  | nil => rw [hps] at hhead; cases hhead
  | cons q qs =>
    rw [hps] at hhead
    simp at hhead
    simp only [Bool.not_true, Bool.false_eq_true, if_false]
    rw [hxv]
    split
    · next heq =>
      refine ⟨⟨m1, ?_⟩, h.pre.pcv, ⟨hfx.prog, hfx.trap, hfx.stepped, hfx.retired, hfx.dbg, hfx.intr, fun hq => absurd hq hnb, hfx.rest.imp id fun q => by
        rw [q.preds] at hps; cases hps⟩, hs, hg, Or.inl ?_⟩
      rotate_left
      · unfold predict
        rw [hj]
        simp only
        rw [← hhead, heq]
      have hsn : specNext cfg S e.instr = dataStep cfg S e.instr := by
        unfold specNext predict
        rw [hj]
        simp only
        rw [← hhead, heq]
      have := h.keep hsn
      rw [show dropPred e.instr c'.preds = qs by unfold dropPred; rw [hj, hps]; rfl] at this
      exact this
    · obtain ⟨c2, k1, k2, k3, k4, k5, k6, k7, k8, k9, k10⟩ := h.retd_unroll qs
      rw [k1]
      refine ⟨k2, k3, ⟨k5.trans hfx.prog, k6.trans hfx.trap, k7.trans hfx.stepped, k8.trans hfx.retired, k9.trans hfx.dbg,
        fun h => k10.trans (hfx.intr h), fun _ => k4, Or.inr k4⟩, hs, hg, Or.inr k4⟩

/-- The write of a retiring instruction. -/
theorem retireStore_sat (h : Inv0 cfg c S [] own n m b) (hes : c.entries = e :: es) (hst : e.st = .retiring) {sp : Option Word}
    (hsp : storeProd e.instr = some sp) (hl : lateReg e.instr = none) (hfx : plainFx e.instr) :
    Sat (Cpu.retireStore { c with entries := es } e) (fun c' =>
      Mid cfg c' S (dataStep cfg S e.instr) e.instr (e.rrat ++ e.wrat) own (n + 1) e.maxW e.wrat ∧
      Fx c c' S e.instr es ∧ (∀ a v, storeOf cfg S e.instr = some (a, v) → (S.mem a).isSome))
      (RetErr cfg c.prog S e.instr) := by
  have he := h.head hes
  have hwf := he.wf h.wf
  have hs := he.store
  unfold StoreOK at hs
  rw [hsp] at hs
  simp only [hst, if_true] at hs
  obtain ⟨s1, s2, s3, a, v, s4, s5⟩ := hs
  have hle : m + 1 ≤ c.wm.cur := by
    have hw := h.win
    rw [hes] at hw
    have := Win.cur_ge (M := c.wm.cur) (fun _ _ _ _ _ hT => Nat.le_of_eq hT.1) hw.2.2
    omega
  have hub : UbPossible cfg c.prog := risky_ub he.instr (store_risky hwf hsp)
  have hio := dataStep_io (cfg := cfg) (S := S) hfx
  unfold Cpu.retireStore
  rw [s1]
  simp only
  unfold Cpu.writeMemory
  have hgw : Sat (c.wm.getWrite (m + 1)) (fun w => w.addr = a) (HostUb cfg c.prog) := by
    obtain ⟨w, hw, h1, h2, h3, h4, hf⟩ := Writes.recOf_some s5
    unfold Writes.getWrite
    rw [hf]
    simp only
    split
    · exact h2
    · exact ⟨rfl, hub⟩
  refine Sat.bind (hgw.mono (fun _ h => h) fun f hf => Or.inl hf) fun w hwa => ?_
  have hsw := startWriting_sat h.wm s5 s3 hle h.ram
  refine Sat.bind (hsw.mono (fun _ h => h) ?_) ?_
  · rintro f (rfl | ⟨rfl, hf⟩)
    · exact Or.inl ⟨rfl, hub⟩
    · exact Or.inr ⟨rfl, exec_bad_store hwf s4 hf⟩
  · rintro ⟨q', ram'⟩ ⟨k1, k2, k3, k4, k5, k6⟩
    rw [pure_ok, hwa, checkWrite_eq]
    refine ⟨?_, ⟨rfl, rfl, rfl, rfl, ?_, ?_, ?_, Or.inl ⟨rfl, rfl, rfl, rfl⟩⟩, ?_⟩
    · refine h.mid hes hst rfl rfl rfl ?_ ?_ ?_ (fun _ _ => rfl) ?_ rfl (fun _ => rfl) ?_ k6 k4 (by rw [s2]; exact k2) ?_
      · exact h.out.trans hio.1.symm
      · exact h.inp.trans hio.2.1.symm
      · exact h.halted.trans hio.2.2.symm
      · intro r k p hr; rw [hl] at hr; cases hr
      · intro j hj; exact k5 j (by omega)
      · rw [dataStep_mem hwf, s4]; exact k3
    · rw [storeOf_writeAddr hwf s4]; rfl
    · intro h0
      have hnb : e.instr ≠ .bkpt := by intro hb; rw [hb] at hsp; cases hsp
      unfold stopCode
      rw [if_neg hnb, storeOf_writeAddr hwf s4]
      simp only [h0]
    · rintro (hb | hb) <;> rw [hb] at hsp <;> cases hsp
    · intro a' v' hav; rw [s4] at hav; cases hav; exact k1

theorem readChar_eq : ∀ l, Cpu.readChar l = match skipSpace l with
    | [] => none
    | b :: rest => some (b, rest)
  | [] => rfl
  | b :: l => by
    unfold Cpu.readChar skipSpace
    have ih := readChar_eq l
    unfold skipSpace at ih
    rw [List.dropWhile_cons]
    unfold Cpu.isSpace
    split
    · exact ih
    · rfl

/-- The register written at retirement. -/
theorem late_sat (h : Inv0 cfg c S [] own n m b) (hes : c.entries = e :: es) (hst : e.st = .retiring) {r : LReg} (v : Word)
    (l : List (BitVec 8)) (hl : lateReg e.instr = some r) (hsp : storeProd e.instr = none)
    (hv : (dataStep cfg S e.instr).reg r = v) (hout : (dataStep cfg S e.instr).out = S.out)
    (hinp : (dataStep cfg S e.instr).inp = l) (hhalt : (dataStep cfg S e.instr).halted = S.halted) :
    ∃ regs', Cpu.setReg cfg e.wrat c.regs r v = .ok regs' ∧
      Mid cfg { c with entries := es, regs := regs', inp := l } S (dataStep cfg S e.instr) e.instr (e.rrat ++ e.wrat) own (n + 1) e.maxW e.wrat := by
  have he := h.head hes
  have hwf := he.wf h.wf
  have hrp := lateReg_mem hwf hl
  have hrpc := regProds_ne_pc hrp
  obtain ⟨k, hk⟩ := regProds_key hwf hrp
  have hlt : k < e.wrat.length := by rw [he.tab.lenw]; exact key_lt hk
  have hget : e.wrat[k]? = some e.wrat[k] := List.getElem?_eq_getElem hlt
  generalize e.wrat[k] = p at hget
  have hc := he.cells r hrp k hk p hget
  rw [if_neg (fun h => h.2 hl)] at hc
  obtain ⟨x, hx, hxr⟩ := hc
  have ho := he.own k ((mem_freshKeys hk hrpc).2 hrp) p hget
  have hs := he.store
  unfold StoreOK at hs
  rw [hsp] at hs
  refine ⟨_, setReg_ok v hk hget hx (fun _ => hxr), ?_⟩
  refine h.mid hes hst rfl rfl rfl (h.out.trans hout.symm) hinp.symm (h.halted.trans hhalt.symm) ?_ ?_ ?_ ?_ (fun _ _ => rfl) rfl rfl ?_ ?_
  · intro q hq
    have : q ≠ p := by
      rintro rfl
      exact hq r k hl hk ho
    exact view_set_ne this
  · intro r' k' p' hr' hk' hp'
    rw [hl] at hr'; cases hr'
    rw [hk] at hk'; cases hk'
    rw [hget] at hp'; cases hp'
    rw [hv, cellVal_iff]
    exact view_set hx
  · simp
  · exact subs_set (c' := { x with value := v, ready := true }) hx rfl
  · rw [hs.2]; exact h.wm
  · rw [dataStep_mem hwf, storeOf_none hwf hsp]; exact h.ram

/-- The `retire` functions. -/
theorem retireInstr_sat (h : Inv0 cfg c S [] own n m b) (hes : c.entries = e :: es) (hst : e.st = .retiring) :
    Sat (Cpu.retireInstr cfg { c with entries := es } e) (Retd cfg c · S own n e es) (RetErr cfg c.prog S e.instr) := by
  have he := h.head hes
  have hwf := he.wf h.wf
  have nost : storeProd e.instr = none → ∀ a v, storeOf cfg S e.instr = some (a, v) → (S.mem a).isSome := by
    intro hsp a v hav; rw [storeOf_none hwf hsp] at hav; cases hav
  have nofx : storeProd e.instr = none → e.instr ≠ .bkpt → e.instr ≠ .halt → ∀ c' : Cpu,
      c' = { c with entries := es, regs := c'.regs, out := c'.out, inp := c'.inp } → Fx c c' S e.instr es := by
    intro hsp hb hh c' hc'
    refine ⟨by rw [hc'], by rw [hc'], by rw [hc'], by rw [hc'], ?_, ?_, ?_, ?_⟩
    · rw [writeAddr_none hsp, hc']; rfl
    · intro h0
      unfold stopCode
      rw [if_neg hb, writeAddr_none hsp, hc']
      exact h0
    · rintro (hq | hq)
      · exact absurd hq hb
      · exact absurd hq hh
    · left; rw [hc']; exact ⟨rfl, rfl, rfl, rfl⟩
  have plain : plainFx e.instr → storeProd e.instr = none → lateReg e.instr = none → e.instr.jumpDest = none →
      e.instr ≠ .bkpt → e.instr ≠ .halt → (∀ r, e.instr ≠ .getchar r) →
      Sat (.ok { c with entries := es }) (Retd cfg c · S own n e es) (RetErr cfg c.prog S e.instr) := by
    intro hpl hsp hl hj hb hh hg
    have hio := dataStep_io (cfg := cfg) (S := S) hpl
    have hm := mid_pure h hes hst (c' := { c with entries := es }) (S1 := dataStep cfg S e.instr) hsp hl rfl rfl rfl rfl
      (h.out.trans hio.1.symm) hio.2.1.symm hio.2.2.symm
    exact hm.retd_keep hwf hj (nofx hsp hb hh _ rfl) (nost hsp) (fun r hr => absurd hr (hg r))
  have jump : plainFx e.instr → storeProd e.instr = none → lateReg e.instr = none → ∀ d, e.instr.jumpDest = some d →
      Sat (Cpu.processJump cfg { c with entries := es } e) (Retd cfg c · S own n e es) (RetErr cfg c.prog S e.instr) := by
    intro hpl hsp hl d hj
    have hb : e.instr ≠ .bkpt := by intro hb; rw [hb] at hj; cases hj
    have hh : e.instr ≠ .halt := by intro hb; rw [hb] at hj; cases hj
    have hio := dataStep_io (cfg := cfg) (S := S) hpl
    have hm := mid_pure h hes hst (c' := { c with entries := es }) (S1 := dataStep cfg S e.instr) hsp hl rfl rfl rfl rfl
      (h.out.trans hio.1.symm) hio.2.1.symm hio.2.2.symm
    exact hm.jump he hwf hj (nofx hsp hb hh _ rfl) (nost hsp)
  have store : plainFx e.instr → ∀ sp, storeProd e.instr = some sp → lateReg e.instr = none → e.instr.jumpDest = none →
      (∀ r, e.instr ≠ .getchar r) →
      Sat (Cpu.retireStore { c with entries := es } e) (Retd cfg c · S own n e es) (RetErr cfg c.prog S e.instr) := by
    intro hpl sp hsp hl hj hg
    refine (retireStore_sat h hes hst hsp hl hpl).imp ?_
    rintro c' ⟨h1, h2, h3⟩
    exact h1.retd_keep hwf hj h2 h3 (fun r hr => absurd hr (hg r))
  unfold Cpu.retireInstr
  have st : ∀ i : Instr, storeProd i = ((prodsOf i).filterMap Product.store?).head? := fun _ => rfl
  cases hi : e.instr <;> rw [hi] at plain jump store hwf nost nofx
  case mov dst v =>
    cases dst with
    | val ex =>
      cases ex with
      | reg d => exact plain (fun _ _ => rfl) rfl rfl rfl (by simp) (by simp) (by simp)
      | _ => simp [Instr.wf] at hwf
    | freg => exact plain (fun _ _ => rfl) rfl rfl rfl (by simp) (by simp) (by simp)
    | memImm a => exact store (fun _ _ => rfl) (some a) rfl rfl rfl (by simp)
    | mem a => exact store (fun _ _ => rfl) none rfl rfl rfl (by simp)
    | _ => simp [Instr.wf] at hwf
  case nop => exact plain (fun _ _ => rfl) rfl rfl rfl (by simp) (by simp) (by simp)
  case lea => exact plain (fun _ _ => rfl) rfl rfl rfl (by simp) (by simp) (by simp)
  case bin => exact plain (fun _ _ => rfl) rfl rfl rfl (by simp) (by simp) (by simp)
  case fbin => exact plain (fun _ _ => rfl) rfl rfl rfl (by simp) (by simp) (by simp)
  case un => exact plain (fun _ _ => rfl) rfl rfl rfl (by simp) (by simp) (by simp)
  case cmp => exact plain (fun _ _ => rfl) rfl rfl rfl (by simp) (by simp) (by simp)
  case fcmp => exact plain (fun _ _ => rfl) rfl rfl rfl (by simp) (by simp) (by simp)
  case pop => exact plain (fun _ _ => rfl) rfl rfl rfl (by simp) (by simp) (by simp)
  case fpop => exact plain (fun _ _ => rfl) rfl rfl rfl (by simp) (by simp) (by simp)
  case ext => exact plain (fun _ _ => rfl) rfl rfl rfl (by simp) (by simp) (by simp)
  case nrw => exact plain (fun _ _ => rfl) rfl rfl rfl (by simp) (by simp) (by simp)
  case jmp a => exact jump (fun _ _ => rfl) rfl rfl a rfl
  case jcc cc a => exact jump (fun _ _ => rfl) rfl rfl a rfl
  case loop r a => exact jump (fun _ _ => rfl) rfl rfl a rfl
  case ret => exact jump (fun _ _ => rfl) rfl rfl _ rfl
  case push => exact store (fun _ _ => rfl) none rfl rfl rfl (by simp)
  case fpush => exact store (fun _ _ => rfl) none rfl rfl rfl (by simp)
  case call a =>
    refine Sat.bind (P := fun c' =>
      Mid cfg c' S (dataStep cfg S e.instr) e.instr (e.rrat ++ e.wrat) own (n + 1) e.maxW e.wrat ∧
      Fx c c' S e.instr es ∧ (∀ a v, storeOf cfg S e.instr = some (a, v) → (S.mem a).isSome)) ?_ ?_
    · have := retireStore_sat h hes hst (sp := none) (by rw [hi]; rfl) (by rw [hi]; rfl) (by rw [hi]; exact fun _ _ => rfl)
      rw [← hi]
      exact this
    · rintro c' ⟨h1, h2, h3⟩
      rw [← hi]
      exact h1.jump he (by rw [hi]; exact hwf) (d := a) (by rw [hi]; rfl) h2 h3
  case clf =>
    have hds : dataStep cfg S e.instr = S.next.setFlags ⟨false, false, false, false⟩ := by rw [hi]; rfl
    obtain ⟨regs', h1, h2⟩ := late_sat h hes hst (r := .int .flags) (Alu.flagsToWord ⟨false, false, false, false⟩) c.inp
      (by rw [hi]; rfl) (by rw [hi]; rfl) (by rw [hds]; rfl) (by rw [hds]; rfl) (by rw [hds]; exact h.inp.symm) (by rw [hds]; rfl)
    change Sat (Cpu.setReg cfg e.wrat c.regs (.int .flags) _ >>= _) _ _
    rw [h1]
    exact h2.retd_keep (by rw [hi]; exact hwf) (by rw [hi]; rfl) (by rw [hi]; exact nofx rfl (by simp) (by simp) _ rfl)
      (by rw [hi]; exact nost rfl) (by rw [hi]; simp)
  case getchar d =>
    have hrd := readChar_eq c.inp
    have hci := h.inp
    cases hsk : skipSpace S.inp with
    | nil =>
      rw [hci, hsk] at hrd
      simp only at hrd ⊢
      rw [hci, hrd]
      exact Or.inl ⟨rfl, risky_ub he.instr (by rw [hi]; rfl)⟩
    | cons x rest =>
      rw [hci, hsk] at hrd
      have hds : dataStep cfg S e.instr = { S.next.set (.int d) (x.signExtend 64) with inp := rest } := by
        rw [hi]
        change retireFx (.getchar d) (valsOf S (.getchar d)) S.next = _
        unfold retireFx
        change (match skipSpace S.inp with
          | [] => S.next
          | b :: rest => { S.next.set (.int d) (b.signExtend 64) with inp := rest }) = _
        rw [hsk]
      obtain ⟨regs', h1, h2⟩ := late_sat h hes hst (r := .int d) (x.signExtend 64) rest
        (by rw [hi]; rfl) (by rw [hi]; rfl) (by rw [hds]; simp [State.set]) (by rw [hds]; rfl) (by rw [hds]) (by rw [hds]; rfl)
      simp only at hrd ⊢
      rw [hci, hrd]
      simp only
      rw [h1]
      exact h2.retd_keep (by rw [hi]; exact hwf) (by rw [hi]; rfl) (by rw [hi]; exact nofx rfl (by simp) (by simp) _ rfl)
        (by rw [hi]; exact nost rfl) (by rw [hsk]; simp)
  case putchar r =>
    have ho := he.ops
    unfold OpsOK at ho
    rw [if_pos hst, hi] at ho
    obtain ⟨op, ho1, ho2⟩ := ho.2 0 (S.get (.int r)) rfl
    have hov : Cpu.opValue e 0 = .ok (S.get (.int r)) := by unfold Cpu.opValue; rw [ho1]; simp only [ho2]
    simp only
    rw [hov, ok_bind, pure_ok]
    have hds : dataStep cfg S e.instr = { S.next with out := S.out ++ [.char ((S.get (.int r)).setWidth 8)] } := by rw [hi]; rfl
    have hm := mid_pure h hes hst (c' := { c with entries := es, out := c.out ++ [.char ((S.get (.int r)).setWidth 8)] })
      (S1 := dataStep cfg S e.instr) (by rw [hi]; rfl) (by rw [hi]; rfl) rfl rfl rfl rfl
      (by rw [hds, h.out]) (by rw [hds]; rfl) (by rw [hds]; rfl)
    exact hm.retd_keep (by rw [hi]; exact hwf) (by rw [hi]; rfl) (by rw [hi]; exact nofx rfl (by simp) (by simp) _ rfl)
        (by rw [hi]; exact nost rfl) (by rw [hi]; simp)
  case putnum r =>
    have ho := he.ops
    unfold OpsOK at ho
    rw [if_pos hst, hi] at ho
    obtain ⟨op, ho1, ho2⟩ := ho.2 0 (S.get (.int r)) rfl
    have hov : Cpu.opValue e 0 = .ok (S.get (.int r)) := by unfold Cpu.opValue; rw [ho1]; simp only [ho2]
    simp only
    rw [hov, ok_bind, pure_ok]
    have hds : dataStep cfg S e.instr = { S.next with out := S.out ++ [.num ((S.get (.int r)).setWidth 32)] } := by rw [hi]; rfl
    have hm := mid_pure h hes hst (c' := { c with entries := es, out := c.out ++ [.num ((S.get (.int r)).setWidth 32)] })
      (S1 := dataStep cfg S e.instr) (by rw [hi]; rfl) (by rw [hi]; rfl) rfl rfl rfl rfl
      (by rw [hds, h.out]) (by rw [hds]; rfl) (by rw [hds]; rfl)
    exact hm.retd_keep (by rw [hi]; exact hwf) (by rw [hi]; rfl) (by rw [hi]; exact nofx rfl (by simp) (by simp) _ rfl)
        (by rw [hi]; exact nost rfl) (by rw [hi]; simp)
  case brk =>
    have hds : dataStep cfg S e.instr = S.next := by rw [hi]; rfl
    have hm := mid_pure h hes hst (c' := { c with entries := es })
      (S1 := dataStep cfg S e.instr) (by rw [hi]; rfl) (by rw [hi]; rfl) rfl rfl rfl rfl
      (by rw [hds, h.out]; rfl) (by rw [hds]; rfl) (by rw [hds]; rfl)
    obtain ⟨c2, k1, k2, k3, k4, k5, k6, k7, k8, k9, k10⟩ := hm.retd_unroll c.preds
    change Sat (Cpu.unroll cfg _ _) _ _
    change Cpu.unroll cfg { c with entries := es } e.wrat = _ at k1
    rw [k1]
    have hfx := nofx rfl (by simp) (by simp) { c with entries := es } rfl
    rw [← hi] at hfx nost
    exact ⟨k2, k3, ⟨k5.trans hfx.prog, k6.trans hfx.trap, k7.trans hfx.stepped, k8.trans hfx.retired, k9.trans hfx.dbg,
        fun h => k10.trans (hfx.intr h), fun _ => k4, Or.inr k4⟩, nost (by rw [hi]; rfl), by rw [hi]; simp, Or.inr k4⟩
  case bkpt =>
    have hds : dataStep cfg S e.instr = S.next := by rw [hi]; rfl
    have hm := mid_pure h hes hst (c' := { c with entries := es })
      (S1 := dataStep cfg S e.instr) (by rw [hi]; rfl) (by rw [hi]; rfl) rfl rfl rfl rfl
      (by rw [hds, h.out]; rfl) (by rw [hds]; rfl) (by rw [hds]; rfl)
    obtain ⟨c2, k1, ⟨m', k2⟩, k3, k4, k5, k6, k7, k8, k9, k10⟩ := hm.retd_unroll c.preds
    change Sat (Cpu.unroll cfg _ _ >>= _) _ _
    change Cpu.unroll cfg { c with entries := es } e.wrat = _ at k1
    rw [k1]
    rw [← hi] at nost
    refine ⟨⟨m', ⟨k2.wf, k2.win, k2.base, k2.pc, k2.subs, k2.wm, k2.ram, k2.out, k2.inp, k2.halted, k2.alus, k2.cap⟩⟩, k3, ⟨k5, k6, k7, k8, ?_,
        ?_, fun _ => ⟨k4.1, k4.2, k4.3, k4.4⟩, Or.inr ⟨k4.1, k4.2, k4.3, k4.4⟩⟩, nost (by rw [hi]; rfl), by rw [hi]; simp,
        Or.inr ⟨k4.1, k4.2, k4.3, k4.4⟩⟩
    · rw [hi]; exact k9
    · intro _; rw [hi]; rfl
  case halt =>
    have hds : dataStep cfg S e.instr = { S.next with halted := true } := by rw [hi]; rfl
    have hm := mid_pure h hes hst (c' := { c with entries := es })
      (S1 := { dataStep cfg S e.instr with halted := S.halted }) (by rw [hi]; rfl) (by rw [hi]; rfl) rfl rfl rfl rfl
      (by rw [hds, h.out]; rfl) (by rw [hds]; rfl) (by rw [hds])
    obtain ⟨r, k1, k2, k3⟩ := hm.pre.unroll
    change Sat (Cpu.unroll cfg _ _ >>= _) _ _
    rw [k1]
    rw [← hi] at nost
    obtain ⟨p, g1, g0, g2⟩ := hm.pre.pcv
    refine ⟨⟨c.wm.cur, ⟨k2.wf, ?_, ?_, k2.pc, k2.subs, k2.wm, k2.ram, k2.out, k2.inp, ?_, k2.alus, k2.cap⟩⟩,
      ⟨p, g1, g0, g2.congr (k3 p)⟩, ⟨rfl, rfl, rfl, rfl, ?_, ?_, fun _ => ⟨rfl, rfl, rfl, rfl⟩, Or.inr ⟨rfl, rfl, rfl, rfl⟩⟩,
      nost (by rw [hi]; rfl), by rw [hi]; simp, Or.inr ⟨rfl, rfl, rfl, rfl⟩⟩
    · exact k2.win
    · exact ⟨k2.base.1, k2.base.2⟩
    · rw [hds]
    · rw [hi]; rfl
    · intro h0; rw [hi]; exact h0

end
end
end T86
