import Verif.Lemmas.RetireMem

/-! Retirement. -/

set_option linter.unusedSimpArgs false
set_option linter.unusedVariables false

namespace T86
open Isa

section
variable {cfg : Cfg}

/-- What is known after the effects of a retiring instruction, before it is decided whether the window is kept. `S1` is
the state after the instruction, `b` its table. -/
structure RPre (cfg : Cfg) (c : Cpu) (S1 : State) (extra : List Nat) (own : Nat → Nat × Nat) (n m : Nat) (b : Rat) : Prop where
  wf : ∀ i ∈ c.prog, i.wf cfg = true
  base : BaseOK cfg c.regs own S1 b n
  pcv : ∃ p, b[cfg.pcK]? = some p ∧ (own p).2 = cfg.pcK ∧ CellVal c.regs p S1.pc
  subs : SubsOK cfg c.regs (c.rat ++ tables c.entries ++ extra)
  bsub : ∀ p ∈ b, p ∈ extra
  wm : WmOK c.wm m
  le : m ≤ c.wm.cur
  ram : RamOK cfg c.ram c.wm.outs S1.mem
  out : c.out = S1.out
  inp : c.inp = S1.inp
  halted : c.halted = S1.halted
  alus : c.freeAlus + aluUsers c.entries = cfg.alus

theorem Inv0.rpre {c : Cpu} {S : State} {extra : List Nat} {own : Nat → Nat × Nat} {n m : Nat} {b : Rat}
    (h : Inv0 cfg c S extra own n m b) (hb : ∀ p ∈ b, p ∈ extra)
    (hp : ∃ p, b[cfg.pcK]? = some p ∧ (own p).2 = cfg.pcK ∧ CellVal c.regs p S.pc) : RPre cfg c S extra own n m b where
  wf := h.wf
  base := h.base
  pcv := hp
  subs := h.subs
  bsub := hb
  wm := h.wm
  le := Win.cur_ge (fun _ _ _ _ _ hT => Nat.le_of_eq hT.1) h.win
  ram := h.ram
  out := h.out
  inp := h.inp
  halted := h.halted
  alus := h.alus

theorem BaseOK.congr {regs regs' : Regs} {own : Nat → Nat × Nat} {S : State} {b : Rat} {n : Nat}
    (h : BaseOK cfg regs own S b n) (hv : ∀ p, cellView regs' p = cellView regs p) : BaseOK cfg regs' own S b n where
  len := h.len
  cells := fun r k hk hr => by
    obtain ⟨p, h1, h2, h3, h4⟩ := h.cells r k hk hr
    exact ⟨p, h1, h2, h3, h4.congr (hv p)⟩

/-- Unrolling gives the invariant with an empty window. -/
theorem RPre.unroll {c : Cpu} {S : State} {extra : List Nat} {own : Nat → Nat × Nat} {n m : Nat} {b : Rat}
    (h : RPre cfg c S extra own n m b) :
    ∃ regs', Cpu.unroll cfg c b = .ok (unrolled c b regs' S.pc) ∧
      Inv0 cfg (unrolled c b regs' S.pc) S extra own n c.wm.cur b ∧ ∀ q, cellView regs' q = cellView c.regs q := by
  obtain ⟨p, hp, ho, hv⟩ := h.pcv
  obtain ⟨regs', h1, h2, h3⟩ := unroll_ok h.subs h.bsub hp hv
  refine ⟨regs', h1, ⟨h.wf, ?_, h.base.congr h3, ?_, ?_, removePending_wmOK h.wm h.le, ?_, h.out, h.inp, h.halted, ?_, ?_⟩, h3⟩
  · exact ⟨rfl, rfl, rfl, rfl⟩
  · exact fun _ => ⟨p, hp, ho, hv.congr (h3 p)⟩
  · change SubsOK cfg regs' (b ++ [] ++ extra)
    rw [List.append_nil]; exact h2
  · change RamOK cfg c.ram c.wm.removePending.outs S.mem
    rw [removePending_outs]; exact h.ram
  · have := h.alus
    change c.freeAlus + aluUsers c.entries + 0 = cfg.alus
    exact this
  · exact Nat.zero_le _

/-- The state of affairs after the effects of a retiring instruction `i` in state `S`. -/
structure Mid (cfg : Cfg) (c : Cpu) (S S1 : State) (i : Instr) (extra : List Nat) (own : Nat → Nat × Nat) (n m : Nat) (b : Rat) :
    Prop where
  pre : RPre cfg c S1 extra own n m b
  win : Win cfg ⟨c.prog, c.regs, c.wm, own⟩ (Tail c) c.entries (specNext cfg S i) m b n (dropPred i c.preds)
  pred : PredOK S.pc i c.preds
  cap : c.entries.length ≤ cfg.rsMax

/-- The window is kept when the state is the predicted one. -/
theorem Mid.keep {c : Cpu} {S S1 : State} {i : Instr} {extra : List Nat} {own : Nat → Nat × Nat} {n m : Nat} {b : Rat}
    (h : Mid cfg c S S1 i extra own n m b) (hs : specNext cfg S i = S1) :
    Inv0 cfg { c with preds := dropPred i c.preds } S1 extra own n m b where
  wf := h.pre.wf
  win := by rw [← hs]; exact h.win
  base := h.pre.base
  pc := by
    intro he
    have he : c.entries = [] := he
    have hw := h.win
    rw [he] at hw
    obtain ⟨_, h2, _⟩ := hw
    obtain ⟨p, hp⟩ := h.pre.pcv
    rw [h2] at hp
    exact ⟨p, hp⟩
  subs := h.pre.subs
  wm := h.pre.wm
  ram := h.pre.ram
  out := h.pre.out
  inp := h.pre.inp
  halted := h.pre.halted
  alus := h.pre.alus
  cap := h.cap

/-- Popping an entry. -/
theorem Inv0.mid {c c' : Cpu} {S S1 : State} {own : Nat → Nat × Nat} {n m : Nat} {b : Rat} {e : Entry} {es : List Entry}
    (h : Inv0 cfg c S [] own n m b) (hes : c.entries = e :: es) (hst : e.st = .retiring)
    (hf : c' = { c with entries := es, regs := c'.regs, wm := c'.wm, ram := c'.ram, dbg := c'.dbg, intr := c'.intr
                        out := c'.out, inp := c'.inp })
    (hreg : S1.reg = (dataStep cfg S e.instr).reg) (hpc : S1.pc = (dataStep cfg S e.instr).pc)
    (hout : c'.out = S1.out) (hinp : c'.inp = S1.inp) (hhalt : c.halted = S1.halted)
    (hview : ∀ p, (∀ r k, lateReg e.instr = some r → cfg.key r = some k → own p ≠ (n, k)) →
      cellView c'.regs p = cellView c.regs p)
    (hlate : ∀ r k p, lateReg e.instr = some r → cfg.key r = some k → e.wrat[k]? = some p →
      CellVal c'.regs p (S1.reg r))
    (hlen : c'.regs.length = c.regs.length) (hsubs : ∀ p, subsView c'.regs p = subsView c.regs p)
    (hrec : ∀ j, e.maxW < j → c'.wm.recOf j = c.wm.recOf j) (hun : c'.wm.unspec = c.wm.unspec)
    (hcur : c'.wm.cur = c.wm.cur) (hwm : WmOK c'.wm e.maxW) (hram : RamOK cfg c'.ram c'.wm.outs S1.mem) :
    Mid cfg c' S S1 e.instr (e.rrat ++ e.wrat) own (n + 1) e.maxW e.wrat := by
  have hw := h.win
  rw [hes] at hw
  obtain ⟨he, hp, hw⟩ := hw
  have hwf := he.wf h.wf
  have hne : e.wrat.length = cfg.nkeys := he.tab.lenw
  have hent : c'.entries = es := by rw [hf]
  have hrat : c'.rat = c.rat := by rw [hf]
  have hprog : c'.prog = c.prog := by rw [hf]
  have hpreds : c'.preds = c.preds := by rw [hf]
  have hW : Win cfg ⟨c'.prog, c'.regs, c'.wm, own⟩ (Tail c') es (specNext cfg S e.instr) e.maxW e.wrat (n + 1)
      (dropPred e.instr c'.preds) := by
    rw [hpreds]
    refine Win.frame (X := ⟨c.prog, c.regs, c.wm, own⟩) (X' := ⟨c'.prog, c'.regs, c'.wm, own⟩) hprog ?_ hw ?_ ?_
    · rintro S' m' b' n' ps' ⟨t1, t2, t3⟩
      refine ⟨by rw [hcur]; exact t1, by rw [hrat]; exact t2, ?_⟩
      rw [hf]; exact t3
    · intro e2 he2 k hk p hp'
      refine ⟨hview p ?_, rfl⟩
      intro r k' _ _ ho
      have := Win.own_ge hw e2 he2 k hk p hp'
      simp only at this
      rw [ho] at this
      simp only at this
      omega
    · intro e2 he2 id hid
      refine ⟨hrec id (Win.wid_gt hw e2 he2 id hid), by simp only [hun]⟩
  refine ⟨⟨?_, ⟨hne, ?_⟩, ?_, ⟨hlen.trans h.subs.len, ?_, ?_⟩, ?_, hwm, ?_, hram, hout, hinp, ?_, ?_⟩, ?_, ?_, ?_⟩
  · rw [hprog]; exact h.wf
  · intro r k hk hr
    have hlt : k < e.wrat.length := by rw [hne]; exact key_lt hk
    have hget : e.wrat[k]? = some e.wrat[k] := List.getElem?_eq_getElem hlt
    generalize e.wrat[k] = p at hget
    by_cases hm : r ∈ regProds e.instr
    · have ho := he.own k ((mem_freshKeys hk hr).2 hm) p hget
      simp only at ho
      refine ⟨p, hget, by rw [ho], by rw [ho]; simp, ?_⟩
      by_cases hl : lateReg e.instr = some r
      · exact hlate r k p hl hk hget
      · have hc := he.cells r hm k hk p hget
        rw [if_pos ⟨hst, hl⟩] at hc
        rw [hreg]
        refine hc.congr (hview p ?_)
        intro r' k' hl' hk' ho'
        rw [ho] at ho'
        cases ho'
        have := key_inj hk hk'
        subst this
        exact hl hl'
    · have hb := he.tab.write k (fun hf' => hm ((mem_freshKeys hk hr).1 hf'))
      obtain ⟨p', k1, k2, k3, k4⟩ := h.base.cells r k hk hr
      rw [hb, k1] at hget
      cases hget
      refine ⟨p, by rw [hb, k1], k2, by omega, ?_⟩
      rw [hreg, dataStep_reg_other hwf hm hr]
      refine k4.congr (hview p ?_)
      intro r' k' _ _ ho
      rw [ho] at k3
      simp at k3
  · have hlt : cfg.pcK < e.wrat.length := by rw [hne]; exact pcK_lt
    have hget : e.wrat[cfg.pcK]? = some e.wrat[cfg.pcK] := List.getElem?_eq_getElem hlt
    generalize e.wrat[cfg.pcK] = p at hget
    refine ⟨p, hget, congrArg Prod.snd (he.own _ (List.mem_cons_self ..) p hget), ?_⟩
    have hc := he.pcCell p hget
    rw [if_pos hst] at hc
    rw [hpc]
    refine hc.congr (hview p ?_)
    intro r k hl hk ho
    have := he.own _ (List.mem_cons_self ..) p hget
    simp only at this
    rw [this] at ho
    cases ho
    have := key_inj hk key_pc
    subst this
    exact absurd rfl (regProds_ne_pc (lateReg_mem hwf hl))
  · intro p x hx
    have hv := hsubs p
    unfold subsView at hv
    rw [hx] at hv
    cases hr : c.regs[p]? with
    | none => rw [hr] at hv; cases hv
    | some y =>
      rw [hr] at hv
      simp at hv
      rw [hv, h.subs.subs p y hr, hent, hrat, hes, tables_cons]
      simp only [List.count_append, List.append_nil]
      omega
  · intro p hp'
    apply h.subs.bound p
    rw [hent, hrat] at hp'
    rw [hes, tables_cons]
    simp only [List.mem_append] at hp' ⊢
    tauto
  · intro p hp'; simp [hp']
  · rw [hcur]
    exact Win.cur_ge (M := c.wm.cur) (fun _ _ _ _ _ hT => Nat.le_of_eq hT.1) hw
  · rw [hf]; exact hhalt
  · have := h.alus
    rw [hes, aluUsers_cons] at this
    rw [hst] at this
    simp at this
    rw [hent]
    rw [hf]; exact this
  · rw [hent]; exact hW
  · rw [hpreds]; exact hp
  · rw [hent]
    have := h.cap
    rw [hes] at this
    simp at this
    omega

end
end T86
