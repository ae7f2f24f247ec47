import Verif.Lemmas.FetchStage

/-! Executing entries preserves the invariant. -/

set_option linter.unusedSimpArgs false
set_option linter.unusedVariables false
set_option linter.unnecessarySeqFocus false

namespace T86
open Isa

section
variable {cfg : Cfg}

/-! ## When `execute` fails -/

theorem udivC_sat {x y : Word} : Sat (udivC x y) (fun _ => True) (· = .ub) := by unfold udivC; split <;> simp [Sat]
theorem sdivC_sat {x y : Word} : Sat (sdivC x y) (fun _ => True) (· = .ub) := by unfold sdivC; split <;> simp [Sat]
theorem smodC_sat {x y : Word} : Sat (smodC x y) (fun _ => True) (· = .ub) := by unfold smodC; split <;> simp [Sat]
theorem shlC_sat {x y : Word} : Sat (shlC x y) (fun _ => True) (· = .ub) := by unfold shlC; split <;> simp [Sat]
theorem sarC_sat {x y : Word} : Sat (sarC x y) (fun _ => True) (· = .ub) := by unfold sarC; split <;> simp [Sat]

theorem alu_add_sat {m : Mode} {x y : Word} : Sat (Alu.add m x y) (fun _ => True) (fun f => f = .ub ∧ m = .strict) := by
  unfold Alu.add
  exact Sat.bind sadd_sat fun _ _ => trivial

theorem alu_subtract_sat {m : Mode} {x y : Word} :
    Sat (Alu.subtract m x y) (fun _ => True) (fun f => f = .ub ∧ m = .strict) := by
  unfold Alu.subtract
  exact Sat.bind ssub_sat fun _ _ => trivial

theorem alu_bin_sat {m : Mode} {op : BinOp} {x y : Word} : Sat (op.alu m x y) (fun _ => True) (fun f => f = .ub ∧ (m = .strict ∨
    ∀ k d r v, (Instr.bin op k d r v).risky = true)) := by
  have e1 : ∀ f : Fault, f = .ub ∧ m = .strict → (f = .ub ∧ (m = .strict ∨
    ∀ k d r v, (Instr.bin op k d r v).risky = true)) := fun f h => ⟨h.1, Or.inl h.2⟩
  cases op with
  | add => exact alu_add_sat.mono (fun _ h => h) e1
  | sub => exact alu_subtract_sat.mono (fun _ h => h) e1
  | mul =>
    show Sat (Alu.multiply x y) _ _
    unfold Alu.multiply
    dsimp only
    split
    · next h => unfold udivC; rw [if_neg h.2]; trivial
    · trivial
  | and => exact trivial
  | or => exact trivial
  | xor => exact trivial
  | mod =>
    refine Sat.mono (P := fun _ => True) (E := (· = .ub)) ?_ (fun _ h => h) (fun f h => ⟨h, Or.inr fun _ _ _ _ => rfl⟩)
    exact Sat.bind smodC_sat fun _ _ => trivial
  | div =>
    refine Sat.mono (P := fun _ => True) (E := (· = .ub)) ?_ (fun _ h => h) (fun f h => ⟨h, Or.inr fun _ _ _ _ => rfl⟩)
    exact Sat.bind udivC_sat fun _ _ => trivial
  | idiv =>
    refine Sat.mono (P := fun _ => True) (E := (· = .ub)) ?_ (fun _ h => h) (fun f h => ⟨h, Or.inr fun _ _ _ _ => rfl⟩)
    exact Sat.bind sdivC_sat fun _ _ => trivial
  | imul =>
    refine Sat.mono (P := fun _ => True) (E := (· = .ub)) ?_ (fun _ h => h) (fun f h => ⟨h, Or.inr fun _ _ _ _ => rfl⟩)
    refine Sat.bind (smul_sat.mono (fun _ h => h) fun _ h => h.1) fun _ _ => ?_
    dsimp only
    split
    · exact Sat.bind sdivC_sat fun _ _ => trivial
    · trivial
  | lsh =>
    refine Sat.mono (P := fun _ => True) (E := (· = .ub)) ?_ (fun _ h => h) (fun f h => ⟨h, Or.inr fun _ _ _ _ => rfl⟩)
    refine Sat.bind shlC_sat fun _ _ => ?_
    dsimp only
    split
    · exact Sat.bind shlC_sat fun _ _ => trivial
    · trivial
  | rsh =>
    refine Sat.mono (P := fun _ => True) (E := (· = .ub)) ?_ (fun _ h => h) (fun f h => ⟨h, Or.inr fun _ _ _ _ => rfl⟩)
    refine Sat.bind sarC_sat fun _ _ => ?_
    dsimp only
    split
    · exact Sat.bind sarC_sat fun _ _ => trivial
    · trivial

theorem alu_un_sat {m : Mode} {op : UnOp} {x : Word} :
    Sat (op.alu m x) (fun _ => True) (fun f => f = .ub ∧ m = .strict) := by
  cases op with
  | inc => exact alu_add_sat
  | dec => exact alu_subtract_sat
  | neg =>
    show Sat (Alu.negate m x) _ _
    unfold Alu.negate
    refine Sat.bind (P := fun _ => True) ?_ (fun _ _ => by trivial)
    unfold sneg; split
    · next h => exact ⟨rfl, h.1⟩
    · trivial
  | not => exact trivial

/-- `execute` of a well-formed instruction fails only with undefined behaviour. -/
theorem exec_sat {i : Instr} {s : State} (hw : i.wf cfg = true) :
    Sat (i.exec cfg (valsOf s i)) (fun _ => True) (fun f => f = .ub ∧ (cfg.mode = .strict ∨ i.risky = true)) := by
  have e1 : ∀ f : Fault, f = .ub ∧ cfg.mode = .strict → (f = .ub ∧ (cfg.mode = .strict ∨ i.risky = true)) :=
    fun f h => ⟨h.1, Or.inl h.2⟩
  cases i with
  | mov dst v =>
    cases dst with
    | imm => simp [Instr.wf] at hw
    | fimm => simp [Instr.wf] at hw
    | freg => exact trivial
    | memImm => exact trivial
    | val e =>
      cases e with
      | reg => exact trivial
      | _ => simp [Instr.wf] at hw
    | mem e =>
      rw [valsOf_mov_mem, exec_mov_mem]
      exact Sat.bind ((address_sat cfg.mode s.get e).mono (fun _ h => h) e1) fun _ _ => trivial
  | lea d m =>
    cases m with
    | mem e =>
      by_cases h1 : ∃ r, e = .reg r
      · obtain ⟨r, rfl⟩ := h1; simp [Instr.wf] at hw
      · have h1 : ∀ r, e ≠ .reg r := fun r h => h1 ⟨r, h⟩
        rw [valsOf_lea h1]
        by_cases h2 : ∃ r r', e = .regReg r r'
        · obtain ⟨r, r', rfl⟩ := h2
          exact ⟨rfl, Or.inr rfl⟩
        · rw [exec_lea _ fun r r' h => h2 ⟨r, r', h⟩]
          exact Sat.bind ((address_sat cfg.mode s.get e).mono (fun _ h => h) e1) fun _ _ => trivial
    | _ => simp [Instr.wf] at hw
  | nop => exact trivial
  | halt => exact trivial
  | brk => exact trivial
  | bkpt => exact trivial
  | clf => exact trivial
  | bin op k d r v =>
    change Sat (Instr.exec cfg _ [_, _]) _ _
    rw [exec_bin]
    exact Sat.bind (alu_bin_sat.mono (fun _ h => h) fun f h => ⟨h.1, h.2.imp id fun h => h k d r v⟩) fun _ _ => trivial
  | fbin op f v => exact trivial
  | un op r =>
    change Sat (Instr.exec cfg _ [_]) _ _
    rw [exec_un]
    exact Sat.bind (alu_un_sat.mono (fun _ h => h) e1) fun _ _ => trivial
  | cmp r v =>
    change Sat (Instr.exec cfg _ [_, _]) _ _
    rw [exec_cmp]
    exact Sat.bind (alu_subtract_sat.mono (fun _ h => h) e1) fun _ _ => trivial
  | fcmp f v => exact trivial
  | jmp a => exact trivial
  | jcc c a => exact trivial
  | loop r a =>
    change Sat (Instr.exec cfg _ [_, _]) _ _
    rw [exec_loop]
    exact Sat.bind (alu_subtract_sat.mono (fun _ h => h) e1) fun _ _ => trivial
  | call a =>
    change Sat (Instr.exec cfg _ [_, _, _]) _ _
    rw [exec_call]
    exact Sat.bind (ssub_sat.mono (fun _ h => h) e1) fun _ _ => trivial
  | ret =>
    change Sat (Instr.exec cfg _ [_, _]) _ _
    rw [exec_ret]
    exact Sat.bind (sadd_sat.mono (fun _ h => h) e1) fun _ _ => trivial
  | push v =>
    change Sat (Instr.exec cfg _ [_, _]) _ _
    rw [exec_push]
    exact Sat.bind (ssub_sat.mono (fun _ h => h) e1) fun _ _ => trivial
  | fpush v =>
    change Sat (Instr.exec cfg _ [_, _]) _ _
    rw [exec_fpush]
    exact Sat.bind (ssub_sat.mono (fun _ h => h) e1) fun _ _ => trivial
  | pop r =>
    change Sat (Instr.exec cfg _ [_, _]) _ _
    rw [exec_pop]
    exact Sat.bind (sadd_sat.mono (fun _ h => h) e1) fun _ _ => trivial
  | fpop f =>
    change Sat (Instr.exec cfg _ [_, _]) _ _
    rw [exec_fpop]
    exact Sat.bind (sadd_sat.mono (fun _ h => h) e1) fun _ _ => trivial
  | putchar r => exact trivial
  | putnum r => exact trivial
  | getchar r => exact trivial
  | ext f r => exact trivial
  | nrw r f =>
    change Sat (Instr.exec cfg _ [_]) _ _
    rw [exec_nrw]
    split
    · exact trivial
    · exact ⟨rfl, Or.inr rfl⟩

/-! ## Register writes -/

/-- What the reference count of a cell is. -/
def subsView (regs : Regs) (p : Nat) : Option Nat := regs[p]?.map PReg.subs

theorem setReg_ok {wrat : Rat} {regs : Regs} {r : LReg} {k p : Nat} {c : PReg} (v : Word) (hk : cfg.key r = some k)
    (hp : wrat[k]? = some p) (hc : regs[p]? = some c) (hr : r ≠ .int .pc → c.ready = false) :
    Cpu.setReg cfg wrat regs r v = .ok (regs.set p { c with value := v, ready := true }) := by
  have ht : wrat.translate cfg r = .ok p := by unfold Rat.translate; simp only [hk, hp]
  have hw : regs.write p v = .ok (regs.set p { c with value := v, ready := true }) := by
    unfold Regs.write; rw [regs_get hc]; rfl
  unfold Cpu.setReg
  rw [ht, ok_bind, regs_get hc, ok_bind]
  cases r with
  | flt i => exact hw
  | int r => cases r <;> first | exact hw | (simp only [hr (by simp)]; exact hw)

theorem view_set {regs : Regs} {p : Nat} {c : PReg} {v : Word} (hc : regs[p]? = some c) :
    cellView (regs.set p { c with value := v, ready := true }) p = some (v, true) := by
  have hlt : p < regs.length := by
    by_contra h
    rw [List.getElem?_eq_none (by omega)] at hc; cases hc
  unfold cellView
  rw [List.getElem?_set_self hlt]; rfl

theorem view_set_ne {regs : Regs} {p q : Nat} {c : PReg} (h : q ≠ p) : cellView (regs.set p c) q = cellView regs q := by
  unfold cellView
  rw [List.getElem?_set_ne (Ne.symm h)]

theorem subs_set {regs : Regs} {p : Nat} {c c' : PReg} (hc : regs[p]? = some c) (hs : c'.subs = c.subs) (q : Nat) :
    subsView (regs.set p c') q = subsView regs q := by
  unfold subsView
  by_cases h : q = p
  · subst h
    have hlt : q < regs.length := by
      by_contra h
      rw [List.getElem?_eq_none (by omega)] at hc; cases hc
    rw [List.getElem?_set_self hlt, hc]; simp [hs]
  · rw [List.getElem?_set_ne (Ne.symm h)]

/-- The register writes of an instruction. -/
theorem setFold_ok {wrat : Rat} : ∀ (sets : List (LReg × Word)) (regs : Regs), (sets.map Prod.fst).Nodup →
    (∀ r v, (r, v) ∈ sets → ∃ k p c, cfg.key r = some k ∧ wrat[k]? = some p ∧ regs[p]? = some c ∧
      (r ≠ .int .pc → c.ready = false)) →
    (∀ r r' k k' (p : Nat), r ∈ sets.map Prod.fst → r' ∈ sets.map Prod.fst → cfg.key r = some k → cfg.key r' = some k' →
      wrat[k]? = some p → wrat[k']? = some p → r = r') →
    ∃ regs', sets.foldlM (fun rs x => Cpu.setReg cfg wrat rs x.1 x.2) regs = .ok regs' ∧ regs'.length = regs.length ∧
      (∀ p, subsView regs' p = subsView regs p) ∧
      (∀ r v, (r, v) ∈ sets → ∀ k p, cfg.key r = some k → wrat[k]? = some p → CellVal regs' p v) ∧
      (∀ p, (∀ r v, (r, v) ∈ sets → ∀ k, cfg.key r = some k → wrat[k]? ≠ some p) → cellView regs' p = cellView regs p)
  | [], regs, _, _, _ => ⟨regs, rfl, rfl, fun _ => rfl, (fun _ _ h => by cases h), fun _ _ => rfl⟩
  | (r, v) :: sets, regs, hn, hc, hi => by
    obtain ⟨k, p, c, hk, hp, hcc, hr⟩ := hc r v (List.mem_cons_self ..)
    rw [List.map_cons, List.nodup_cons] at hn
    have hset := setReg_ok (wrat := wrat) v hk hp hcc hr
    have hne : ∀ r' v', (r', v') ∈ sets → ∀ k', cfg.key r' = some k' → wrat[k']? ≠ some p := by
      intro r' v' hm k' hk' hp'
      have hm' : r' ∈ sets.map Prod.fst := List.mem_map.2 ⟨_, hm, rfl⟩
      have := hi r r' k k' p (List.mem_cons_self ..) (List.mem_cons_of_mem _ hm') hk hk' hp hp'
      subst this
      exact hn.1 hm'
    obtain ⟨regs', h1, h2, h3, h4, h5⟩ := setFold_ok (wrat := wrat) sets (regs.set p { c with value := v, ready := true }) hn.2
      (by
        intro r' v' hm
        obtain ⟨k', p', c', g1, g2, g3, g4⟩ := hc r' v' (List.mem_cons_of_mem _ hm)
        refine ⟨k', p', c', g1, g2, ?_, g4⟩
        rw [List.getElem?_set_ne]
        · exact g3
        · rintro rfl; exact hne r' v' hm k' g1 g2)
      (fun r1 r2 k1 k2 q m1 m2 => hi r1 r2 k1 k2 q (List.mem_cons_of_mem _ m1) (List.mem_cons_of_mem _ m2))
    refine ⟨regs', ?_, ?_, ?_, ?_, ?_⟩
    · rw [List.foldlM_cons, hset, ok_bind]; exact h1
    · rw [h2, List.length_set]
    · intro q; rw [h3]; exact subs_set (c' := { c with value := v, ready := true }) hcc rfl q
    · intro r' v' hm k' p' hk' hp'
      rcases List.mem_cons.1 hm with h | h
      · cases h
        rw [hk] at hk'; cases hk'
        rw [hp] at hp'; cases hp'
        rw [cellVal_iff, h5 p hne, view_set hcc]
      · exact h4 r' v' h k' p' hk' hp'
    · intro q hq
      rw [h5 q fun r' v' hm => hq r' v' (List.mem_cons_of_mem _ hm), view_set_ne]
      rintro rfl
      exact hq r v (List.mem_cons_self ..) k hk hp

/-- The memory part of a call. -/
def memAct (wids : List Nat) (wm : Writes) (a : Act) : Res Writes :=
  match a with
  | .set _ _ => .ok wm
  | .specifyAddress a =>
      match wids with
      | [id] => wm.specifyAddress id a
      | _ => .error .abort
  | .setValue v =>
      match wids with
      | [id] => wm.setValue id v
      | _ => .error .abort

theorem applyFold {wrat : Rat} {wids : List Nat} : ∀ (acts : List Act) (regs regs' : Regs) (wm : Writes),
    (actSets acts).foldlM (fun rs x => Cpu.setReg cfg wrat rs x.1 x.2) regs = .ok regs' →
    acts.foldlM (Cpu.applyAct cfg wrat wids) (regs, wm) =
      ((actMems acts).foldlM (memAct wids) wm >>= fun q => (.ok (regs', q) : Res (Regs × Writes)))
  | [], regs, regs', wm, h => by
    cases h; rfl
  | .set r v :: acts, regs, regs', wm, h => by
    have hs : actSets (.set r v :: acts) = (r, v) :: actSets acts := rfl
    have hm : actMems (.set r v :: acts) = actMems acts := rfl
    rw [hs, List.foldlM_cons, bind_ok_iff] at h
    obtain ⟨r1, h1, h2⟩ := h
    rw [hm, List.foldlM_cons]
    show (Cpu.setReg cfg wrat regs r v >>= fun regs => pure (regs, wm)) >>= _ = _
    simp only at h1
    rw [h1, ok_bind, pure_ok, ok_bind]
    exact applyFold acts r1 regs' wm h2
  | .specifyAddress a :: acts, regs, regs', wm, h => by
    have hs : actSets (.specifyAddress a :: acts) = actSets acts := rfl
    have hm : actMems (.specifyAddress a :: acts) = .specifyAddress a :: actMems acts := rfl
    rw [hs] at h
    rw [hm, List.foldlM_cons, List.foldlM_cons]
    have he : Cpu.applyAct cfg wrat wids (regs, wm) (.specifyAddress a) =
        (memAct wids wm (.specifyAddress a) >>= fun q => (.ok (regs, q) : Res (Regs × Writes))) := by
      unfold Cpu.applyAct memAct
      rcases wids with _ | ⟨id, _ | ⟨_, _⟩⟩ <;> rfl
    rw [he]
    cases memAct wids wm (.specifyAddress a) with
    | error f => rfl
    | ok q => exact applyFold acts regs regs' q h
  | .setValue v :: acts, regs, regs', wm, h => by
    have hs : actSets (.setValue v :: acts) = actSets acts := rfl
    have hm : actMems (.setValue v :: acts) = .setValue v :: actMems acts := rfl
    rw [hs] at h
    rw [hm, List.foldlM_cons, List.foldlM_cons]
    have he : Cpu.applyAct cfg wrat wids (regs, wm) (.setValue v) =
        (memAct wids wm (.setValue v) >>= fun q => (.ok (regs, q) : Res (Regs × Writes))) := by
      unfold Cpu.applyAct memAct
      rcases wids with _ | ⟨id, _ | ⟨_, _⟩⟩ <;> rfl
    rw [he]
    cases memAct wids wm (.setValue v) with
    | error f => rfl
    | ok q => exact applyFold acts regs regs' q h

/-! ## One entry -/

theorem fetchAt_mem {prog : List Instr} {pc : Word} (h : fetchAt prog pc ≠ .nop) : fetchAt prog pc ∈ prog := by
  unfold fetchAt at h ⊢
  rw [List.getD_eq_getElem?_getD] at h ⊢
  cases hg : prog[pc.toNat]? with
  | none => rw [hg] at h; exact absurd rfl h
  | some i => exact List.mem_of_getElem? hg

theorem risky_ub {prog : List Instr} {pc : Word} {i : Instr} (hi : i = fetchAt prog pc) (h : i.risky = true) :
    UbPossible cfg prog := by
  refine Or.inr ⟨i, ?_, h⟩
  rw [hi]; apply fetchAt_mem
  rw [← hi]; rintro rfl; cases h

theorem store_risky {i : Instr} (hw : i.wf cfg = true) {sp : Option Word} (h : storeProd i = some sp) : i.risky = true := by
  cases i with
  | mov dst v =>
    cases dst with
    | val e => cases e <;> simp [storeProd, prodsOf, Instr.produces, Product.fromOperand, bind, Except.bind, pure, Except.pure, store?_reg, store?_freg] at h
    | freg => simp [storeProd, prodsOf, Instr.produces, Product.fromOperand, bind, Except.bind, pure, Except.pure, store?_reg, store?_freg] at h
    | memImm => rfl
    | mem => rfl
    | _ => simp [Instr.wf] at hw
  | call => rfl
  | push => rfl
  | fpush => rfl
  | _ => simp [storeProd, prodsOf, Instr.produces, store?_reg, store?_freg, List.findSome?] at h

theorem values_eq {S : State} {ops ops0 : List Operand} (h : List.Forall₂ (OpRel cfg S) ops ops0)
    (hf : ops.all Operand.isFetched = true) : Cpu.values ops = some (ops0.map (opVal S)) ∧ ops.any (opFault S) = false := by
  induction h with
  | nil => exact ⟨rfl, rfl⟩
  | @cons a b l1 l2 hab _ ih =>
    simp only [List.all_cons, Bool.and_eq_true] at hf
    obtain ⟨i1, i2⟩ := ih hf.2
    have ha : a.getValue = some (opVal S b) ∧ opFault S a = false := by
      rw [← hab.1]
      cases a <;> first | exact ⟨rfl, rfl⟩ | (simp [Operand.isFetched] at hf)
    unfold Cpu.values at i1 ⊢
    simp [List.mapM_cons, ha.1, i1, ha.2, i2]

theorem values_get {ops : List Operand} {vs : List Word} (h : Cpu.values ops = some vs) (ext : List Operand) :
    ∀ (j : Nat) (v : Word), vs[j]? = some v → ∃ op : Operand, (ops ++ ext)[j]? = some op ∧ op.getValue = some v := by
  induction ops generalizing vs with
  | nil => cases h; intro j v hj; simp at hj
  | cons a l ih =>
    unfold Cpu.values at h ih
    rw [List.mapM_cons] at h
    cases ha : a.getValue with
    | none => simp [ha] at h
    | some w =>
      cases hl : l.mapM Operand.getValue with
      | none => simp [ha, hl] at h
      | some ws =>
        simp [ha, hl] at h
        subst h
        intro j v hj
        cases j with
        | zero => simp at hj; subst hj; exact ⟨a, rfl, ha⟩
        | succ j => simp at hj; simpa using ih hl j v hj

/-- What the execution of an entry with number `n` and preceding write `m` leaves alone. -/
structure ExecFrame (regs regs' : Regs) (wm wm' : Writes) (own : Nat → Nat × Nat) (P : Nat → Prop) (Q : Nat → Prop) : Prop where
  len : regs'.length = regs.length
  subs : ∀ p, subsView regs' p = subsView regs p
  cells : ∀ p, ¬ P (own p).1 → cellView regs' p = cellView regs p
  recs : ∀ j, ¬ Q j → wm'.recOf j = wm.recOf j ∧ (j ∈ wm'.unspec ↔ j ∈ wm.unspec)
  outs : wm'.outs = wm.outs
  cur : wm'.cur = wm.cur

theorem ExecFrame.refl {regs : Regs} {wm : Writes} {own : Nat → Nat × Nat} {P Q : Nat → Prop} :
    ExecFrame regs regs wm wm own P Q := ⟨rfl, fun _ => rfl, fun _ _ => rfl, fun _ _ => ⟨rfl, Iff.rfl⟩, rfl, rfl⟩

theorem execMems_sat {prog : List Instr} {regs : Regs} {wm : Writes} {own : Nat → Nat × Nat} {S : State} {m0 m n : Nat} {b : Rat} {e : Entry} {x : ExecOut}
    (he : EntryOK cfg ⟨prog, regs, wm, own⟩ S m b n e) (hwf : e.instr.wf cfg = true) (hst : e.st ≠ .retiring)
    (hx : e.instr.exec cfg (valsOf S e.instr) = .ok x) (hw : WmOK wm m0) (hle : m0 ≤ m) :
    Sat ((actMems x.acts).foldlM (memAct e.wids) wm) (fun wm' =>
      (∀ j, j ≠ m + 1 ∨ m + 1 ∉ e.wids → wm'.recOf j = wm.recOf j ∧ (j ∈ wm'.unspec ↔ j ∈ wm.unspec)) ∧ wm'.outs = wm.outs ∧ wm'.cur = wm.cur ∧
      WmOK wm' m0 ∧ (∀ sp, storeProd e.instr = some sp →
        m + 1 ∉ wm'.unspec ∧ ∃ a v, storeOf cfg S e.instr = some (a, v) ∧ wm'.recOf (m + 1) = some (a, some v, none)))
      (HostUb cfg prog) := by
  have hs := he.store
  unfold StoreOK at hs
  have eub : ∀ sp, storeProd e.instr = some sp → ∀ f : Fault, f = .ub → HostUb cfg prog f :=
    fun sp hsp f hf => ⟨hf, risky_ub he.instr (store_risky hwf hsp)⟩
  split at hs
  · next hsp =>
    have hm := (exec_shape hwf hx).mem
    rw [hsp] at hm
    simp only at hm
    rw [hm]
    refine ⟨fun _ _ => ⟨rfl, Iff.rfl⟩, rfl, rfl, hw, fun sp h => ?_⟩
    rw [hsp] at h; cases h
  · next sp hsp =>
    rw [if_neg hst] at hs
    obtain ⟨h1, h2, h3⟩ := hs
    have hmem : m + 1 ∈ e.wids := by rw [h1]; exact List.mem_cons_self ..
    cases sp with
    | some a =>
      obtain ⟨v, hv, hso⟩ := storeOf_static hwf hsp hx
      rw [hv, List.foldlM_cons, h1]
      simp only [memAct]
      refine Sat.bind ((Writes.setValue_sat (v := v) hw h3.2).mono (fun _ h => h) (eub _ hsp)) ?_
      rintro q ⟨g1, g2, g3, g4, g5⟩
      refine ⟨?_, g2, g3, g1, ?_⟩
      · intro j hj
        have hj : j ≠ m + 1 := by
          rcases hj with h | h
          · exact h
          · exact absurd (List.mem_cons_self ..) h
        rw [g4, if_neg hj, g5]; exact ⟨rfl, Iff.rfl⟩
      · intro sp' _
        rw [g5]
        refine ⟨h3.1, a, v, hso, ?_⟩
        rw [g4, if_pos rfl]
    | none =>
      obtain ⟨a, v, hv, hso⟩ := storeOf_dynamic hwf hsp hx
      rw [hv, List.foldlM_cons, h1]
      simp only [memAct]
      obtain ⟨q0, k0, k1, k2, k3, k4, k5⟩ := Writes.specifyAddress_ok (a := a) hw h3.1 h3.2
      rw [k0, ok_bind, List.foldlM_cons]
      simp only [memAct]
      refine Sat.bind ((Writes.setValue_sat (v := v) (a := a) k1 (by rw [k4, if_pos rfl])).mono (fun _ h => h) (eub _ hsp)) ?_
      rintro q ⟨g1, g2, g3, g4, g5⟩
      refine ⟨?_, g2.trans k2, g3.trans k3, g1, ?_⟩
      · intro j hj
        have hj : j ≠ m + 1 := by
          rcases hj with h | h
          · exact h
          · exact absurd (List.mem_cons_self ..) h
        rw [g4, if_neg hj, g5, k4, if_neg hj, k5]; exact ⟨rfl, and_iff_left hj⟩
      · intro sp' _
        rw [g5, k5]
        refine ⟨fun h => h.2 rfl, a, v, hso, ?_⟩
        rw [g4, if_pos rfl]

theorem key_of_ok {e : Entry} {b : Rat} (ht : TabOK cfg b e) {k : Nat} (hk : k < cfg.nkeys) : ∃ p, e.wrat[k]? = some p :=
  ⟨_, List.getElem?_eq_getElem (by rw [ht.lenw]; exact hk)⟩

theorem regProds_key {i : Instr} (hw : i.wf cfg = true) {r : LReg} (hr : r ∈ regProds i) : ∃ k, cfg.key r = some k := by
  have hd : ∀ d : Reg, cfg.destReg d = true → ∃ k, cfg.key (.int d) = some k := by
    intro d h
    simp only [Cfg.destReg, Cfg.hasReg, Bool.and_eq_true] at h
    exact Option.isSome_iff_exists.1 h.1.1
  have hfl : ∃ k, cfg.key (.int .flags) = some k := ⟨_, rfl⟩
  have hsp : ∃ k, cfg.key (.int .sp) = some k := ⟨_, rfl⟩
  have hff : ∀ f, decide (f < cfg.nfreg) = true → ∃ k, cfg.key (.flt f) = some k := by
    intro f h; exact ⟨cfg.nreg + f, by simp at h; simp [Cfg.key, h]⟩
  have hl : ∀ d r, Product.lreg? (.reg d) = some r → cfg.destReg d = true → ∃ k, cfg.key r = some k := by
    intro d r h hd'
    rw [lreg?_reg (destReg_ne hd').1] at h
    cases h
    exact hd d hd'
  cases i with
  | mov dst v =>
    simp only [regProds, prodsOf, Instr.produces] at hr
    cases dst with
    | val e =>
      cases e with
      | reg d =>
        simp [Product.fromOperand, bind, Except.bind, pure, Except.pure] at hr
        simp only [Instr.wf, Bool.and_eq_true] at hw
        exact hl _ _ hr hw.2
      | _ => simp [Instr.wf] at hw
    | freg f =>
      simp [Product.fromOperand, bind, Except.bind, pure, Except.pure, lreg?_freg] at hr
      simp only [Instr.wf, Bool.and_eq_true] at hw
      subst hr
      exact hff f hw.2
    | memImm => simp [Product.fromOperand, bind, Except.bind, pure, Except.pure, lreg?_memImm] at hr
    | mem => simp [Product.fromOperand, bind, Except.bind, pure, Except.pure, lreg?_memReg] at hr
    | _ => simp [Instr.wf] at hw
  | lea d m =>
    simp only [Instr.wf, Bool.and_eq_true] at hw
    simp [regProds, prodsOf, Instr.produces] at hr
    exact hl _ _ hr hw.1
  | clf => simp [regProds, prodsOf, Instr.produces, lreg?_flags] at hr; rw [hr]; exact hfl
  | cmp => simp [regProds, prodsOf, Instr.produces, lreg?_flags] at hr; rw [hr]; exact hfl
  | fcmp => simp [regProds, prodsOf, Instr.produces, lreg?_flags] at hr; rw [hr]; exact hfl
  | bin op k d r v =>
    simp only [Instr.wf, Bool.and_eq_true] at hw
    simp [regProds, prodsOf, Instr.produces, lreg?_flags] at hr
    rcases hr with hr | hr
    · exact hl _ _ hr hw.1.1
    · rw [← hr]; exact hfl
  | fbin op f v =>
    simp only [Instr.wf, Bool.and_eq_true] at hw
    simp [regProds, prodsOf, Instr.produces, lreg?_flags, lreg?_freg] at hr
    rcases hr with hr | hr <;> rw [hr]
    · exact hff f hw.1
    · exact hfl
  | un op d =>
    simp only [Instr.wf] at hw
    simp [regProds, prodsOf, Instr.produces, lreg?_flags] at hr
    rcases hr with hr | hr
    · exact hl _ _ hr hw
    · rw [← hr]; exact hfl
  | loop d a =>
    simp only [Instr.wf, Bool.and_eq_true] at hw
    simp [regProds, prodsOf, Instr.produces, lreg?_flags, lreg?_pc] at hr
    rcases hr with hr | hr
    · exact hl _ _ hr hw.1
    · rw [← hr]; exact hfl
  | call => simp [regProds, prodsOf, Instr.produces, lreg?_pc, lreg?_sp, lreg?_memReg] at hr; rw [← hr]; exact hsp
  | ret => simp [regProds, prodsOf, Instr.produces, lreg?_pc, lreg?_sp, lreg?_memReg] at hr; rw [hr]; exact hsp
  | push => simp [regProds, prodsOf, Instr.produces, lreg?_pc, lreg?_sp, lreg?_memReg] at hr; rw [← hr]; exact hsp
  | fpush => simp [regProds, prodsOf, Instr.produces, lreg?_pc, lreg?_sp, lreg?_memReg] at hr; rw [← hr]; exact hsp
  | pop d =>
    simp only [Instr.wf, Bool.and_eq_true] at hw
    simp [regProds, prodsOf, Instr.produces, lreg?_sp] at hr
    rcases hr with hr | hr
    · exact hl _ _ hr hw.1
    · rw [← hr]; exact hsp
  | fpop f =>
    simp only [Instr.wf] at hw
    simp [regProds, prodsOf, Instr.produces, lreg?_sp, lreg?_freg] at hr
    rcases hr with hr | hr <;> rw [hr]
    · exact hff f hw
    · exact hsp
  | getchar d =>
    simp only [Instr.wf] at hw
    simp [regProds, prodsOf, Instr.produces] at hr
    exact hl _ _ hr hw
  | ext f r =>
    simp only [Instr.wf, Bool.and_eq_true] at hw
    simp [regProds, prodsOf, Instr.produces, lreg?_freg] at hr
    rw [hr]; exact hff f hw.1
  | nrw d f =>
    simp only [Instr.wf, Bool.and_eq_true] at hw
    simp [regProds, prodsOf, Instr.produces] at hr
    exact hl _ _ hr hw.1
  | _ => simp [regProds, prodsOf, Instr.produces, lreg?_pc] at hr

theorem regProds_ne_pc {i : Instr} {r : LReg} (hr : r ∈ regProds i) : r ≠ .int .pc := by
  unfold regProds at hr
  rw [List.mem_filterMap] at hr
  obtain ⟨p, _, h⟩ := hr
  rintro rfl
  cases p with
  | reg r => cases r <;> cases h
  | freg => cases h
  | memImm => cases h
  | memReg => cases h

/-- Executing an entry. -/
theorem execute_sat {prog : List Instr} {regs : Regs} {wm : Writes} {own : Nat → Nat × Nat} {S : State} {m0 m n : Nat} {b : Rat}
    {e : Entry} (he : EntryOK cfg ⟨prog, regs, wm, own⟩ S m b n e) (hwf : e.instr.wf cfg = true) (hst : e.st = .executing)
    (hw : WmOK wm m0) (hle : m0 ≤ m) (rm : Nat) :
    Sat (Cpu.execute cfg (regs, wm) { e with rem := rm }) (fun y =>
      EntryOK cfg ⟨prog, y.2.1, y.2.2, own⟩ S m b n { y.1 with st := .retiring } ∧ SameShape y.1 e ∧ y.1.wids = e.wids ∧
      ExecFrame regs y.2.1 wm y.2.2 own (· = n) (fun j => j = m + 1 ∧ m + 1 ∈ e.wids) ∧ WmOK y.2.2 m0) (HostUb cfg prog) := by
  have hne : e.st ≠ .retiring := by rw [hst]; decide
  have hops := he.ops
  unfold OpsOK at hops
  rw [if_neg hne] at hops
  obtain ⟨ho1, ho2, ho3⟩ := hops
  obtain ⟨hv, hf⟩ := values_eq ho1 (ho3 (by rw [hst]; decide))
  unfold Cpu.execute
  simp only [hv]
  have hx0 := exec_sat (cfg := cfg) (s := S) hwf
  refine Sat.bind (hx0.with_eq.mono (fun _ h => h.1) fun f h => ⟨h.1, h.2.elim Or.inl fun h => risky_ub he.instr h⟩) ?_
  intro x hx
  change e.instr.exec cfg (valsOf S e.instr) = .ok x at hx
  have sh := exec_shape hwf hx
  have hkey : ∀ r v, (r, v) ∈ actSets x.acts → ∃ k p, cfg.key r = some k ∧ e.wrat[k]? = some p ∧ own p = (n, k) := by
    intro r v hm
    rcases sh.sub r v hm with ⟨rfl, _⟩ | ⟨h1, h2, _⟩
    · obtain ⟨p, hp⟩ := key_of_ok he.tab (pcK_lt (cfg := cfg))
      exact ⟨_, p, key_pc, hp, he.own _ (List.mem_cons_self ..) p hp⟩
    · obtain ⟨k, hk⟩ := regProds_key hwf h2
      obtain ⟨p, hp⟩ := key_of_ok he.tab (key_lt hk)
      exact ⟨k, p, hk, hp, he.own _ ((mem_freshKeys hk h1).2 h2) p hp⟩
  obtain ⟨regs', s1, s2, s3, s4, s5⟩ := setFold_ok (cfg := cfg) (wrat := e.wrat) (actSets x.acts) regs sh.nodup
    (by
      intro r v hm
      obtain ⟨k, p, hk, hp, _⟩ := hkey r v hm
      rcases sh.sub r v hm with ⟨rfl, _⟩ | ⟨h1, h2, h3⟩
      · rw [key_pc] at hk; cases hk
        obtain ⟨c, hc, _⟩ := he.pcCell p hp
        exact ⟨_, p, c, key_pc, hp, hc, fun h => absurd rfl h⟩
      · have := he.cells r h2 k hk p hp
        rw [if_neg (fun h => hne h.1)] at this
        obtain ⟨c, hc, hcr⟩ := this
        exact ⟨k, p, c, hk, hp, hc, fun _ => hcr⟩)
    (by
      intro r r' k k' p hr hr' hk hk' hp hp'
      obtain ⟨⟨_, v⟩, hm, rfl⟩ := List.mem_map.1 hr
      obtain ⟨⟨_, v'⟩, hm', rfl⟩ := List.mem_map.1 hr'
      obtain ⟨k1, p1, g1, g2, g3⟩ := hkey _ _ hm
      obtain ⟨k2, p2, g1', g2', g3'⟩ := hkey _ _ hm'
      simp only at hk hk'
      rw [hk] at g1; cases g1
      rw [hk'] at g1'; cases g1'
      rw [hp] at g2; cases g2
      rw [hp'] at g2'; cases g2'
      rw [g3] at g3'
      have : k = k' := by injection g3'
      subst this
      exact key_inj hk hk')
  rw [applyFold (cfg := cfg) (wids := e.wids) x.acts regs regs' wm s1]
  have hpcs : ∀ p, e.wrat[cfg.pcK]? = some p → CellVal regs' p (dataStep cfg S e.instr).pc := by
    intro p hp
    by_cases hm : ∃ v, (LReg.int .pc, v) ∈ actSets x.acts
    · obtain ⟨v, hm⟩ := hm
      rw [dataStep_pc_set hwf hx hm]
      exact s4 _ v hm _ p key_pc hp
    · have hm : ∀ v, (LReg.int .pc, v) ∉ actSets x.acts := fun v h => hm ⟨v, h⟩
      rw [dataStep_pc_other hx hm]
      have hc := he.pcCell p hp
      rw [if_neg hne] at hc
      refine hc.congr (s5 p ?_)
      intro r v hrv k hk hkp
      obtain ⟨k1, p1, g1, g2, g3⟩ := hkey r v hrv
      rw [hk] at g1; cases g1
      rw [hkp] at g2; cases g2
      have := he.own _ (List.mem_cons_self ..) p hp
      simp only at this
      rw [g3] at this
      have hkk : k = cfg.pcK := by injection this
      subst hkk
      have := key_inj hk key_pc
      subst this
      exact hm v hrv
  have hcells : ∀ r ∈ regProds e.instr, ∀ k, cfg.key r = some k → ∀ p, e.wrat[k]? = some p →
      if lateReg e.instr ≠ some r then CellVal regs' p ((dataStep cfg S e.instr).reg r) else CellBusy regs' p := by
    intro r hr k hk p hp
    split
    · next hl =>
      obtain ⟨v, hv⟩ := sh.cover r hr hl
      rcases sh.sub r v hv with ⟨h1, _⟩ | ⟨h1, _, _⟩
      · exact absurd h1 (regProds_ne_pc hr)
      · rw [dataStep_reg_set hwf hx hv h1]
        exact s4 r v hv k p hk hp
    · next hl =>
      have hb := he.cells r hr k hk p hp
      rw [if_neg (fun h => hne h.1)] at hb
      refine hb.congr (s5 p ?_)
      intro r' v hrv k' hk' hkp
      obtain ⟨k1, p1, g1, g2, g3⟩ := hkey r' v hrv
      rw [hk'] at g1; cases g1
      rw [hkp] at g2; cases g2
      have := he.own _ ((mem_freshKeys hk (regProds_ne_pc hr)).2 hr) p hp
      simp only at this
      rw [g3] at this
      have hkk : k' = k := by injection this
      subst hkk
      have := key_inj hk hk'
      subst this
      rcases sh.sub r v hrv with ⟨h1, _⟩ | ⟨_, _, h1⟩
      · exact regProds_ne_pc hr h1
      · exact hl h1
  have hmem := execMems_sat he hwf hne hx hw hle
  revert hmem
  cases List.foldlM (memAct e.wids) wm (actMems x.acts) with
  | error f => exact fun h => h
  | ok wm' =>
    rintro ⟨m1, m2, m3, m4, m5⟩
    refine ⟨⟨he.instr, ?_, he.own, ?_, ?_, fun _ => ⟨x, hx⟩, ?_, ?_⟩, ⟨rfl, rfl, rfl, rfl⟩, rfl, ⟨s2, s3, ?_, ?_, m2, m3⟩, m4⟩
    · obtain ⟨a1, a2, a3, a4, a5⟩ := he.tab
      exact ⟨a1, a2, a3, a4, a5⟩
    · intro p hp
      rw [if_pos rfl]
      exact hpcs p hp
    · intro r hr k hk p hp
      have := hcells r hr k hk p hp
      split
      · next h => rw [if_pos h.2] at this; exact this
      · next h => rw [if_neg (fun h' => h ⟨rfl, h'⟩)] at this; exact this
    · unfold OpsOK
      rw [if_pos rfl]
      refine ⟨?_, values_get hv x.extra⟩
      rw [hf, Bool.or_false] at ho2
      exact ho2
    · have hs := he.store
      unfold StoreOK at hs ⊢
      cases hsp : storeProd e.instr with
      | none =>
        rw [hsp] at hs
        simp only [hsp]
        exact hs
      | some sp =>
        rw [hsp] at hs
        simp only [hsp]
        rw [if_pos trivial]
        exact ⟨hs.1, hs.2.1, m5 sp hsp⟩
    · intro p hp
      apply s5
      intro r v hrv k hk hkp
      obtain ⟨k1, p1, g1, g2, g3⟩ := hkey r v hrv
      rw [hk] at g1; cases g1
      rw [hkp] at g2; cases g2
      exact hp (by rw [g3])
    · intro j hj
      apply m1
      by_cases h : j = m + 1
      · exact Or.inr fun h' => hj ⟨h, h'⟩
      · exact Or.inl h

/-- One entry in the first loop of `executeAndRetire`. -/
theorem execEntry_sat {prog : List Instr} {regs : Regs} {wm : Writes} {own : Nat → Nat × Nat} {S : State} {m0 m n : Nat} {b : Rat}
    {e : Entry} {fa : Nat} (h : EntryOK cfg ⟨prog, regs, wm, own⟩ S m b n e) (hwf : e.instr.wf cfg = true)
    (hw : WmOK wm m0) (hle : m0 ≤ m) :
    Sat (Cpu.execEntry cfg (regs, wm) fa e) (fun y => EntryOK cfg ⟨prog, y.2.1.1, y.2.1.2, own⟩ S m b n y.1 ∧ SameShape y.1 e ∧ y.1.wids = e.wids ∧
      ExecFrame regs y.2.1.1 wm y.2.1.2 own (· = n) (fun j => j = m + 1 ∧ m + 1 ∈ e.wids) ∧ WmOK y.2.1.2 m0 ∧
      y.2.2 + aluUsers [y.1] = fa + aluUsers [e]) (HostUb cfg prog) := by
  unfold Cpu.execEntry
  cases hst : e.st with
  | preparing => exact ⟨h, ⟨rfl, rfl, rfl, rfl⟩, rfl, .refl, hw, rfl⟩
  | ready => exact ⟨h, ⟨rfl, rfl, rfl, rfl⟩, rfl, .refl, hw, rfl⟩
  | retiring => exact ⟨h, ⟨rfl, rfl, rfl, rfl⟩, rfl, .refl, hw, rfl⟩
  | executing =>
    simp only
    split
    · have hx := execute_sat h hwf hst hw hle (e.rem - 1)
      rw [hst] at hx
      refine Sat.bind hx ?_
      rintro ⟨e', regs', wm'⟩ ⟨h1, h2, h3, h4, h5⟩
      refine ⟨h1, ⟨h2.1, h2.2, h2.3, h2.4⟩, h3, h4, h5, ?_⟩
      simp only [aluUsers_cons, aluUsers_nil]
      split <;> simp_all
    · have hne : e.st ≠ .retiring := by rw [hst]; decide
      refine ⟨h.upd (by simp) (by simp) (by simp) (by simp) (by simp) hne (by simp) ?_, ⟨rfl, rfl, rfl, rfl⟩, rfl, .refl, hw, ?_⟩
      · have ho := h.ops
        unfold OpsOK at ho ⊢
        rw [if_neg hne, hst] at ho
        rw [if_neg (by simp)]
        exact ho
      · simp only [aluUsers_cons, aluUsers_nil, hst]

/-- The first loop of `executeAndRetire`. -/
theorem execLoop_sat {prog : List Instr} {own : Nat → Nat × Nat} {T : State → Nat → Rat → Nat → List Word → Prop} {m0 : Nat}
    (hp : ∀ i ∈ prog, i.wf cfg = true) :
    ∀ (es : List Entry) {regs : Regs} {wm : Writes} {S : State} {m : Nat} {b : Rat} {n : Nat} {ps : List Word} {fa : Nat},
    Win cfg ⟨prog, regs, wm, own⟩ T es S m b n ps → WmOK wm m0 → m0 ≤ m →
    Sat (Cpu.execLoop cfg (regs, wm) fa es) (fun y => Win cfg ⟨prog, y.2.1.1, y.2.1.2, own⟩ T y.1 S m b n ps ∧
      WmOK y.2.1.2 m0 ∧ ExecFrame regs y.2.1.1 wm y.2.1.2 own (n ≤ ·) (m < ·) ∧
      y.2.2 + aluUsers y.1 = fa + aluUsers es ∧ tables y.1 = tables es ∧ y.1.length = es.length) (HostUb cfg prog)
  | [], regs, wm, S, m, b, n, ps, fa, h, hw, hle => ⟨h, hw, .refl, rfl, rfl, rfl⟩
  | e :: es, regs, wm, S, m, b, n, ps, fa, h, hw, hle => by
    have hwf := h.1.wf hp
    have hmx := h.1.le_maxW
    unfold Cpu.execLoop
    refine Sat.bind (execEntry_sat h.1 hwf hw hle) ?_
    · rintro ⟨e', ⟨regs', wm'⟩, fa'⟩ ⟨h1, h2, h3, h4, h5, h6⟩
      obtain ⟨g1, g2, g3, g4⟩ := h2
      have hW : Win cfg ⟨prog, regs', wm', own⟩ T es (specNext cfg S e.instr) e.maxW e.wrat (n + 1) (dropPred e.instr ps) := by
        refine Win.frame (X := ⟨prog, regs, wm, own⟩) (X' := ⟨prog, regs', wm', own⟩) rfl (fun _ _ _ _ _ h => h) h.2.2 ?_ ?_
        · intro e2 he2 k hk p hp'
          refine ⟨h4.cells p ?_, rfl⟩
          have := Win.own_ge h.2.2 e2 he2 k hk p hp'
          simp only at this
          omega
        · intro e2 he2 id hid
          apply h4.recs
          rintro ⟨hid', hw'⟩
          have := Win.wid_gt h.2.2 e2 he2 id hid
          have := (h.1.wid_eq hw').2
          omega
      refine Sat.bind (execLoop_sat hp es (fa := fa') hW h5 (by omega)) ?_
      rintro ⟨es', ⟨regs'', wm''⟩, fa''⟩ ⟨k1, k2, k3, k4, k5, k6⟩
      refine ⟨⟨?_, by rw [g1]; exact h.2.1, by rw [g1, g3, g4]; exact k1⟩, k2, ?_, ?_, ?_, ?_⟩
      · refine EntryOK.frame (X := ⟨prog, regs', wm', own⟩) (X' := ⟨prog, regs'', wm'', own⟩) h1 rfl ?_ ?_
        · intro k hk p hp'
          refine ⟨k3.cells p ?_, rfl⟩
          have := h1.own k hk p hp'
          simp only at this
          rw [this]; simp
        · intro id hid
          apply k3.recs
          rw [h3] at hid
          have := h.1.wid_eq hid
          omega
      · refine ⟨k3.len.trans h4.len, fun p => (k3.subs p).trans (h4.subs p), ?_, ?_, k3.outs.trans h4.outs, k3.cur.trans h4.cur⟩
        · intro p hp'
          rw [k3.cells p (by omega), h4.cells p (by omega)]
        · intro j hj
          have r1 := k3.recs j (by omega)
          have r2 := h4.recs j (by rintro ⟨h, _⟩; omega)
          exact ⟨r1.1.trans r2.1, r1.2.trans r2.2⟩
      · simp only [aluUsers_cons, aluUsers_nil] at h6 k4 ⊢
        omega
      · simp only [tables, List.flatMap_cons] at k5 ⊢
        rw [g2, g3, k5]
      · simp [k6]

end
end T86
