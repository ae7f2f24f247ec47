import Verif.Lemmas.Hazard

/-! Undefined behaviour of the execution stage. -/

set_option linter.unusedSimpArgs false
set_option linter.unusedVariables false

namespace T86
open Isa

section
variable {cfg : Cfg}

/-- The references to the records of instructions in flight are good, unless `H` holds. -/
def Writes.Good (H : Prop) (q : Writes) : Prop := ∀ w ∈ q.ws, w.ramId = none → w.refValid = false → H

/-- The records of instructions in flight have the addresses `P` allows. -/
def Writes.At (P : Nat → Word → Prop) (q : Writes) : Prop := ∀ w ∈ q.ws, w.ramId = none → P w.id w.addr

/-- Two writes to one address are only possible if `H` holds. -/
def Apart (H : Prop) (P : Nat → Word → Prop) : Prop := ∀ id id' a, id ≠ id' → P id a → P id' a → H

/-- Defined behaviour. -/
def NoUb {α : Type} (x : Res α) : Prop := Sat x (fun _ => True) (· ≠ .ub)

theorem good_add {H : Prop} {P : Nat → Word → Prop} {q : Writes} {id : Nat} {a : Word} (hc : Apart H P) (hg : q.Good H)
    (ha : q.At P) (hi : ∀ w ∈ q.ws, w.id ≠ id) (hp : P id a) : (q.add id a).Good H ∧ (q.add id a).At P := by
  constructor
  · intro w hw hr hv
    rw [Writes.add_ws, mem_insertDesc] at hw
    rcases hw with rfl | hw
    · cases hv
    · obtain ⟨w', hw', rfl⟩ := List.mem_map.1 hw
      rw [Writes.inval_ramId] at hr
      unfold Writes.inval at hv
      split at hv
      · next he => exact hc w'.id id a (hi w' hw') (he ▸ ha w' hw' hr) hp
      · exact hg w' hw' hr hv
  · intro w hw hr
    rw [Writes.add_ws, mem_insertDesc] at hw
    rcases hw with rfl | hw
    · exact hp
    · obtain ⟨w', hw', rfl⟩ := List.mem_map.1 hw
      rw [Writes.inval_ramId] at hr
      rw [Writes.inval_id, Writes.inval_addr]
      exact ha w' hw' hr

theorem good_modify {H : Prop} {q : Writes} {id : Nat} {f : MemWrite → MemWrite} (hg : q.Good H)
    (hr : ∀ w, (f w).ramId = none → w.ramId = none) (hv : ∀ w, (f w).refValid = w.refValid) : (q.modify id f).Good H := by
  intro w hw h1 h2
  obtain ⟨w', hw', rfl⟩ := List.mem_map.1 hw
  split at h1
  · next he => rw [if_pos he, hv] at h2; exact hg w' hw' (hr w' h1) h2
  · next he => rw [if_neg he] at h2; exact hg w' hw' h1 h2

theorem at_modify {P : Nat → Word → Prop} {q : Writes} {id : Nat} {f : MemWrite → MemWrite} (hg : q.At P)
    (hr : ∀ w, (f w).ramId = none → w.ramId = none) (ha : ∀ w, (f w).addr = w.addr ∧ (f w).id = w.id) : (q.modify id f).At P := by
  intro w hw h1
  obtain ⟨w', hw', rfl⟩ := List.mem_map.1 hw
  split at h1
  · next he => rw [if_pos he, (ha w').1, (ha w').2]; exact hg w' hw' (hr w' h1)
  · next he => rw [if_neg he]; exact hg w' hw' h1

/-- A reference to the record of an instruction in flight. -/
theorem getWrite_good {H : Prop} {q : Writes} {id : Nat} {a : Word} {v : Option Word} (hg : q.Good H)
    (hr : q.recOf id = some (a, v, none)) : Sat (q.getWrite id) (fun _ => True) (fun f => f = .ub → H) := by
  obtain ⟨w, hw, h1, h2, h3, h4, hf⟩ := Writes.recOf_some hr
  unfold Writes.getWrite
  rw [hf]
  dsimp only
  split
  · trivial
  · next h => exact fun _ => hg w hw h4 (by simpa using h)

theorem setValue_good {H : Prop} {P : Nat → Word → Prop} {q : Writes} {id : Nat} {a v : Word} {x : Option Word} (hg : q.Good H)
    (ha : q.At P) (hr : q.recOf id = some (a, x, none)) :
    Sat (q.setValue id v) (fun q' => q'.Good H ∧ q'.At P) (fun f => f = .ub → H) := by
  unfold Writes.setValue
  refine Sat.bind (getWrite_good hg hr) fun w _ => ?_
  split
  · exact fun h => by cases h
  · exact ⟨good_modify hg (fun _ h => h) (fun _ => rfl), at_modify ha (fun _ h => h) (fun _ => ⟨rfl, rfl⟩)⟩

/-- The memory part of the calls of `execute`. -/
theorem execMems_good {H : Prop} {P : Nat → Word → Prop} {prog : List Instr} {regs : Regs} {wm : Writes} {own : Nat → Nat × Nat}
    {S : State} {m0 m n : Nat} {b : Rat} {e : Entry} {x : ExecOut} (hc : Apart H P)
    (he : EntryOK cfg ⟨prog, regs, wm, own⟩ S m b n e) (hwf : e.instr.wf cfg = true) (hst : e.st ≠ .retiring)
    (hx : e.instr.exec cfg (valsOf S e.instr) = .ok x) (hw : WmOK wm m0) (hg : wm.Good H) (ha : wm.At P)
    (hp : ∀ id ∈ e.wids, ∀ a, writeAddr S e.instr = some a → P id a) :
    Sat ((actMems x.acts).foldlM (memAct e.wids) wm) (fun q => q.Good H ∧ q.At P) (fun f => f = .ub → H) := by
  have hs := he.store
  unfold StoreOK at hs
  split at hs
  · next hsp =>
    have hm := (exec_shape hwf hx).mem
    rw [hsp] at hm
    simp only at hm
    rw [hm]
    exact ⟨hg, ha⟩
  · next sp hsp =>
    rw [if_neg hst] at hs
    obtain ⟨h1, h2, h3⟩ := hs
    have hmem : m + 1 ∈ e.wids := by rw [h1]; exact List.mem_cons_self ..
    cases sp with
    | some a =>
      obtain ⟨v, hv, hso⟩ := storeOf_static hwf hsp hx
      rw [hv, List.foldlM_cons, h1]
      simp only [memAct]
      refine Sat.bind (setValue_good hg ha h3.2) ?_
      intro q hq
      exact hq
    | none =>
      obtain ⟨a, v, hv, hso⟩ := storeOf_dynamic hwf hsp hx
      rw [hv, List.foldlM_cons, h1]
      simp only [memAct]
      have hpa := hp _ hmem a (storeOf_writeAddr hwf hso)
      have hsa : wm.specifyAddress (m + 1) a = .ok ({ wm with unspec := wm.unspec.filter (· != m + 1) }.add (m + 1) a) :=
        if_pos h3.1
      obtain ⟨q0, k0, k1, k2, k3, k4, k5⟩ := Writes.specifyAddress_ok (a := a) hw h3.1 h3.2
      obtain ⟨g1, g2⟩ := good_add (q := { wm with unspec := wm.unspec.filter (· != m + 1) }) hc hg ha (Writes.recOf_none h3.2) hpa
      rw [hsa] at k0
      cases k0
      rw [hsa, ok_bind, List.foldlM_cons]
      simp only [memAct]
      refine Sat.bind (setValue_good (v := v) (a := a) g1 g2 (by rw [k4, if_pos rfl])) ?_
      intro q hq
      exact hq

theorem NoUb.bind {α β : Type} {x : Res α} {f : α → Res β} (h : NoUb x) (k : ∀ a, NoUb (f a)) : NoUb (x >>= f) :=
  Sat.bind h fun a _ => k a

theorem NoUb.ne {α : Type} {x : Res α} (h : NoUb x) : x ≠ .error .ub := by
  rintro rfl
  exact h rfl

theorem NoUb.good {α : Type} {x : Res α} {H : Prop} (h : NoUb x) : Sat x (fun _ => True) (fun f => f = .ub → H) :=
  h.mono (fun _ h => h) fun f hf he => absurd he hf

theorem translate_noub {t : Rat} {r : LReg} : NoUb (t.translate cfg r) := by
  unfold Rat.translate
  split
  · exact fun h => by cases h
  · split
    · exact fun h => by cases h
    · trivial

theorem get_noub {regs : Regs} {p : Nat} : NoUb (regs.get p) := by
  unfold Regs.get
  split
  · trivial
  · exact fun h => by cases h

theorem write_noub {regs : Regs} {p : Nat} {v : Word} : NoUb (regs.write p v) := by
  unfold Regs.write
  exact get_noub.bind fun _ => trivial

theorem setReg_noub {t : Rat} {regs : Regs} {r : LReg} {v : Word} : NoUb (Cpu.setReg cfg t regs r v) := by
  unfold Cpu.setReg
  refine translate_noub.bind fun p => get_noub.bind fun x => ?_
  split
  · exact write_noub
  · split
    · exact fun h => by cases h
    · exact write_noub
  · exact write_noub

/-- The memory part determines undefined behaviour and the queue. -/
theorem acts_mems {wrat : Rat} {wids : List Nat} {H : Prop} {Q : Writes → Prop} : ∀ (acts : List Act) (regs : Regs) (wm : Writes),
    Sat ((actMems acts).foldlM (memAct wids) wm) Q (fun f => f = .ub → H) →
    Sat (acts.foldlM (Cpu.applyAct cfg wrat wids) (regs, wm)) (fun y => Q y.2) (fun f => f = .ub → H)
  | [], regs, wm, h => h
  | .set r v :: acts, regs, wm, h => by
    rw [List.foldlM_cons]
    cases hs : Cpu.setReg cfg wrat regs r v with
    | error f =>
      have : Cpu.applyAct cfg wrat wids (regs, wm) (.set r v) = .error f := by
        unfold Cpu.applyAct; dsimp only; rw [hs]; rfl
      rw [this]
      rintro rfl
      exact absurd hs setReg_noub.ne
    | ok r1 =>
      have : Cpu.applyAct cfg wrat wids (regs, wm) (.set r v) = .ok (r1, wm) := by
        unfold Cpu.applyAct; dsimp only; rw [hs]; rfl
      rw [this]
      exact acts_mems acts r1 wm h
  | .specifyAddress a :: acts, regs, wm, h => by
    have hm : actMems (.specifyAddress a :: acts) = .specifyAddress a :: actMems acts := rfl
    rw [hm, List.foldlM_cons] at h
    rw [List.foldlM_cons]
    have he : Cpu.applyAct cfg wrat wids (regs, wm) (.specifyAddress a) =
        (memAct wids wm (.specifyAddress a) >>= fun q => (.ok (regs, q) : Res (Regs × Writes))) := by
      unfold Cpu.applyAct memAct
      rcases wids with _ | ⟨id, _ | ⟨_, _⟩⟩ <;> rfl
    rw [he]
    revert h
    cases memAct wids wm (.specifyAddress a) with
    | error f => exact fun h => h
    | ok q => exact fun h => acts_mems acts regs q h
  | .setValue v :: acts, regs, wm, h => by
    have hm : actMems (.setValue v :: acts) = .setValue v :: actMems acts := rfl
    rw [hm, List.foldlM_cons] at h
    rw [List.foldlM_cons]
    have he : Cpu.applyAct cfg wrat wids (regs, wm) (.setValue v) =
        (memAct wids wm (.setValue v) >>= fun q => (.ok (regs, q) : Res (Regs × Writes))) := by
      unfold Cpu.applyAct memAct
      rcases wids with _ | ⟨id, _ | ⟨_, _⟩⟩ <;> rfl
    rw [he]
    revert h
    cases memAct wids wm (.setValue v) with
    | error f => exact fun h => h
    | ok q => exact fun h => acts_mems acts regs q h

/-- What the window must satisfy. -/
def Harmless (cfg : Cfg) (H : Prop) (P : Nat → Word → Prop) : List Entry → State → Prop
  | [], _ => True
  | e :: es, S => ((∀ id ∈ e.wids, ∀ a, writeAddr S e.instr = some a → P id a) ∧
      (e.instr.exec cfg (valsOf S e.instr) = .error .ub → H)) ∧ Harmless cfg H P es (specNext cfg S e.instr)

theorem execute_good {H : Prop} {P : Nat → Word → Prop} {prog : List Instr} {regs : Regs} {wm : Writes} {own : Nat → Nat × Nat}
    {S : State} {m0 m n : Nat} {b : Rat} {e : Entry} (hc : Apart H P) (he : EntryOK cfg ⟨prog, regs, wm, own⟩ S m b n e)
    (hwf : e.instr.wf cfg = true) (hst : e.st = .executing) (hw : WmOK wm m0) (rm : Nat) (hg : wm.Good H) (ha : wm.At P)
    (hp : ∀ id ∈ e.wids, ∀ a, writeAddr S e.instr = some a → P id a)
    (hu : e.instr.exec cfg (valsOf S e.instr) = .error .ub → H) :
    Sat (Cpu.execute cfg (regs, wm) { e with rem := rm }) (fun y => y.2.2.Good H ∧ y.2.2.At P) (fun f => f = .ub → H) := by
  have hne : e.st ≠ .retiring := by rw [hst]; decide
  have hops := he.ops
  unfold OpsOK at hops
  rw [if_neg hne] at hops
  obtain ⟨ho1, ho2, ho3⟩ := hops
  obtain ⟨hv, hf⟩ := values_eq ho1 (ho3 (by rw [hst]; decide))
  unfold Cpu.execute
  simp only [hv]
  change Sat (e.instr.exec cfg (valsOf S e.instr) >>= _) _ _
  cases hx : e.instr.exec cfg (valsOf S e.instr) with
  | error f => rintro rfl; exact hu hx
  | ok x =>
    rw [ok_bind]
    refine Sat.bind (acts_mems (Q := fun q => q.Good H ∧ q.At P) x.acts regs wm (execMems_good hc he hwf hne hx hw hg ha hp)) ?_
    intro y hy
    exact hy

/-- The first loop of `executeAndRetire`. -/
theorem execLoop_good {H : Prop} {P : Nat → Word → Prop} {prog : List Instr} {own : Nat → Nat × Nat}
    {T : State → Nat → Rat → Nat → List Word → Prop} {m0 : Nat} (hc : Apart H P) (hp : ∀ i ∈ prog, i.wf cfg = true) :
    ∀ (es : List Entry) {regs : Regs} {wm : Writes} {S : State} {m : Nat} {b : Rat} {n : Nat} {ps : List Word} {fa : Nat},
    Win cfg ⟨prog, regs, wm, own⟩ T es S m b n ps → WmOK wm m0 → m0 ≤ m → wm.Good H → wm.At P → Harmless cfg H P es S →
    Sat (Cpu.execLoop cfg (regs, wm) fa es) (fun y => y.2.1.2.Good H) (fun f => f = .ub → H)
  | [], regs, wm, S, m, b, n, ps, fa, h, hw, hle, hg, ha, hs => hg
  | e :: es, regs, wm, S, m, b, n, ps, fa, h, hw, hle, hg, ha, hs => by
    have hwf := h.1.wf hp
    have hmx := h.1.le_maxW
    unfold Cpu.execLoop
    have one := execEntry_sat (fa := fa) h.1 hwf hw hle
    have good : Sat (Cpu.execEntry cfg (regs, wm) fa e) (fun y => y.2.1.2.Good H ∧ y.2.1.2.At P) (fun f => f = .ub → H) := by
      unfold Cpu.execEntry
      cases hst : e.st with
      | preparing => exact ⟨hg, ha⟩
      | ready => exact ⟨hg, ha⟩
      | retiring => exact ⟨hg, ha⟩
      | executing =>
        simp only
        split
        · have hx := execute_good hc h.1 hwf hst hw (e.rem - 1) hg ha hs.1.1 hs.1.2
          rw [hst] at hx
          refine Sat.bind hx ?_
          intro y hy
          exact hy
        · exact ⟨hg, ha⟩
    cases hx : Cpu.execEntry cfg (regs, wm) fa e with
    | error f => rw [hx] at good; exact good
    | ok y =>
      obtain ⟨e', ⟨regs', wm'⟩, fa'⟩ := y
      rw [hx] at good one
      rw [ok_bind]
      obtain ⟨h1, h2, h3, h4, h5, h6⟩ := one
      have hW : Win cfg ⟨prog, regs', wm', own⟩ T es (specNext cfg S e.instr) e.maxW e.wrat (n + 1) (dropPred e.instr ps) := by
        refine Win.frame (X := ⟨prog, regs, wm, own⟩) (X' := ⟨prog, regs', wm', own⟩) rfl (fun _ _ _ _ _ h => h) h.2.2 ?_ ?_
        · intro e2 he2 k hk p hp'
          refine ⟨h4.cells p ?_, rfl⟩
          have := Win.own_ge h.2.2 e2 he2 k hk p hp'
          simp only at this
          omega
        · intro e2 he2 id hid
          apply h4.recs
          rintro ⟨hid', hw'⟩
          have := Win.wid_gt h.2.2 e2 he2 id hid
          have := (h.1.wid_eq hw').2
          omega
      refine Sat.bind (execLoop_good hc hp es (fa := fa') hW h5 (by omega) good.1 good.2 hs.2) ?_
      intro y hy
      exact hy

end
end T86
