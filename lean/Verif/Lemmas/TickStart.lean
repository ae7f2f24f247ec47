import Verif.Lemmas.ExecStage

/-! The start of a tick: memory latencies and finished writes. -/

set_option linter.unusedSimpArgs false
set_option linter.unusedVariables false

namespace T86
open Isa

section
variable {cfg : Cfg}

theorem outs_unique {q : Writes} {m : Nat} (h : WmOK q m) {x y : Nat × Word × Option Word × Option Nat}
    (hx : x ∈ q.outs) (hy : y ∈ q.outs) (he : x.1 = y.1) : x = y := by
  obtain ⟨w, hw, _, rfl⟩ := outs_mem hx
  obtain ⟨w', hw', _, rfl⟩ := outs_mem hy
  have := Desc.unique h.sorted hw hw' he
  subst this
  rfl

/-- Whether a record survives `removeFinished`. -/
def keeps (ram : Ram) (w : MemWrite) : Bool := match w.ramId with
  | some rid => ram.pending rid
  | none => true

theorem removeFinished_ws (q : Writes) (ram : Ram) : (q.removeFinished ram).ws = q.ws.filter (keeps ram) := rfl

theorem mem_removeFinished_outs {q : Writes} {ram : Ram} {x : Nat × Word × Option Word × Option Nat} :
    x ∈ (q.removeFinished ram).outs ↔ x ∈ q.outs ∧ ∃ rid, x.2.2.2 = some rid ∧ ram.pending rid = true := by
  unfold Writes.outs
  rw [removeFinished_ws, List.mem_map, List.mem_map]
  constructor
  · rintro ⟨w, hw, rfl⟩
    rw [List.mem_filter, List.mem_filter] at hw
    refine ⟨⟨w, List.mem_filter.2 ⟨hw.1.1, hw.2⟩, rfl⟩, ?_⟩
    obtain ⟨⟨_, hk⟩, hs⟩ := hw
    obtain ⟨rid, hr⟩ := Option.isSome_iff_exists.1 hs
    refine ⟨rid, hr, ?_⟩
    unfold keeps at hk
    rw [hr] at hk
    exact hk
  · rintro ⟨⟨w, hw, rfl⟩, rid, hr, hp⟩
    rw [List.mem_filter] at hw
    refine ⟨w, List.mem_filter.2 ⟨List.mem_filter.2 ⟨hw.1, ?_⟩, hw.2⟩, rfl⟩
    simp only at hr
    unfold keeps
    rw [hr]
    exact hp

theorem removeFinished_recOf {q : Writes} {m j : Nat} (h : WmOK q m) (hj : m < j) (ram : Ram) :
    (q.removeFinished ram).recOf j = q.recOf j := by
  unfold Writes.recOf
  rw [removeFinished_ws, List.find?_filter]
  congr 1
  apply find_congr
  intro w hw
  by_cases hid : w.id = j
  · have := (h.new w hw (by omega)).1
    simp [keeps, this, hid]
  · simp [hid]

theorem WmOK.removeFinished {q : Writes} {m : Nat} (h : WmOK q m) (ram : Ram) : WmOK (q.removeFinished ram) m where
  sorted := h.sorted.filter _
  old := fun w hw => h.old w (List.mem_filter.1 hw).1
  new := fun w hw => h.new w (List.mem_filter.1 hw).1
  unspec := h.unspec

theorem tick_writes {r : Ram} {w : WriteEntry} (h : w ∈ r.writes) (hr : w.rem ≠ 0) :
    { w with rem := w.rem - 1 } ∈ r.tick.writes := by
  unfold Ram.tick
  exact List.mem_filterMap.2 ⟨w, h, if_neg hr⟩

theorem tick_writes_inv {r : Ram} {w : WriteEntry} (h : w ∈ r.tick.writes) :
    ∃ w0 ∈ r.writes, w0.addr = w.addr ∧ w0.id = w.id ∧ w0.rem = w.rem + 1 := by
  unfold Ram.tick at h
  obtain ⟨w0, h0, h1⟩ := List.mem_filterMap.1 h
  split at h1
  · cases h1
  · next hne =>
    cases h1
    exact ⟨w0, h0, rfl, rfl, by simp only; omega⟩

theorem tick_reads_inv {r : Ram} {x : ReadEntry} (h : x ∈ r.tick.reads) :
    ∃ x0 ∈ r.reads, x0.addr = x.addr ∧ x0.value = x.value ∧ x0.rem = x.rem + 1 := by
  unfold Ram.tick at h
  obtain ⟨w0, h0, h1⟩ := List.mem_filterMap.1 h
  split at h1
  · cases h1
  · next hne =>
    cases h1
    exact ⟨w0, h0, rfl, rfl, by simp only; omega⟩

theorem RamOK.tick {ram : Ram} {q : Writes} {m : Nat} {mem : Word → Option Word} (hw : WmOK q m)
    (h : RamOK cfg ram q.outs mem) : RamOK cfg ram.tick (q.removeFinished ram.tick).outs mem := by
  have hsub : ∀ x ∈ (q.removeFinished ram.tick).outs, x ∈ q.outs := fun x hx => (mem_removeFinished_outs.1 hx).1
  refine ⟨h.size, h.memEq, ?_, ?_, ?_, ?_, ?_⟩
  · intro x hx
    obtain ⟨x0, h0, ha, hv, hr⟩ := tick_reads_inv hx
    obtain ⟨h1, h2⟩ := h.reads x0 h0
    refine ⟨by omega, ?_⟩
    rcases h2 with h2 | ⟨w, hw', hwa, hwr⟩
    · exact Or.inl (by rw [← ha, ← hv]; exact h2)
    · exact Or.inr ⟨_, tick_writes hw' (by omega), by simp only; rw [hwa, ha], by simp only; omega⟩
  · intro we hwe
    obtain ⟨w0, h0, ha, hi, hr⟩ := tick_writes_inv hwe
    obtain ⟨w, h1, h2, h3, h4⟩ := h.writes w0 h0
    refine ⟨w, mem_removeFinished_outs.2 ⟨h1, we.id, by rw [h2, hi], ?_⟩, by rw [h2, hi], by rw [h3, ha], ?_⟩
    · exact List.any_eq_true.2 ⟨we, hwe, by simp⟩
    · exact fun w' hw' => h4 w' (hsub w' hw')
  · exact fun w hw' => h.outRid w (hsub w hw')
  · intro w hwo hn
    obtain ⟨h1, rid, h2, h3⟩ := mem_removeFinished_outs.1 hwo
    obtain ⟨we, hwe, he⟩ := List.any_eq_true.1 h3
    simp at he
    obtain ⟨w0, h0, ha, hi, hr⟩ := tick_writes_inv hwe
    obtain ⟨w1, k1, k2, k3, k4⟩ := h.writes w0 h0
    have : w1 = w := outs_unique hw k1 h1 (h.inj w1 k1 w h1 (by rw [k2, h2, hi, he]))
    subst this
    exact h.newest w1 k1 k4
  · exact fun w hw1 w' hw2 => h.inj w (hsub w hw1) w' (hsub w' hw2)

/-- The first part of a tick keeps the invariant. -/
theorem Inv0.tickStart {c : Cpu} {S : State} {extra : List Nat} {own : Nat → Nat × Nat} {n m : Nat} {b : Rat}
    (h : Inv0 cfg c S extra own n m b) :
    Inv0 cfg { c with intr := 0, ram := c.ram.tick, wm := c.wm.removeFinished c.ram.tick } S extra own n m b where
  wf := h.wf
  win := by
    refine Win.frame (X := ⟨c.prog, c.regs, c.wm, own⟩) (X' := ⟨c.prog, c.regs, c.wm.removeFinished c.ram.tick, own⟩)
      rfl ?_ h.win ?_ ?_
    · exact fun _ _ _ _ _ hT => hT
    · exact fun _ _ _ _ _ _ => ⟨rfl, rfl⟩
    · exact fun e he id hid => ⟨removeFinished_recOf h.wm (Win.wid_gt h.win e he id hid) _, Iff.rfl⟩
  base := h.base
  pc := h.pc
  subs := h.subs
  wm := h.wm.removeFinished _
  ram := h.ram.tick h.wm
  out := h.out
  inp := h.inp
  halted := h.halted
  alus := h.alus
  cap := h.cap

/-- The execution stage keeps the invariant. -/
theorem Inv0.exec {c : Cpu} {S : State} {extra : List Nat} {own : Nat → Nat × Nat} {n m : Nat} {b : Rat}
    (h : Inv0 cfg c S extra own n m b) :
    Sat (Cpu.execLoop cfg (c.regs, c.wm) c.freeAlus c.entries)
      (fun x => Inv0 cfg { c with entries := x.1, regs := x.2.1.1, wm := x.2.1.2, freeAlus := x.2.2 } S extra own n m b ∧
        x.1.length = c.entries.length)
      (HostUb cfg c.prog) := by
  refine ((execLoop_sat h.wf c.entries (fa := c.freeAlus) h.win h.wm (Nat.le_refl _)).with_eq).imp ?_
  rintro ⟨es, ⟨regs, wm⟩, fa⟩ ⟨heq, h1, h2, h3, h4, h5, h6⟩
  simp only at h1 h2 h3 h4 h5 h6 heq ⊢
  have hc := h3.cur
  refine ⟨⟨h.wf, ?_, ?_, ?_, ?_, h2, ?_, h.out, h.inp, h.halted, ?_, ?_⟩, h6⟩
  · refine Win.frame (X := ⟨c.prog, regs, wm, own⟩) (X' := ⟨c.prog, regs, wm, own⟩)
      rfl ?_ h1 (fun _ _ _ _ _ _ => ⟨rfl, rfl⟩) (fun _ _ _ _ => ⟨rfl, Iff.rfl⟩)
    rintro S' m' b' n' ps' ⟨t1, t2, t3⟩
    exact ⟨by simp only at hc ⊢; rw [hc]; exact t1, t2, t3⟩
  · refine ⟨h.base.len, fun r k hk hr => ?_⟩
    obtain ⟨p, h1, h2, h4, h5⟩ := h.base.cells r k hk hr
    exact ⟨p, h1, h2, h4, h5.congr (h3.cells p (by omega))⟩
  · intro hes
    have hes : es = [] := hes
    have : c.entries = [] := by
      cases hc : c.entries with
      | nil => rfl
      | cons a l => rw [hes, hc] at h6; simp at h6
    rw [this] at heq
    unfold Cpu.execLoop at heq
    cases heq
    exact h.pc this
  · refine ⟨h3.len.trans h.subs.len, ?_, ?_⟩
    · intro p x hx
      have hv := h3.subs p
      unfold subsView at hv
      simp only at hx
      rw [hx] at hv
      cases hr : c.regs[p]? with
      | none => rw [hr] at hv; cases hv
      | some y =>
        rw [hr] at hv
        simp at hv
        rw [hv, h.subs.subs p y hr]
        simp only [h5]
    · simp only [h5]; exact h.subs.bound
  · simp only [h3.outs]; exact h.ram
  · simp only [h4]; exact h.alus
  · simp only [h6]; exact h.cap

end
end T86
