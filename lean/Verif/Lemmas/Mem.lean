import Verif.Lemmas.Window

/-! The queue of memory writes and the RAM. -/

set_option linter.unusedSimpArgs false
set_option linter.unusedVariables false

namespace T86
open Isa

/-! ## Lists of records sorted by descending id -/

abbrev Desc (l : List MemWrite) : Prop := l.Pairwise fun x y => x.id > y.id

theorem Desc.unique {l : List MemWrite} (h : Desc l) {x y : MemWrite} (hx : x ∈ l) (hy : y ∈ l) (he : x.id = y.id) :
    x = y := by
  induction l with
  | nil => cases hx
  | cons a l ih =>
    rw [Desc, List.pairwise_cons] at h
    rcases List.mem_cons.1 hx with hx1 | hx1 <;> rcases List.mem_cons.1 hy with hy1 | hy1
    · rw [hx1, hy1]
    · have := h.1 y hy1; subst hx1; omega
    · have := h.1 x hx1; subst hy1; omega
    · exact ih h.2 hx1 hy1

theorem Desc.find_some {l : List MemWrite} (h : Desc l) {p : MemWrite → Bool} {w : MemWrite} (hf : l.find? p = some w) :
    w ∈ l ∧ p w = true ∧ ∀ w' ∈ l, p w' = true → w'.id ≤ w.id := by
  induction l with
  | nil => simp at hf
  | cons a l ih =>
    rw [Desc, List.pairwise_cons] at h
    rw [List.find?_cons] at hf
    split at hf
    · next ha =>
      cases hf
      refine ⟨List.mem_cons_self .., ha, fun w' hw' hp => ?_⟩
      rcases List.mem_cons.1 hw' with rfl | hw'
      · exact Nat.le_refl _
      · have := h.1 w' hw'; omega
    · next ha =>
      obtain ⟨h1, h2, h3⟩ := ih h.2 hf
      refine ⟨List.mem_cons_of_mem _ h1, h2, fun w' hw' hp => ?_⟩
      rcases List.mem_cons.1 hw' with rfl | hw'
      · rw [ha] at hp; cases hp
      · exact h3 w' hw' hp

theorem find_congr {l : List MemWrite} {p q : MemWrite → Bool} (h : ∀ w ∈ l, p w = q w) : l.find? p = l.find? q := by
  induction l with
  | nil => rfl
  | cons a l ih =>
    rw [List.find?_cons, List.find?_cons, h a (List.mem_cons_self ..), ih fun w hw => h w (List.mem_cons_of_mem _ hw)]

theorem mem_insertDesc {w x : MemWrite} {l : List MemWrite} : x ∈ insertDesc w l ↔ x = w ∨ x ∈ l := by
  induction l with
  | nil => simp [insertDesc]
  | cons a l ih =>
    unfold insertDesc
    split
    · rw [List.mem_cons, ih, List.mem_cons]; tauto
    · rw [List.mem_cons]

theorem desc_insertDesc {w : MemWrite} {l : List MemWrite} (h : Desc l) (hw : ∀ x ∈ l, x.id ≠ w.id) :
    Desc (insertDesc w l) := by
  induction l with
  | nil => simp [insertDesc, Desc]
  | cons a l ih =>
    rw [Desc, List.pairwise_cons] at h
    unfold insertDesc
    split
    · next hlt =>
      rw [Desc, List.pairwise_cons]
      refine ⟨fun x hx => ?_, ih h.2 fun x hx => hw x (List.mem_cons_of_mem _ hx)⟩
      rcases mem_insertDesc.1 hx with rfl | hx
      · exact hlt
      · exact h.1 x hx
    · next hlt =>
      have ha := hw a (List.mem_cons_self ..)
      rw [Desc, List.pairwise_cons, List.pairwise_cons]
      refine ⟨fun x hx => ?_, h⟩
      rcases List.mem_cons.1 hx with rfl | hx
      · omega
      · have := h.1 x hx; omega

theorem find_insertDesc {w : MemWrite} {l : List MemWrite} (j : Nat) (hw : ∀ x ∈ l, x.id ≠ w.id) :
    (insertDesc w l).find? (·.id == j) = if w.id = j then some w else l.find? (·.id == j) := by
  induction l with
  | nil => simp [insertDesc, List.find?_cons]; split <;> simp_all
  | cons a l ih =>
    have ha := hw a (List.mem_cons_self ..)
    unfold insertDesc
    split
    · rw [List.find?_cons, ih fun x hx => hw x (List.mem_cons_of_mem _ hx), List.find?_cons]
      split
      · next hj => rw [if_neg]; simp at hj; omega
      · rfl
    · rw [List.find?_cons]
      split
      · next hj => rw [if_pos (by simpa using hj)]
      · next hj => rw [if_neg (by simpa using hj)]

theorem filter_insertDesc {w : MemWrite} {l : List MemWrite} {p : MemWrite → Bool} (hp : p w = false) :
    (insertDesc w l).filter p = l.filter p := by
  induction l with
  | nil => simp [insertDesc, hp]
  | cons a l ih =>
    unfold insertDesc
    split
    · rw [List.filter_cons, List.filter_cons, ih]
    · rw [List.filter_cons, hp]; simp

/-! ## The queue -/

namespace Writes

theorem recOf_some {q : Writes} {id : Nat} {a v r} (h : q.recOf id = some (a, v, r)) :
    ∃ w ∈ q.ws, w.id = id ∧ w.addr = a ∧ w.value = v ∧ w.ramId = r ∧ q.ws.find? (·.id == id) = some w := by
  unfold recOf at h
  cases hf : q.ws.find? (·.id == id) with
  | none => simp [hf] at h
  | some w =>
    simp [hf] at h
    refine ⟨w, List.mem_of_find?_eq_some hf, ?_, h.1, h.2.1, h.2.2, rfl⟩
    have := List.find?_some hf
    simpa using this

theorem recOf_none {q : Writes} {id : Nat} (h : q.recOf id = none) : ∀ w ∈ q.ws, w.id ≠ id := by
  unfold recOf at h
  simp at h
  exact h

/-- The references of the records do not matter. -/
theorem find_map {l : List MemWrite} {f : MemWrite → MemWrite} (hf : ∀ w, (f w).id = w.id) (j : Nat) :
    (l.map f).find? (·.id == j) = (l.find? (·.id == j)).map f := by
  induction l with
  | nil => rfl
  | cons a l ih =>
    rw [List.map_cons, List.find?_cons, List.find?_cons, hf]
    split
    · rfl
    · exact ih

/-- Invalidating references. -/
def inval (a : Word) (w : MemWrite) : MemWrite := if w.addr = a then { w with refValid := false } else w

theorem inval_id (a : Word) (w : MemWrite) : (inval a w).id = w.id := by unfold inval; split <;> rfl
theorem inval_addr (a : Word) (w : MemWrite) : (inval a w).addr = w.addr := by unfold inval; split <;> rfl
theorem inval_value (a : Word) (w : MemWrite) : (inval a w).value = w.value := by unfold inval; split <;> rfl
theorem inval_ramId (a : Word) (w : MemWrite) : (inval a w).ramId = w.ramId := by unfold inval; split <;> rfl

theorem add_ws (q : Writes) (id : Nat) (a : Word) :
    (q.add id a).ws = insertDesc ⟨id, a, none, none, true⟩ (q.ws.map (inval a)) := rfl

theorem add_outs (q : Writes) (id : Nat) (a : Word) : (q.add id a).outs = q.outs := by
  unfold outs
  rw [add_ws, filter_insertDesc rfl, List.filter_map, List.map_map]
  have : ((fun x => x.ramId.isSome) ∘ inval a) = fun x : MemWrite => x.ramId.isSome := by
    funext w; simp [inval_ramId]
  rw [this]
  congr 1
  funext w
  simp [inval_id, inval_addr, inval_value, inval_ramId]

theorem add_recOf (q : Writes) {id : Nat} (a : Word) (h : q.recOf id = none) (j : Nat) :
    (q.add id a).recOf j = if j = id then some (a, none, none) else q.recOf j := by
  unfold recOf
  rw [add_ws, find_insertDesc j, find_map (inval_id a)]
  · simp only
    by_cases hj : id = j
    · rw [if_pos hj, if_pos hj.symm]; rfl
    · rw [if_neg hj, if_neg (Ne.symm hj), Option.map_map]
      congr 1
      funext w
      simp [inval_id, inval_addr, inval_value, inval_ramId]
  · intro x hx
    obtain ⟨w, hw, rfl⟩ := List.mem_map.1 hx
    rw [inval_id]
    exact recOf_none h w hw

theorem add_desc (q : Writes) {id : Nat} (a : Word) (hd : Desc q.ws) (h : q.recOf id = none) : Desc (q.add id a).ws := by
  rw [add_ws]
  apply desc_insertDesc
  · unfold Desc; rw [List.pairwise_map]
    simpa [inval_id] using hd
  · intro x hx
    obtain ⟨w, hw, rfl⟩ := List.mem_map.1 hx
    rw [inval_id]
    exact recOf_none h w hw

theorem mem_add (q : Writes) {id : Nat} {a : Word} {w : MemWrite} (h : w ∈ (q.add id a).ws) :
    (w.id = id ∧ w.ramId = none) ∨ ∃ w' ∈ q.ws, w'.id = w.id ∧ w'.ramId = w.ramId := by
  rw [add_ws, mem_insertDesc] at h
  rcases h with rfl | h
  · exact Or.inl ⟨rfl, rfl⟩
  · obtain ⟨w', hw', rfl⟩ := List.mem_map.1 h
    exact Or.inr ⟨w', hw', (inval_id ..).symm, (inval_ramId ..).symm⟩

/-- Specifying the address of a registered write. -/
theorem specifyAddress_ok {q : Writes} {id m : Nat} {a : Word} (hm : WmOK q m) (hu : id ∈ q.unspec)
    (hr : q.recOf id = none) :
    ∃ q', q.specifyAddress id a = .ok q' ∧ WmOK q' m ∧ q'.outs = q.outs ∧ q'.cur = q.cur ∧
      (∀ j, q'.recOf j = if j = id then some (a, none, none) else q.recOf j) ∧
      (∀ j, j ∈ q'.unspec ↔ j ∈ q.unspec ∧ j ≠ id) := by
  refine ⟨_, if_pos hu, ?_, ?_, rfl, ?_, ?_⟩
  · refine ⟨add_desc _ a hm.sorted hr, ?_, ?_, ?_⟩
    · intro w hw hle
      rcases mem_add _ hw with ⟨h1, h2⟩ | ⟨w', h1, h2, h3⟩
      · have := (hm.unspec id hu).1; omega
      · rw [← h3]; exact hm.old w' h1 (by omega)
    · intro w hw hlt
      rcases mem_add _ hw with ⟨h1, h2⟩ | ⟨w', h1, h2, h3⟩
      · refine ⟨h2, ?_⟩; rw [h1]; exact (hm.unspec id hu).2
      · rw [← h3, ← h2]; exact hm.new w' h1 (by omega)
    · intro u hu'
      exact hm.unspec u (List.mem_filter.1 hu').1
  · rw [add_outs]; rfl
  · exact fun j => add_recOf _ a hr j
  · intro j
    change j ∈ q.unspec.filter _ ↔ _
    simp

theorem modify_outs {q : Writes} {id : Nat} {f : MemWrite → MemWrite} (hf : ∀ w, (f w).ramId = w.ramId)
    (h : ∀ w ∈ q.ws, w.id = id → w.ramId = none) : (q.modify id f).outs = q.outs := by
  unfold outs modify
  simp only
  generalize q.ws = l at h
  induction l with
  | nil => rfl
  | cons a l ih =>
    rw [List.map_cons]
    have ih := ih fun w hw => h w (List.mem_cons_of_mem _ hw)
    split
    · next hid =>
      have ha := h a (List.mem_cons_self ..) hid
      rw [List.filter_cons, List.filter_cons]
      rw [if_neg (by simp [hf, ha]), if_neg (by simp [ha])]
      exact ih
    · rw [List.filter_cons, List.filter_cons]
      split
      · rw [List.map_cons, List.map_cons, ih]
      · exact ih

theorem modify_recOf {q : Writes} {id : Nat} {f : MemWrite → MemWrite} (hf : ∀ w, (f w).id = w.id) (j : Nat) :
    (q.modify id f).recOf j = if j = id then (q.ws.find? (·.id == id)).map fun w => ((f w).addr, (f w).value, (f w).ramId)
      else q.recOf j := by
  unfold recOf modify
  simp only
  rw [find_map (f := fun w => if w.id = id then f w else w) (by intro w; split <;> simp [hf])]
  by_cases hj : j = id
  · subst hj
    rw [if_pos rfl]
    cases hc : q.ws.find? (·.id == j) with
    | none => rfl
    | some w =>
      have := List.find?_some hc
      simp at this
      simp [this]
  · rw [if_neg hj]
    cases hc : q.ws.find? (·.id == j) with
    | none => rfl
    | some w =>
      have := List.find?_some hc
      simp at this
      simp [this, hj]

/-- Giving a write its value. -/
theorem setValue_sat {q : Writes} {id m : Nat} {a v : Word} (hm : WmOK q m)
    (hr : q.recOf id = some (a, none, none)) :
    Sat (q.setValue id v) (fun q' => WmOK q' m ∧ q'.outs = q.outs ∧ q'.cur = q.cur ∧
      (∀ j, q'.recOf j = if j = id then some (a, some v, none) else q.recOf j) ∧ q'.unspec = q.unspec) (· = .ub) := by
  obtain ⟨w, hw, h1, h2, h3, h4, hf⟩ := recOf_some hr
  unfold setValue getWrite
  rw [hf]
  simp only
  split
  · rw [ok_bind]
    rw [if_neg (by simp [h3, h4])]
    have mid : ∀ y : MemWrite, (if y.id = id then (fun w : MemWrite => { w with value := some v }) y else y).id = y.id := by
      intro y; split <;> rfl
    have mrid : ∀ y : MemWrite,
        (if y.id = id then (fun w : MemWrite => { w with value := some v }) y else y).ramId = y.ramId := by
      intro y; split <;> rfl
    refine ⟨⟨?_, ?_, ?_, hm.unspec⟩, ?_, rfl, ?_, rfl⟩
    · unfold modify; simp only
      rw [List.pairwise_map]
      refine hm.sorted.imp ?_
      intro x y hxy
      split <;> split <;> simpa using hxy
    · intro x hx hle
      obtain ⟨y, hy, rfl⟩ := List.mem_map.1 hx
      have := mid y
      have h' := mrid y
      rw [h']; exact hm.old y hy (by omega)
    · intro x hx hlt
      obtain ⟨y, hy, rfl⟩ := List.mem_map.1 hx
      have := mid y
      have h' := mrid y
      rw [h', this]; exact hm.new y hy (by omega)
    · exact modify_outs (fun _ => rfl) fun x hx hid => by
        rw [Desc.unique hm.sorted hx hw (by omega)]; exact h4
    · intro j
      rw [modify_recOf (by intro w; rfl), hf]
      simp [h2, h4]
  · rfl

end Writes

/-! ## What an entry reads from memory -/

theorem previousWrite_some {q : Writes} (hd : Desc q.ws) {a : Word} {m : Nat} {w : MemWrite}
    (h : q.previousWrite a m = some w) :
    w ∈ q.ws ∧ w.addr = a ∧ w.id ≤ m ∧ ∀ w' ∈ q.ws, w'.addr = a → w'.id ≤ m → w'.id ≤ w.id := by
  obtain ⟨h1, h2, h3⟩ := hd.find_some h
  simp at h2
  exact ⟨h1, h2.1, h2.2, fun w' hw' ha hi => h3 w' hw' (by simp [ha, hi])⟩

theorem previousWrite_none {q : Writes} {a : Word} {m : Nat} (h : q.previousWrite a m = none) :
    ∀ w' ∈ q.ws, w'.addr = a → m < w'.id := by
  unfold Writes.previousWrite at h
  rw [List.find?_eq_none] at h
  intro w' hw' ha
  have := h w' hw'
  simp [ha] at this
  exact this

section
variable {cfg : Cfg}

theorem mem_outs {q : Writes} {w : MemWrite} (h : w ∈ q.ws) (hr : w.ramId.isSome = true) :
    (w.id, w.addr, w.value, w.ramId) ∈ q.outs :=
  List.mem_map.2 ⟨w, List.mem_filter.2 ⟨h, hr⟩, rfl⟩

theorem outs_mem {q : Writes} {x : Nat × Word × Option Word × Option Nat} (h : x ∈ q.outs) :
    ∃ w ∈ q.ws, w.ramId.isSome = true ∧ x = (w.id, w.addr, w.value, w.ramId) := by
  obtain ⟨w, hw, rfl⟩ := List.mem_map.1 h
  exact ⟨w, (List.mem_filter.1 hw).1, (List.mem_filter.1 hw).2, rfl⟩

theorem WmOK.outs_le {q : Writes} {m : Nat} (h : WmOK q m) {x : Nat × Word × Option Word × Option Nat} (hx : x ∈ q.outs) :
    x.1 ≤ m := by
  obtain ⟨w, hw, hr, rfl⟩ := outs_mem hx
  by_contra hlt
  have := (h.new w hw (by simpa using hlt)).1
  rw [this] at hr; cases hr

/-- At the start of the window memory reads see the memory of the sequential machine. -/
theorem memOK_base {q : Writes} {m : Nat} {ram : Ram} {S : State} (hw : WmOK q m) (hr : RamOK cfg ram q.outs S.mem) :
    MemOK q S.mem S m := by
  intro _ a
  split
  · next w hp =>
    obtain ⟨h1, h2, h3, h4⟩ := previousWrite_some hw.sorted hp
    intro v hv
    have ho := mem_outs h1 (hw.old w h1 h3)
    have hn := hr.newest _ ho (by
      intro x hx ha
      obtain ⟨w', hw', hr', rfl⟩ := outs_mem hx
      exact h4 w' hw' (ha.trans h2) (hw.outs_le hx))
    simp only at hn
    rw [← h2, hn, hv]
  · rfl

/-- One more record in the queue. -/
theorem memOK_succ {wm : Writes} {S S' : State} {m : Nat} {mem0 : Word → Option Word} {a0 : Word} {ov : Option Word}
    (hd : Desc wm.ws) (hm : MemOK wm mem0 S m) (hr : wm.recOf (m + 1) = some (a0, ov, none))
    (ho : ∀ a', a' ≠ a0 → S'.mem a' = S.mem a') (hv : ∀ v, ov = some v → S'.mem a0 = some v) : MemOK wm mem0 S' (m + 1) := by
  intro hu a
  have hu' : ∀ u ∈ wm.unspec, m < u := fun u hu'' => Nat.lt_of_succ_lt (hu u hu'')
  obtain ⟨w0, hw0, hid, ha0, hv0, _, _⟩ := Writes.recOf_some hr
  by_cases haa : a = a0
  · subst haa
    split
    · next w hpw =>
      obtain ⟨g1, g2, g3, g4⟩ := previousWrite_some hd hpw
      have := g4 w0 hw0 ha0 (by omega)
      have : w = w0 := hd.unique g1 hw0 (by omega)
      subst this
      intro v hv'
      exact hv v (by rw [← hv0, hv'])
    · next hpw =>
      have := previousWrite_none hpw w0 hw0 ha0
      omega
  · have : wm.previousWrite a (m + 1) = wm.previousWrite a m := by
      unfold Writes.previousWrite
      apply find_congr
      intro w hw
      by_cases hwa : w.addr = a
      · have hne : w.id ≠ m + 1 := by
          intro hid'
          have := hd.unique hw hw0 (by omega)
          subst this
          exact haa (hwa.symm.trans ha0)
        have : (w.id ≤ m + 1) ↔ (w.id ≤ m) := by omega
        rw [decide_eq_decide.2 this]
      · have hwa : (w.addr == a) = false := beq_eq_false_iff_ne.2 hwa
        rw [hwa]; rfl
    rw [this, ho a haa]
    exact hm hu' a

/-- The memory seen after one more entry. -/
theorem EntryOK.memOK {X : Ctx} {S : State} {m : Nat} {b : Rat} {n : Nat} {e : Entry} {mem0 : Word → Option Word}
    (hwf : e.instr.wf cfg = true) (h : EntryOK cfg X S m b n e) (hd : Desc X.wm.ws) (hm : MemOK X.wm mem0 S m) :
    MemOK X.wm mem0 (specNext cfg S e.instr) e.maxW := by
  have hs := h.store
  have hmem : (specNext cfg S e.instr).mem = storeMem (storeOf cfg S e.instr) S.mem := dataStep_mem hwf
  unfold StoreOK at hs
  split at hs
  · next hp =>
    rw [hs.2]
    intro hu a
    rw [hmem, storeOf_none hwf hp]
    exact hm hu a
  · next sp hp =>
    obtain ⟨_, h2, h3⟩ := hs
    rw [h2]
    split at h3
    · obtain ⟨_, a0, v0, hst, hr⟩ := h3
      apply memOK_succ hd hm hr
      · intro a' ha'; rw [hmem, hst]; simp [storeMem, ha']
      · intro v hv; cases hv; rw [hmem, hst]; simp [storeMem]
    · split at h3
      · next a0 =>
        apply memOK_succ hd hm h3.2
        · intro a' ha'
          rw [hmem]
          cases hst : storeOf cfg S e.instr with
          | none => rfl
          | some x =>
            obtain ⟨a1, v1⟩ := x
            have := storeOf_static_addr hwf hp hst
            subst this
            simp [storeMem, ha']
        · intro v hv; cases hv
      · exact fun hu => absurd (hu _ h3.1) (Nat.lt_irrefl _)

/-- The memory seen by an entry that has not executed, its own write included. -/
theorem EntryOK.memOK_self {X : Ctx} {S : State} {m : Nat} {b : Rat} {n : Nat} {e : Entry} {mem0 : Word → Option Word}
    (h : EntryOK cfg X S m b n e) (hst : e.st ≠ .retiring) (hd : Desc X.wm.ws) (hm : MemOK X.wm mem0 S m) :
    MemOK X.wm mem0 S e.maxW := by
  have hs := h.store
  unfold StoreOK at hs
  split at hs
  · rw [hs.2]; exact hm
  · obtain ⟨_, h2, h3⟩ := hs
    rw [h2]
    rw [if_neg hst] at h3
    split at h3
    · exact memOK_succ hd hm h3.2 (fun _ _ => rfl) (fun v hv => by cases hv)
    · exact fun hu => absurd (hu _ h3.1) (Nat.lt_irrefl _)

end
end T86
