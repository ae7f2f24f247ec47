import Verif.Lemmas.RetireLoop

/-! Renaming: there is always a free physical register. -/

set_option linter.unusedSimpArgs false
set_option linter.unusedVariables false

namespace T86
open Isa

section
variable {cfg : Cfg}

/-- Pigeonhole: a short list does not contain all numbers below `n`. -/
theorem exists_not_mem {n : Nat} {K : List Nat} (h : K.length < n) : ∃ p < n, p ∉ K := by
  by_contra hc
  have hs : List.range n ⊆ K := by
    intro p hp
    by_contra hn
    exact hc ⟨p, List.mem_range.1 hp, hn⟩
  have := (List.subperm_of_subset List.nodup_range hs).length_le
  rw [List.length_range] at this
  omega

theorem isUnmapped_iff {t : Rat} {p : Nat} : t.isUnmapped p = true ↔ p ∉ t := by
  unfold Rat.isUnmapped
  rw [List.all_eq_true]
  constructor
  · intro h hp
    have := h p hp
    simp at this
  · intro h q hq
    have : q ≠ p := by rintro rfl; exact h hq
    simp [this]

/-- A free physical register is found. -/
theorem nextFree_ok {regs : Regs} {t : Rat} {L : List Nat} (h : SubsOK cfg regs (t ++ L)) (hf : ∃ p < cfg.nphys, p ∉ t ++ L) :
    ∃ p, Cpu.nextFree cfg regs t = .ok p ∧ p < cfg.nphys ∧ p ∉ t ++ L := by
  have hiff : ∀ p, p < cfg.nphys → ((t.isUnmapped p && (match regs[p]? with
      | some r => r.subs == 0
      | none => false)) = true ↔ p ∉ t ++ L) := by
    intro p hp
    obtain ⟨x, hx⟩ : ∃ x, regs[p]? = some x := ⟨_, List.getElem?_eq_getElem (by rw [h.len]; exact hp)⟩
    have hs := h.subs p x hx
    rw [Bool.and_eq_true, isUnmapped_iff, hx]
    simp only [beq_iff_eq]
    rw [hs, List.count_eq_zero]
    simp
  unfold Cpu.nextFree
  split
  · next i hi =>
    have h1 := List.mem_range.1 (List.mem_of_find?_eq_some hi)
    have h2 := List.find?_some hi
    exact ⟨i, rfl, h1, (hiff i h1).1 h2⟩
  · next hn =>
    exfalso
    obtain ⟨p, hp, hnm⟩ := hf
    rw [List.find?_eq_none] at hn
    exact hn p (List.mem_range.2 hp) ((hiff p hp).2 hnm)

theorem set_perm : ∀ {t : Rat} {k old : Nat} (p : Nat), t[k]? = some old → (old :: t.set k p).Perm (p :: t)
  | [], k, old, p, h => by simp at h
  | x :: t, 0, old, p, h => by
    simp at h
    subst h
    exact List.Perm.swap ..
  | x :: t, k + 1, old, p, h => by
    have ih := set_perm (t := t) (k := k) p (by simpa using h)
    rw [List.set_cons_succ]
    exact (List.Perm.swap ..).trans ((ih.cons x).trans (List.Perm.swap ..))

theorem rename_ok {regs : Regs} {t : Rat} {L : List Nat} {r : LReg} {k : Nat} (h : SubsOK cfg regs (t ++ L))
    (hlen : t.length = cfg.nkeys) (hk : cfg.key r = some k) (hf : ∃ p < cfg.nphys, p ∉ t ++ L) :
    ∃ p regs', Cpu.rename cfg (regs, t) r = .ok (regs', t.set k p) ∧ p < cfg.nphys ∧ p ∉ t ++ L ∧
      SubsOK cfg regs' (t.set k p ++ L) ∧ (∀ q, q ≠ p → cellView regs' q = cellView regs q) ∧ CellBusy regs' p := by
  obtain ⟨p, h1, h2, h3⟩ := nextFree_ok h hf
  have hlt : k < t.length := by rw [hlen]; exact key_lt hk
  obtain ⟨old, hold⟩ : ∃ old, t[k]? = some old := ⟨_, List.getElem?_eq_getElem hlt⟩
  have htr : t.translate cfg r = .ok old := by unfold Rat.translate; rw [hk]; simp only [hold]
  have hperm := set_perm p hold
  -- drop the old cell, subscribe the new one
  have hA : SubsOK cfg regs (old :: (t.eraseIdx k ++ L)) := by
    refine h.perm ?_
    rw [← List.cons_append]
    refine List.Perm.append_right _ ?_
    have := List.getElem_cons_eraseIdx_perm hlt
    rw [List.getElem?_eq_getElem hlt] at hold
    cases hold
    exact this.symm
  obtain ⟨r1, u1, u2, u3⟩ := unsubscribe_ok hA
  obtain ⟨r2, v1, v2, v3⟩ := subscribe_ok u2 h2
  have hB : (p :: (t.eraseIdx k ++ L)).Perm (t.set k p ++ L) := by
    rw [← List.cons_append]
    refine List.Perm.append_right _ ?_
    have hl2 : k < (t.set k p).length := by rw [List.length_set]; exact hlt
    have := List.getElem_cons_eraseIdx_perm hl2
    rw [List.getElem_set_self, List.eraseIdx_set_eq] at this
    exact this
  have hC := v2.perm hB
  obtain ⟨x, hx⟩ : ∃ x, r2[p]? = some x := ⟨_, List.getElem?_eq_getElem (by rw [v2.len]; exact h2)⟩
  refine ⟨p, r2.set p { x with ready := false }, ?_, h2, h3, ⟨?_, ?_, hC.bound⟩, ?_, ?_⟩
  · unfold Cpu.rename
    simp only [h1, ok_bind, hk, htr, u1, v1, regs_get hx, pure_ok]
  · rw [List.length_set]; exact hC.len
  · intro q c hc
    rw [List.getElem?_set] at hc
    split at hc
    · next he =>
      subst he
      split at hc
      · cases hc; exact (show x.subs = _ from hC.subs _ x hx)
      · cases hc
    · exact hC.subs q c hc
  · intro q hq
    unfold cellView
    rw [List.getElem?_set_ne (fun h => hq h.symm)]
    exact (v3 q).trans (u3 q)
  · refine ⟨_, List.getElem?_set_self ?_, rfl⟩
    rw [v2.len]; exact h2

/-! ## The number of physical registers in use -/

/-- The cells that an entry has taken. -/
def freshCells (cfg : Cfg) (e : Entry) : List Nat := (freshKeys cfg e.instr).filterMap (e.wrat[·]?)

theorem wf_products {i : Instr} (hw : i.wf cfg = true) : ∃ ps, i.produces = .ok ps ∧ ps.length ≤ 3 := by
  cases i
  case mov dst v =>
    cases dst
    case val ex => cases ex <;> first | exact ⟨_, rfl, by simp⟩ | simp [Instr.wf] at hw
    case freg => exact ⟨_, rfl, by simp⟩
    case memImm => exact ⟨_, rfl, by simp⟩
    case mem => exact ⟨_, rfl, by simp⟩
    all_goals simp [Instr.wf] at hw
  all_goals exact ⟨_, rfl, by simp⟩

theorem freshCells_length {e : Entry} (hw : e.instr.wf cfg = true) : (freshCells cfg e).length ≤ 4 := by
  obtain ⟨ps, h1, h2⟩ := wf_products hw
  have hr : (regProds e.instr).length ≤ 3 := by
    unfold regProds prodsOf
    rw [h1]
    exact Nat.le_trans (List.length_filterMap_le _ _) h2
  unfold freshCells freshKeys
  refine Nat.le_trans (List.length_filterMap_le _ _) ?_
  rw [List.length_cons]
  have := List.length_filterMap_le cfg.key (regProds e.instr)
  omega

theorem mem_getElem? {l : List Nat} {q : Nat} (h : q ∈ l) : ∃ k : Nat, l[k]? = some q := List.mem_iff_getElem?.1 h

theorem EntryOK.wrat_sub {X : Ctx} {S : State} {m : Nat} {b : Rat} {n : Nat} {e : Entry} (h : EntryOK cfg X S m b n e)
    {q : Nat} (hq : q ∈ e.wrat) : q ∈ b ∨ q ∈ freshCells cfg e := by
  obtain ⟨k, hk⟩ := mem_getElem? hq
  by_cases hf : k ∈ freshKeys cfg e.instr
  · exact Or.inr (List.mem_filterMap.2 ⟨k, hf, hk⟩)
  · rw [h.tab.write k hf] at hk
    exact Or.inl (List.mem_of_getElem? hk)

theorem EntryOK.rrat_sub {X : Ctx} {S : State} {m : Nat} {b : Rat} {n : Nat} {e : Entry} (h : EntryOK cfg X S m b n e)
    {q : Nat} (hq : q ∈ e.rrat) : q ∈ b ∨ q ∈ freshCells cfg e := by
  obtain ⟨k, hk⟩ := mem_getElem? hq
  by_cases hf : k = cfg.pcK
  · subst hf
    rw [h.tab.pc] at hk
    exact h.wrat_sub (List.mem_of_getElem? hk)
  · rw [h.tab.read k hf] at hk
    exact Or.inl (List.mem_of_getElem? hk)

/-- Every cell in use is one of the table before the window or was taken by an entry. -/
theorem Win.cover {X : Ctx} {T : State → Nat → Rat → Nat → List Word → Prop} {t : Rat}
    (hT : ∀ S m b n ps, T S m b n ps → b = t) :
    ∀ {es : List Entry} {S : State} {m : Nat} {b : Rat} {n : Nat} {ps : List Word}, Win cfg X T es S m b n ps →
    ∀ q ∈ t ++ tables es, q ∈ b ++ es.flatMap (freshCells cfg)
  | [], _, _, _, _, _, h, q, hq => by
    rw [hT _ _ _ _ _ h]
    simpa [tables] using hq
  | e :: es, _, _, b, _, _, h, q, hq => by
    have ih := Win.cover hT h.2.2
    have step : q ∈ e.wrat ++ es.flatMap (freshCells cfg) → q ∈ b ++ (e :: es).flatMap (freshCells cfg) := by
      intro hm
      rw [List.flatMap_cons]
      rcases List.mem_append.1 hm with hm | hm
      · rcases h.1.wrat_sub hm with hm | hm <;> simp [hm]
      · simp only [List.mem_append]; exact Or.inr (Or.inr hm)
    rw [tables_cons] at hq
    simp only [List.mem_append] at hq
    rcases hq with hq | (hq | hq) | hq
    · exact step (ih q (List.mem_append.2 (Or.inl hq)))
    · rw [List.flatMap_cons]
      rcases h.1.rrat_sub hq with hm | hm <;> simp [hm]
    · exact step (List.mem_append.2 (Or.inl hq))
    · exact step (ih q (List.mem_append.2 (Or.inr hq)))

theorem Win.wf {X : Ctx} {T : State → Nat → Rat → Nat → List Word → Prop} (hp : ∀ i ∈ X.prog, i.wf cfg = true) :
    ∀ {es : List Entry} {S : State} {m : Nat} {b : Rat} {n : Nat} {ps : List Word}, Win cfg X T es S m b n ps →
    ∀ e ∈ es, e.instr.wf cfg = true
  | [], _, _, _, _, _, _, _, he => by cases he
  | e :: es, _, _, b, _, _, h, e', he' => by
    rcases List.mem_cons.1 he' with rfl | he'
    · exact h.1.wf hp
    · exact Win.wf hp h.2.2 e' he'

theorem flatMap_freshCells_length : ∀ {es : List Entry}, (∀ e ∈ es, e.instr.wf cfg = true) →
    (es.flatMap (freshCells cfg)).length ≤ 4 * es.length
  | [], _ => by simp
  | e :: es, h => by
    have h1 := freshCells_length (h e (List.mem_cons_self ..))
    have h2 := flatMap_freshCells_length fun e' he' => h e' (List.mem_cons_of_mem _ he')
    rw [List.flatMap_cons, List.length_append, List.length_cons]
    omega

/-- The cells in use are covered by a list that is shorter than the register file. -/
theorem Inv0.cover {c : Cpu} {S : State} {own : Nat → Nat × Nat} {n m : Nat} {b : Rat} (h : Inv0 cfg c S [] own n m b) :
    ∃ K : List Nat, K.length ≤ cfg.nkeys + 4 * c.entries.length ∧ ∀ q ∈ c.rat ++ tables c.entries, q ∈ K := by
  refine ⟨b ++ c.entries.flatMap (freshCells cfg), ?_, Win.cover (fun _ _ _ _ _ hT => hT.2.1) h.win⟩
  have := flatMap_freshCells_length (Win.wf h.wf h.win)
  rw [List.length_append, h.base.len]
  omega

end
end T86
