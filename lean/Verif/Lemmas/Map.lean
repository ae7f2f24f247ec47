import Verif.Model.DbgBase

/-! # Lemmas about maps -/

namespace T86
namespace Dbg
namespace Map
set_option linter.unusedSectionVars false
variable {κ α : Type} [DecidableEq κ]

@[simp] theorem find_nil (k : κ) : find ([] : Map κ α) k = none := rfl

theorem find_cons (e : κ × α) (m : Map κ α) (k : κ) : find (e :: m) k = if e.1 = k then some e.2 else find m k := by
  unfold find
  by_cases h : e.1 = k <;> simp [h]

theorem find_append (m m' : Map κ α) (k : κ) : find (m ++ m') k = (find m k).or (find m' k) := by
  unfold find
  rw [List.find?_append]
  cases List.find? (fun e => decide (e.1 = k)) m <;> simp

theorem find_erase (m : Map κ α) (k j : κ) : find (m.erase k) j = if j = k then none else find m j := by
  induction m with
  | nil => simp [erase]
  | cons e m ih =>
    have hc : erase (e :: m) k = if e.1 = k then erase m k else e :: erase m k := by
      by_cases h : e.1 = k <;> simp [erase, h]
    rw [hc, find_cons]
    by_cases h : e.1 = k
    · rw [if_pos h, ih]
      by_cases hj : j = k
      · rw [if_pos hj, if_pos hj]
      · rw [if_neg hj, if_neg hj, if_neg]; intro h'; exact hj (by rw [← h', h])
    · rw [if_neg h, find_cons, ih]
      by_cases hj : j = k
      · rw [if_pos hj, if_pos hj, if_neg]; intro h'; exact h (by rw [h', hj])
      · rw [if_neg hj, if_neg hj]

@[simp] theorem find_assign (m : Map κ α) (k j : κ) (v : α) :
    find (m.assign k v) j = if j = k then some v else find m j := by
  unfold assign
  rw [find_append, find_erase, find_cons, find_nil]
  by_cases hj : j = k
  · simp [hj]
  · rw [if_neg hj, if_neg hj, if_neg (fun h => hj h.symm)]; simp

theorem find_emplace (m : Map κ α) (k j : κ) (v : α) :
    find (m.emplace k v) j = if j = k then some ((find m k).getD v) else find m j := by
  unfold emplace
  cases h : find m k with
  | some w =>
    by_cases hj : j = k
    · simp [hj, h]
    · simp [hj]
  | none =>
    rw [find_append, find_cons, find_nil]
    by_cases hj : j = k
    · simp [hj, h]
    · rw [if_neg hj, if_neg (fun h => hj h.symm)]; simp

theorem keys_erase (m : Map κ α) (k : κ) : (m.erase k).map (·.1) = (m.map (·.1)).filter (· ≠ k) := by
  unfold erase
  rw [List.filter_map]
  rfl

theorem Ok.nil : Ok ([] : Map κ α) := List.nodup_nil

theorem Ok.erase {m : Map κ α} (h : m.Ok) (k : κ) : (m.erase k).Ok := by
  unfold Ok at *
  rw [keys_erase]
  exact h.sublist List.filter_sublist

theorem Ok.assign {m : Map κ α} (h : m.Ok) (k : κ) (v : α) : (m.assign k v).Ok := by
  have h' := h.erase k
  unfold Ok at h' ⊢
  unfold Map.assign
  rw [List.map_append, List.nodup_append]
  refine ⟨h', by simp, ?_⟩
  intro a ha b hb
  rw [keys_erase, List.mem_filter] at ha
  simp at hb
  subst hb
  simpa using ha.2

theorem find_eq_some_of_mem {m : Map κ α} (h : m.Ok) {k : κ} {v : α} (hm : (k, v) ∈ m) : find m k = some v := by
  induction m with
  | nil => simp at hm
  | cons e m ih =>
    unfold Ok at h
    rw [List.map_cons, List.nodup_cons] at h
    rw [find_cons]
    rcases List.mem_cons.mp hm with rfl | hm
    · simp
    · rw [if_neg, ih h.2 hm]
      intro he
      exact h.1 (he ▸ List.mem_map.mpr ⟨_, hm, rfl⟩)

theorem mem_of_find {m : Map κ α} {k : κ} {v : α} (h : find m k = some v) : (k, v) ∈ m := by
  induction m with
  | nil => simp at h
  | cons e m ih =>
    rw [find_cons] at h
    split at h
    · rename_i he
      cases h; subst he; exact List.mem_cons_self
    · exact List.mem_cons_of_mem _ (ih h)

theorem find_iff_mem {m : Map κ α} (h : m.Ok) (k : κ) (v : α) : find m k = some v ↔ (k, v) ∈ m :=
  ⟨mem_of_find, find_eq_some_of_mem h⟩

theorem find_eq_none {m : Map κ α} (k : κ) : find m k = none ↔ ∀ v, (k, v) ∉ m := by
  constructor
  · intro h v hm
    induction m with
    | nil => simp at hm
    | cons e m ih =>
      rw [find_cons] at h
      split at h
      · cases h
      · rename_i he
        rcases List.mem_cons.mp hm with rfl | hm
        · exact he rfl
        · exact ih h hm
  · intro h
    cases hf : find m k with
    | none => rfl
    | some v => exact absurd (mem_of_find hf) (h v)

end Map
end Dbg
end T86
