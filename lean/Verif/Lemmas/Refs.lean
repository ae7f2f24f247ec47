import Verif.Lemmas.TickStart
import Mathlib.Data.List.Perm.Basic

/-! Reference counts of the physical registers and the unrolling of speculation. -/

set_option linter.unusedSimpArgs false
set_option linter.unusedVariables false

namespace T86
open Isa

section
variable {cfg : Cfg}

theorem SubsOK.perm {regs : Regs} {L L' : List Nat} (h : SubsOK cfg regs L) (hp : L.Perm L') : SubsOK cfg regs L' where
  len := h.len
  subs := fun p c hc => by rw [h.subs p c hc, hp.count_eq]
  bound := fun p hm => h.bound p (hp.mem_iff.2 hm)

theorem cellView_set {regs : Regs} {p : Nat} {x y : PReg} (hx : regs[p]? = some x) (hv : y.value = x.value)
    (hr : y.ready = x.ready) (q : Nat) : cellView (regs.set p y) q = cellView regs q := by
  unfold cellView
  rw [List.getElem?_set]
  split
  · next he =>
    subst he
    split
    · rw [hx]; simp [hv, hr]
    · next hl => rw [List.getElem?_eq_none (by omega)] at hx; cases hx
  · rfl

theorem subscribe_ok {regs : Regs} {L : List Nat} {p : Nat} (h : SubsOK cfg regs L) (hp : p < cfg.nphys) :
    ∃ regs', regs.subscribe p = .ok regs' ∧ SubsOK cfg regs' (p :: L) ∧ ∀ q, cellView regs' q = cellView regs q := by
  obtain ⟨x, hx⟩ : ∃ x, regs[p]? = some x := ⟨_, List.getElem?_eq_getElem (by rw [h.len]; exact hp)⟩
  refine ⟨regs.set p { x with subs := x.subs + 1 }, by unfold Regs.subscribe Regs.get; rw [hx]; rfl, ⟨?_, ?_, ?_⟩, cellView_set hx rfl rfl⟩
  · rw [List.length_set]; exact h.len
  · intro q c hc
    rw [List.getElem?_set] at hc
    split at hc
    · next he =>
      subst he
      split at hc
      · cases hc; simp only; rw [List.count_cons_self, h.subs _ _ hx]
      · cases hc
    · next hne => rw [List.count_cons_of_ne hne]; exact h.subs q c hc
  · intro q hq
    rcases List.mem_cons.1 hq with rfl | hq
    · exact hp
    · exact h.bound q hq

theorem unsubscribe_ok {regs : Regs} {L : List Nat} {p : Nat} (h : SubsOK cfg regs (p :: L)) :
    ∃ regs', regs.unsubscribe p = .ok regs' ∧ SubsOK cfg regs' L ∧ ∀ q, cellView regs' q = cellView regs q := by
  have hp := h.bound p (List.mem_cons_self ..)
  obtain ⟨x, hx⟩ : ∃ x, regs[p]? = some x := ⟨_, List.getElem?_eq_getElem (by rw [h.len]; exact hp)⟩
  have hs := h.subs p x hx
  rw [List.count_cons_self] at hs
  refine ⟨regs.set p { x with subs := x.subs - 1 }, by unfold Regs.unsubscribe Regs.get; rw [hx]; exact if_neg (by omega), ⟨?_, ?_, ?_⟩, cellView_set hx rfl rfl⟩
  · rw [List.length_set]; exact h.len
  · intro q c hc
    rw [List.getElem?_set] at hc
    split at hc
    · next he =>
      subst he
      split at hc
      · cases hc; simp only; omega
      · cases hc
    · next hne =>
      have := h.subs q c hc
      rw [List.count_cons_of_ne hne] at this
      exact this
  · exact fun q hq => h.bound q (List.mem_cons_of_mem _ hq)

theorem subscribeAll_ok : ∀ {t : Rat} {regs : Regs} {L : List Nat}, SubsOK cfg regs L → (∀ p ∈ t, p < cfg.nphys) →
    ∃ regs', regs.subscribeAll t = .ok regs' ∧ SubsOK cfg regs' (t ++ L) ∧ ∀ q, cellView regs' q = cellView regs q
  | [], regs, L, h, _ => ⟨regs, rfl, h, fun _ => rfl⟩
  | p :: t, regs, L, h, hp => by
    obtain ⟨r1, h1, h2, h3⟩ := subscribe_ok h (hp p (List.mem_cons_self ..))
    obtain ⟨r2, k1, k2, k3⟩ := subscribeAll_ok (t := t) h2 fun q hq => hp q (List.mem_cons_of_mem _ hq)
    refine ⟨r2, ?_, k2.perm List.perm_middle, fun q => (k3 q).trans (h3 q)⟩
    unfold Regs.subscribeAll at k1 ⊢
    rw [List.foldlM_cons, h1]
    exact k1

theorem unsubscribeAll_ok : ∀ {t : Rat} {regs : Regs} {L : List Nat}, SubsOK cfg regs (t ++ L) →
    ∃ regs', regs.unsubscribeAll t = .ok regs' ∧ SubsOK cfg regs' L ∧ ∀ q, cellView regs' q = cellView regs q
  | [], regs, L, h => ⟨regs, rfl, h, fun _ => rfl⟩
  | p :: t, regs, L, h => by
    obtain ⟨r1, h1, h2, h3⟩ := unsubscribe_ok h
    obtain ⟨r2, k1, k2, k3⟩ := unsubscribeAll_ok (t := t) h2
    refine ⟨r2, ?_, k2, fun q => (k3 q).trans (h3 q)⟩
    unfold Regs.unsubscribeAll at k1 ⊢
    rw [List.foldlM_cons, h1]
    exact k1

theorem dropTables_ok {e : Entry} {regs : Regs} {L : List Nat} (h : SubsOK cfg regs (e.rrat ++ e.wrat ++ L)) :
    ∃ regs', Cpu.dropTables regs e = .ok regs' ∧ SubsOK cfg regs' L ∧ ∀ q, cellView regs' q = cellView regs q := by
  have h' : SubsOK cfg regs (e.wrat ++ (e.rrat ++ L)) := by
    refine h.perm ?_
    rw [← List.append_assoc]
    exact List.Perm.append_right _ List.perm_append_comm
  obtain ⟨r1, h1, h2, h3⟩ := unsubscribeAll_ok h'
  obtain ⟨r2, k1, k2, k3⟩ := unsubscribeAll_ok h2
  refine ⟨r2, ?_, k2, fun q => (k3 q).trans (h3 q)⟩
  unfold Cpu.dropTables
  rw [h1]
  exact k1

theorem tables_cons (e : Entry) (es : List Entry) : tables (e :: es) = (e.rrat ++ e.wrat) ++ tables es := rfl

theorem dropAll_ok : ∀ {es : List Entry} {regs : Regs} {L : List Nat}, SubsOK cfg regs (tables es ++ L) →
    ∃ regs', es.foldlM Cpu.dropTables regs = .ok regs' ∧ SubsOK cfg regs' L ∧ ∀ q, cellView regs' q = cellView regs q
  | [], regs, L, h => ⟨regs, rfl, h, fun _ => rfl⟩
  | e :: es, regs, L, h => by
    rw [tables_cons, List.append_assoc] at h
    obtain ⟨r1, h1, h2, h3⟩ := dropTables_ok h
    obtain ⟨r2, k1, k2, k3⟩ := dropAll_ok h2
    refine ⟨r2, ?_, k2, fun q => (k3 q).trans (h3 q)⟩
    rw [List.foldlM_cons, h1]
    exact k1

/-- The state after unrolling to the table `t`. -/
def unrolled (c : Cpu) (t : Rat) (regs : Regs) (pc : Word) : Cpu :=
  { c with regs := regs, entries := [], freeAlus := c.freeAlus + aluUsers c.entries, preds := [], fetch := none
           decode := none, rat := t, spc := pc, wm := c.wm.removePending }

theorem unroll_ok {c : Cpu} {t : Rat} {extra : List Nat} {p : Nat} {v : Word}
    (h : SubsOK cfg c.regs (c.rat ++ tables c.entries ++ extra)) (ht : ∀ p ∈ t, p ∈ extra)
    (hp : t[cfg.pcK]? = some p) (hv : CellVal c.regs p v) :
    ∃ regs', Cpu.unroll cfg c t = .ok (unrolled c t regs' v) ∧ SubsOK cfg regs' (t ++ extra) ∧
      ∀ q, cellView regs' q = cellView c.regs q := by
  have h' : SubsOK cfg c.regs (tables c.entries ++ (c.rat ++ extra)) := by
    refine h.perm ?_
    rw [← List.append_assoc]
    exact List.Perm.append_right _ List.perm_append_comm
  obtain ⟨r1, h1, h2, h3⟩ := dropAll_ok h'
  obtain ⟨r2, k1, k2, k3⟩ := unsubscribeAll_ok h2
  obtain ⟨r3, l1, l2, l3⟩ := subscribeAll_ok k2 fun q hq => k2.bound q (ht q hq)
  have hview : ∀ q, cellView r3 q = cellView c.regs q := fun q => (l3 q).trans ((k3 q).trans (h3 q))
  refine ⟨r3, ?_, l2, hview⟩
  unfold Cpu.unroll Cpu.flushPipeline Cpu.clearStation Cpu.assignRat
  rw [h1]
  simp only [ok_bind, pure_ok, k1, l1]
  obtain ⟨x, hx1, hx2, hx3⟩ := hv.congr (hview p)
  have : Cpu.readReg cfg r3 t (.int .pc) = .ok v := by
    unfold Cpu.readReg Rat.translate Regs.get
    rw [key_pc]
    simp only [hp, ok_bind, hx1, pure_ok, hx3]
  rw [this]
  rfl

end
end T86
