import Verif.Lemmas.Inv

/-! Frame properties of the window of in-flight instructions. -/

set_option linter.unusedSimpArgs false
set_option linter.unusedVariables false

namespace T86
open Isa

section
variable {cfg : Cfg}

/-- An entry keeps its meaning when the cells it owns and its memory write are left alone. -/
theorem EntryOK.frame {X X' : Ctx} {S : State} {m : Nat} {b : Rat} {n : Nat} {e : Entry}
    (h : EntryOK cfg X S m b n e) (hp : X'.prog = X.prog)
    (hc : ∀ k ∈ freshKeys cfg e.instr, ∀ p, e.wrat[k]? = some p →
      cellView X'.regs p = cellView X.regs p ∧ X'.own p = X.own p)
    (hw : ∀ id ∈ e.wids, X'.wm.recOf id = X.wm.recOf id ∧ (id ∈ X'.wm.unspec ↔ id ∈ X.wm.unspec)) :
    EntryOK cfg X' S m b n e where
  instr := by rw [hp]; exact h.instr
  tab := h.tab
  own := fun k hk p hpk => by rw [(hc k hk p hpk).2]; exact h.own k hk p hpk
  pcCell := fun p hpk => (h.pcCell p hpk).congr (hc _ (List.mem_cons_self ..) p hpk).1
  cells := fun r hr k hk p hpk => by
    have := h.cells r hr k hk p hpk
    have hv := (hc k (List.mem_cons_of_mem _ (List.mem_filterMap.2 ⟨r, hr, hk⟩)) p hpk).1
    split
    · next hx => rw [if_pos hx] at this; exact this.congr hv
    · next hx => rw [if_neg hx] at this; exact this.congr hv
  done := h.done
  ops := h.ops
  store := by
    have := h.store
    unfold StoreOK at this ⊢
    split at this
    · exact this
    · next sp hsp =>
      obtain ⟨h1, h2, h3⟩ := this
      refine ⟨h1, h2, ?_⟩
      obtain ⟨hr, hu⟩ := hw (m + 1) (by rw [h1]; exact List.mem_cons_self ..)
      rw [hr, hu]
      exact h3

theorem EntryOK.wid_eq {X : Ctx} {S : State} {m : Nat} {b : Rat} {n : Nat} {e : Entry} (h : EntryOK cfg X S m b n e)
    {id : Nat} (hid : id ∈ e.wids) : id = m + 1 ∧ e.maxW = m + 1 := by
  have := h.store
  unfold StoreOK at this
  split at this
  · rw [this.1] at hid; cases hid
  · rw [this.1] at hid
    simp at hid
    exact ⟨hid, this.2.1⟩

theorem EntryOK.le_maxW {X : Ctx} {S : State} {m : Nat} {b : Rat} {n : Nat} {e : Entry} (h : EntryOK cfg X S m b n e) :
    m ≤ e.maxW ∧ e.maxW ≤ m + 1 := by
  have := h.store
  unfold StoreOK at this
  split at this
  · omega
  · omega

theorem Win.frame {X X' : Ctx} {T T' : State → Nat → Rat → Nat → List Word → Prop} (hp : X'.prog = X.prog)
    (hT : ∀ S m b n ps, T S m b n ps → T' S m b n ps) :
    ∀ {es : List Entry} {S : State} {m : Nat} {b : Rat} {n : Nat} {ps : List Word}, Win cfg X T es S m b n ps →
    (∀ e ∈ es, ∀ k ∈ freshKeys cfg e.instr, ∀ p, e.wrat[k]? = some p →
      cellView X'.regs p = cellView X.regs p ∧ X'.own p = X.own p) →
    (∀ e ∈ es, ∀ id ∈ e.wids, X'.wm.recOf id = X.wm.recOf id ∧ (id ∈ X'.wm.unspec ↔ id ∈ X.wm.unspec)) →
    Win cfg X' T' es S m b n ps
  | [], _, _, _, _, _, h, _, _ => hT _ _ _ _ _ h
  | e :: es, _, _, _, _, _, h, hc, hw =>
    ⟨h.1.frame hp (hc e (List.mem_cons_self ..)) (hw e (List.mem_cons_self ..)), h.2.1,
      Win.frame hp hT h.2.2 (fun e' he' => hc e' (List.mem_cons_of_mem _ he')) fun e' he' => hw e' (List.mem_cons_of_mem _ he')⟩

/-- Writes of the window come after the write `m`. -/
theorem Win.wid_gt {X : Ctx} {T : State → Nat → Rat → Nat → List Word → Prop} :
    ∀ {es : List Entry} {S : State} {m : Nat} {b : Rat} {n : Nat} {ps : List Word}, Win cfg X T es S m b n ps →
    ∀ e ∈ es, ∀ id ∈ e.wids, m < id
  | [], _, _, _, _, _, _, _, he, _, _ => by cases he
  | e :: es, _, m, _, _, _, h, e', he', id, hid => by
    rcases List.mem_cons.1 he' with rfl | he'
    · have := (h.1.wid_eq hid).1; omega
    · have := Win.wid_gt h.2.2 e' he' id hid
      have := h.1.le_maxW
      omega

/-- Cells of the window are owned by the entries' numbers. -/
theorem Win.own_ge {X : Ctx} {T : State → Nat → Rat → Nat → List Word → Prop} :
    ∀ {es : List Entry} {S : State} {m : Nat} {b : Rat} {n : Nat} {ps : List Word}, Win cfg X T es S m b n ps →
    ∀ e ∈ es, ∀ k ∈ freshKeys cfg e.instr, ∀ p, e.wrat[k]? = some p → n ≤ (X.own p).1
  | [], _, _, _, _, _, _, _, he, _, _, _, _ => by cases he
  | e :: es, _, m, _, n, _, h, e', he', k, hk, p, hp => by
    rcases List.mem_cons.1 he' with rfl | he'
    · rw [h.1.own k hk p hp]; exact Nat.le_refl _
    · have := Win.own_ge h.2.2 e' he' k hk p hp
      omega

/-- What is in the tables of the window: cells of the table before it and cells of its entries. -/
theorem Win.cur_ge {X : Ctx} {T : State → Nat → Rat → Nat → List Word → Prop} {M : Nat}
    (hT : ∀ S m b n ps, T S m b n ps → m ≤ M) :
    ∀ {es : List Entry} {S : State} {m : Nat} {b : Rat} {n : Nat} {ps : List Word}, Win cfg X T es S m b n ps → m ≤ M
  | [], _, _, _, _, _, h => hT _ _ _ _ _ h
  | e :: es, _, m, _, n, _, h => by
    have := Win.cur_ge hT h.2.2
    have := h.1.le_maxW
    omega

/-- Appending an entry. -/
theorem Win.append {X : Ctx} {T T' : State → Nat → Rat → Nat → List Word → Prop} {e : Entry}
    (hT : ∀ S m b n ps, T S m b n ps → Win cfg X T' [e] S m b n ps) :
    ∀ {es : List Entry} {S : State} {m : Nat} {b : Rat} {n : Nat} {ps : List Word}, Win cfg X T es S m b n ps →
    Win cfg X T' (es ++ [e]) S m b n ps
  | [], _, _, _, _, _, h => hT _ _ _ _ _ h
  | _ :: _, _, _, _, _, _, h => ⟨h.1, h.2.1, Win.append hT h.2.2⟩

theorem mem_freshKeys {r : LReg} {k : Nat} {i : Instr} (hk : cfg.key r = some k) (hr : r ≠ .int .pc) :
    k ∈ freshKeys cfg i ↔ r ∈ regProds i := by
  unfold freshKeys
  rw [List.mem_cons, List.mem_filterMap]
  constructor
  · rintro (h | ⟨r', h1, h2⟩)
    · exact absurd h (key_ne_pcK hk hr)
    · rw [key_inj hk h2]; exact h1
  · intro h; exact Or.inr ⟨r, h, hk⟩

theorem BaseOK.tbl {regs : Regs} {own : Nat → Nat × Nat} {S : State} {b : Rat} {n : Nat} (h : BaseOK cfg regs own S b n) :
    TblOK cfg regs S b := by
  refine ⟨h.len, fun r k hk hr => ?_⟩
  obtain ⟨p, h1, _, _, c, h2, h3, h4⟩ := h.cells r k hk hr
  exact ⟨p, c, h1, h2, fun _ => h4⟩

/-- The table after an entry. -/
theorem EntryOK.tbl {X : Ctx} {S : State} {m : Nat} {b : Rat} {n : Nat} {e : Entry} (hw : e.instr.wf cfg = true)
    (h : EntryOK cfg X S m b n e)
    (hb : TblOK cfg X.regs S b) : TblOK cfg X.regs (specNext cfg S e.instr) e.wrat := by
  refine ⟨h.tab.lenw, fun r k hk hr => ?_⟩
  by_cases hm : r ∈ regProds e.instr
  · have hlt : k < e.wrat.length := by rw [h.tab.lenw]; exact key_lt hk
    have hp : e.wrat[k]? = some e.wrat[k] := List.getElem?_eq_getElem hlt
    have := h.cells r hm k hk _ hp
    split at this
    · obtain ⟨c, h1, h2, h3⟩ := this
      exact ⟨_, c, hp, h1, fun _ => h3⟩
    · obtain ⟨c, h1, h2⟩ := this
      exact ⟨_, c, hp, h1, fun h => by rw [h2] at h; cases h⟩
  · obtain ⟨p, c, h1, h2, h3⟩ := hb.cells r k hk hr
    refine ⟨p, c, ?_, h2, ?_⟩
    · rw [h.tab.write k (fun hf => hm ((mem_freshKeys hk hr).1 hf))]; exact h1
    · intro hc
      rw [h3 hc]
      exact (dataStep_reg_other hw hm hr).symm

/-- The value of a register read by an entry that has not executed yet. -/
theorem EntryOK.read {X : Ctx} {S : State} {m : Nat} {b : Rat} {n : Nat} {e : Entry}
    (h : EntryOK cfg X S m b n e) (hst : e.st ≠ .retiring) (hb : TblOK cfg X.regs S b) {r : LReg} {k : Nat}
    (hk : cfg.key r = some k) :
    ∃ p c, e.rrat.translate cfg r = .ok p ∧ X.regs[p]? = some c ∧ (c.ready = true → c.value = S.get r) := by
  by_cases hr : r = .int .pc
  · subst hr
    rw [key_pc] at hk; cases hk
    have hlt : cfg.pcK < e.wrat.length := by rw [h.tab.lenw]; exact pcK_lt
    have hp : e.wrat[cfg.pcK]? = some e.wrat[cfg.pcK] := List.getElem?_eq_getElem hlt
    obtain ⟨c, h1, h2, h3⟩ := h.pcCell _ hp
    rw [if_neg hst] at h3
    refine ⟨_, c, ?_, h1, fun _ => h3⟩
    unfold Rat.translate
    rw [key_pc]
    simp only [h.tab.pc, hp]
  · obtain ⟨p, c, h1, h2, h3⟩ := hb.cells r k hk hr
    refine ⟨p, c, ?_, h2, ?_⟩
    · unfold Rat.translate
      rw [hk]
      simp only [h.tab.read k (key_ne_pcK hk hr), h1]
    · intro hc
      rw [h3 hc]
      cases r with
      | flt i => rfl
      | int r => cases r <;> first | rfl | exact absurd rfl hr

end
end T86
