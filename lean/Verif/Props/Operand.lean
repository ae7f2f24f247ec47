import Verif.Spec.Operand
import Verif.Lemmas.Effect

/-! # Addressing modes (C06) -/

set_option linter.unusedSimpArgs false
set_option linter.unusedVariables false

namespace T86
open Addr

theorem value_eq_ea (e : RegExpr) (reg : Reg → Word) (get : LReg → Word) (h : ∀ r, reg r = get (.int r)) :
    (parts e).value reg = Isa.ea get e := by
  cases e <;> simp [parts, Parts.value, Isa.ea, h]

/-- One question: the answer is one of those that have to be asked, and the rest stays to be asked. -/
theorem ask_one {m : Mode} {ans : Requirement → Word} {op op1 : Operand} {q : Requirement} (h1 : op.isFetched = false)
    (h2 : op.requirement = .ok q) (h3 : supply m ans op q = .ok op1) :
    value ans op1 = value ans op ∧ (q :: asks ans op1).Perm (asks ans op) := by
  have hs : ∀ (e : RegExpr), Sat (e.supply m (ans (.reg e.req)))
      (fun x => (match x with
        | .inl w => w = (parts e).value (fun r => ans (.reg r)) ∧ (parts e).regs = [e.req]
        | .inr e' => (parts e').value (fun r => ans (.reg r)) = (parts e).value (fun r => ans (.reg r)) ∧
            (e.req :: (parts e').regs).Perm (parts e).regs)) (fun _ => True) := by
    intro e
    have hsat := supply_sat m (fun r => match r with | .int r => ans (.reg r) | _ => 0) e
    refine hsat.mono ?_ (fun _ _ => trivial)
    rintro x ⟨g1, g2⟩
    have hv : ∀ e', (parts e').value (fun r => ans (.reg r)) = Isa.ea (fun r => match r with | .int r => ans (.reg r) | _ => 0) e' :=
      fun e' => value_eq_ea e' _ _ (fun _ => rfl)
    cases x with
    | inl w =>
      refine ⟨?_, ?_⟩
      · rw [hv]; exact g1
      · cases e <;> simp [RegExpr.steps, parts, Parts.regs, RegExpr.req] at g2 ⊢
    | inr e' =>
      dsimp only at g2 ⊢
      refine ⟨by rw [hv, hv]; exact g1, ?_⟩
      obtain ⟨h, h'⟩ := g2
      have key : ∀ e'' : RegExpr, (parts e'').regs.Perm e''.regs := by
        intro e''
        cases e'' <;> simp [parts, Parts.regs, RegExpr.regs] <;> exact List.Perm.swap ..
      exact ((key e').cons _).trans (by rw [← h']; exact (key e).symm)
  cases op with
  | imm w => cases h1
  | fimm w => cases h1
  | freg i =>
    cases h2
    cases h3
    exact ⟨rfl, .refl _⟩
  | memImm a =>
    cases h2
    cases h3
    exact ⟨rfl, .refl _⟩
  | val e =>
    cases h2
    have := hs e
    change (e.supply m (ans (.reg e.req)) >>= _) = _ at h3
    cases hx : e.supply m (ans (.reg e.req)) with
    | error f => rw [hx] at h3; cases h3
    | ok x =>
      rw [hx] at this h3
      cases x with
      | inl w =>
        cases h3
        exact ⟨this.1, by simp only [asks]; rw [this.2]; exact .refl _⟩
      | inr e' =>
        cases h3
        exact ⟨this.1, this.2.map Requirement.reg⟩
  | mem e =>
    cases h2
    have := hs e
    change (e.supply m (ans (.reg e.req)) >>= _) = _ at h3
    cases hx : e.supply m (ans (.reg e.req)) with
    | error f => rw [hx] at h3; cases h3
    | ok x =>
      rw [hx] at this h3
      cases x with
      | inl w =>
        cases h3
        have t1 : w = _ := this.1
        refine ⟨by simp only [value]; rw [t1], ?_⟩
        simp only [asks]
        rw [this.2, ← t1]
        exact .refl _
      | inr e' =>
        cases h3
        have t1 : (parts e').value _ = _ := this.1
        refine ⟨by simp only [value]; rw [t1], ?_⟩
        simp only [asks]
        rw [t1]
        exact (this.2.map Requirement.reg).append_right _

/-- C06. However far fetching an operand has got, the questions asked are among those that the addressing mode needs; when
the operand is fetched they are exactly these (so fetching terminates, with at most three questions), and the value is the
documented one. -/
theorem C06_fetch (m : Mode) (ans : Requirement → Word) (op op' : Operand) (qs : List Requirement) (h : Fetching m ans op qs op') :
    (∃ rest, (qs ++ rest).Perm (asks ans op)) ∧ qs.length ≤ 3 ∧
    (op'.isFetched = true → qs.Perm (asks ans op) ∧ op'.getValue = some (value ans op)) := by
  have hlen : ∀ op, (asks ans op).length ≤ 3 := by
    intro op
    cases op <;> simp [asks] <;> rename_i e <;> cases e <;> simp [parts, Parts.regs]
  have key : (qs ++ asks ans op').Perm (asks ans op) ∧ value ans op' = value ans op := by
    induction h with
    | now op => exact ⟨.refl _, rfl⟩
    | ask h1 h2 h3 h4 ih =>
      obtain ⟨g1, g2⟩ := ask_one h1 h2 h3
      exact ⟨(ih.1.cons _).trans g2, ih.2.trans g1⟩
  refine ⟨⟨_, key.1⟩, ?_, fun hf => ?_⟩
  · have := key.1.length_eq
    rw [List.length_append] at this
    have := hlen op
    omega
  · rw [← key.2]
    have h := key.1
    cases op' with
    | imm w => rw [show asks ans (.imm w) = [] from rfl, List.append_nil] at h; exact ⟨h, rfl⟩
    | fimm w => rw [show asks ans (.fimm w) = [] from rfl, List.append_nil] at h; exact ⟨h, rfl⟩
    | _ => cases hf

/-- C06, fetching never gets stuck: with two's complement arithmetic every operand can be fetched, whatever the answers. -/
theorem C06_fetched (ans : Requirement → Word) (op : Operand) :
    ∃ qs op', Fetching .wrap ans op qs op' ∧ op'.isFetched = true := by
  have hex : ∀ (e : RegExpr) (v : Word), ∃ x, e.supply .wrap v = .ok x ∧ (match x with
      | .inl _ => True
      | .inr e' => ∃ r i, e' = .regImm r i) := by
    intro e v
    cases e <;> exact ⟨_, rfl, by first | trivial | exact ⟨_, _, rfl⟩⟩
  have himm : ∀ r i, ∃ qs op', Fetching .wrap ans (.val (.regImm r i)) qs op' ∧ op'.isFetched = true := fun r i =>
    ⟨[.reg r], .imm _, .ask rfl rfl rfl (.now _), rfl⟩
  have hmem : ∀ a, ∃ qs op', Fetching .wrap ans (.memImm a) qs op' ∧ op'.isFetched = true := fun a =>
    ⟨[.mem a], .imm _, .ask rfl rfl rfl (.now _), rfl⟩
  have hmimm : ∀ r i, ∃ qs op', Fetching .wrap ans (.mem (.regImm r i)) qs op' ∧ op'.isFetched = true := fun r i => by
    obtain ⟨qs, op', h1, h2⟩ := hmem (ans (.reg r) + i)
    exact ⟨_, op', .ask rfl rfl rfl h1, h2⟩
  cases op with
  | imm w => exact ⟨[], _, .now _, rfl⟩
  | fimm w => exact ⟨[], _, .now _, rfl⟩
  | freg i => exact ⟨[.freg i], .fimm _, .ask rfl rfl rfl (.now _), rfl⟩
  | memImm a => exact hmem a
  | val e =>
    obtain ⟨x, h1, h2⟩ := hex e (ans (.reg e.req))
    cases x with
    | inl w =>
      refine ⟨[.reg e.req], .imm w, .ask rfl rfl ?_ (.now _), rfl⟩
      change (e.supply .wrap (ans (.reg e.req)) >>= _) = _
      rw [h1]
      rfl
    | inr e' =>
      obtain ⟨r, i, rfl⟩ := h2
      obtain ⟨qs, op', g1, g2⟩ := himm r i
      refine ⟨.reg e.req :: qs, op', .ask rfl rfl ?_ g1, g2⟩
      change (e.supply .wrap (ans (.reg e.req)) >>= _) = _
      rw [h1]
      rfl
  | mem e =>
    obtain ⟨x, h1, h2⟩ := hex e (ans (.reg e.req))
    cases x with
    | inl w =>
      obtain ⟨qs, op', g1, g2⟩ := hmem w
      refine ⟨.reg e.req :: qs, op', .ask rfl rfl ?_ g1, g2⟩
      change (e.supply .wrap (ans (.reg e.req)) >>= _) = _
      rw [h1]
      rfl
    | inr e' =>
      obtain ⟨r, i, rfl⟩ := h2
      obtain ⟨qs, op', g1, g2⟩ := hmimm r i
      refine ⟨.reg e.req :: qs, op', .ask rfl rfl ?_ g1, g2⟩
      change (e.supply .wrap (ans (.reg e.req)) >>= _) = _
      rw [h1]
      rfl

/-- C06, the addresses that MOV and LEA compute from the values of the registers an operand names (`e.regs`, in the order
in which they are fetched) are the documented ones; with two's complement arithmetic there always is one. -/
theorem C06_address (m : Mode) (e : RegExpr) (reg : Reg → Word) :
    (∀ a, e.address m (e.regs.map reg) = .ok a → a = (parts e).value reg) ∧ e.regs.Perm (parts e).regs ∧
    (m = .wrap → ∃ a, e.address m (e.regs.map reg) = .ok a) := by
  have hv := value_eq_ea e reg (fun r => match r with | .int r => reg r | _ => 0) (fun _ => rfl)
  have hs := address_sat m (fun r => match r with | .int r => reg r | _ => 0) e
  refine ⟨?_, ?_, ?_⟩
  · intro a ha
    rw [hv]
    rw [show (e.regs.map fun r => (fun r : LReg => match r with | .int r => reg r | _ => 0) (.int r)) = e.regs.map reg from rfl, ha] at hs
    exact hs
  · cases e <;> simp [parts, Parts.regs, RegExpr.regs] <;> exact List.Perm.swap ..
  · rintro rfl
    cases e <;> exact ⟨_, rfl⟩

/-- Non-vacuity of C06: fetching `[R1 + 2 + R2 * 4]` with R1 = 10, R2 = 5: R2, R1 and cell 32 are asked. -/
example : Fetching .strict (fun q => if q = .reg (.gp 1) then 10 else if q = .reg (.gp 2) then 5 else if q = .mem 32 then 77 else 0)
    (.mem (.regImmRegScaled (.gp 1) 2 (.gp 2) 4)) [.reg (.gp 2), .reg (.gp 1), .mem 32] (.imm 77) :=
  .ask rfl rfl rfl (.ask rfl rfl rfl (.ask rfl rfl rfl (.now _)))

end T86
