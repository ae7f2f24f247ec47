import Verif.Lemmas.Run

/-! What instructions in flight see of the memory. -/

set_option linter.unusedSimpArgs false
set_option linter.unusedVariables false

namespace T86
open Isa

section
variable {cfg : Cfg}

/-- With wrapping arithmetic, an instruction other than `LEA` of two registers executes whenever it does so on the
sequential machine. -/
theorem exec_of_isa {s s' : State} {i : Instr} (hm : cfg.mode = .wrap) (hw : i.wf cfg = true)
    (hl : ∀ d r r', i ≠ .lea d (.mem (.regReg r r'))) (h : Isa.exec cfg s i = .ok s') :
    ∃ x, i.exec cfg (valsOf s i) = .ok x := by
  have hs := exec_sat (cfg := cfg) (s := s) hw
  have hf : faultOf s i = false := by
    by_contra hc
    rw [Bool.not_eq_false] at hc
    rw [exec_fault hw hc] at h
    cases h
  have key : ∀ {α β : Type} {x : Res α} {f : α → Res β} {y : β}, (x >>= f) = .ok y → ∃ a, x = .ok a ∧ f a = .ok y := by
    intro α β x f y h
    cases x with
    | error e => cases h
    | ok a => exact ⟨a, rfl, h⟩
  have hsub : ∀ x y, ssub cfg.mode x y = .ok (x - y) := by
    intro x y; unfold ssub; rw [hm]; simp
  cases hx : i.exec cfg (valsOf s i) with
  | ok x => exact ⟨x, rfl⟩
  | error f =>
    exfalso
    rw [hx] at hs
    obtain ⟨hs1, hs2 | hs2⟩ := hs
    · rw [hm] at hs2; cases hs2
    cases i with
    | bin op b d r v =>
      obtain ⟨y, e1, h⟩ := key h
      obtain ⟨z, e2, h⟩ := key h
      have hv : opFault s v = false := by
        simp [faultOf, opsOf, Instr.operands] at hf
        exact hf.2
      rw [operand_ok hv] at e1
      cases e1
      have : Instr.exec cfg (.bin op b d r v) (valsOf s (.bin op b d r v)) = (do
        let r ← op.alu cfg.mode (s.get (.int r)) (opVal s v)
        return ⟨[.set (.int d) r.value, .set (.int .flags) (Alu.flagsToWord r.flags)], []⟩) := rfl
      rw [this, e2] at hx
      cases hx
    | lea d m =>
      cases m with
      | mem e => cases e <;> first | exact hl _ _ _ rfl | cases hs2
      | _ => cases hs2
    | nrw r f =>
      change (match cfg.fo.toInt (s.get (.flt f)) with | some w => _ | none => _) = _ at h
      change (match cfg.fo.toInt (s.get (.flt f)) with | some w => _ | none => _) = _ at hx
      cases ht : cfg.fo.toInt (s.get (.flt f)) with
      | none => rw [ht] at h; cases h
      | some w => rw [ht] at hx; cases hx
    | getchar r => cases hx
    | mov dst v =>
      cases dst with
      | memImm a => cases hx
      | mem e =>
        have ha := address_sat cfg.mode s.get e
        have : Instr.exec cfg (.mov (.mem e) v) (valsOf s (.mov (.mem e) v)) = (do
          let a ← e.address cfg.mode (e.regs.map fun r => s.get (.int r))
          return ⟨[.specifyAddress a, .setValue (opVal s v)], []⟩) := by
          have : valsOf s (.mov (.mem e) v) = opVal s v :: e.regs.map fun r => s.get (.int r) := by
            change opVal s v :: (e.regs.map Operand.ofReg).map (opVal s) = _
            rw [map_opVal_ofReg]
          rw [this]
          rfl
        rw [this] at hx
        cases hA : e.address cfg.mode (e.regs.map fun r => s.get (.int r)) with
        | ok a => rw [hA] at hx; cases hx
        | error f =>
          rw [hA] at ha
          have := ha.2
          rw [hm] at this
          cases this
      | _ => cases hs2
    | call a =>
      have : Instr.exec cfg (.call a) (valsOf s (.call a)) = (do
        let t ← ssub cfg.mode (s.get (.int .sp)) 1
        return ⟨[.set (.int .pc) (opVal s a), .specifyAddress t, .setValue (s.get (.int .pc)), .set (.int .sp) t], []⟩) := rfl
      rw [this, hsub] at hx
      cases hx
    | push a =>
      have : Instr.exec cfg (.push a) (valsOf s (.push a)) = (do
        let t ← ssub cfg.mode (s.get (.int .sp)) 1
        return ⟨[.specifyAddress t, .setValue (opVal s a), .set (.int .sp) t], []⟩) := rfl
      rw [this, hsub] at hx
      cases hx
    | fpush a =>
      have : Instr.exec cfg (.fpush a) (valsOf s (.fpush a)) = (do
        let t ← ssub cfg.mode (s.get (.int .sp)) 1
        return ⟨[.specifyAddress t, .setValue (opVal s a), .set (.int .sp) t], []⟩) := rfl
      rw [this, hsub] at hx
      cases hx
    | _ => cases hs2

theorem dataStep_of_isa {s s' : State} {i : Instr} (hm : cfg.mode = .wrap) (hw : i.wf cfg = true)
    (hl : ∀ d r r', i ≠ .lea d (.mem (.regReg r r'))) (h : Isa.exec cfg s i = .ok s') : dataStep cfg s i = s' := by
  obtain ⟨x, hx⟩ := exec_of_isa hm hw hl h
  have hf : faultOf s i = false := by
    by_contra hc
    rw [Bool.not_eq_false] at hc
    rw [exec_fault hw hc] at h
    cases h
  have := exec_eq_dataStep hw hf hx ?_ ?_
  · rw [this] at h; cases h; rfl
  · intro a v hst
    by_contra hc
    have : s.mem a = none := by simpa using hc
    rw [exec_bad_store hw hst this] at h
    cases h
  · rintro r rfl hc
    change (match skipSpace s.inp with | [] => _ | b :: rest => _) = _ at h
    rw [hc] at h
    cases h

/-- The memory as seen by the entry after some others. -/
theorem win_ahead {X : Ctx} {T : State → Nat → Rat → Nat → List Word → Prop} {m0 : Nat} {mem0 : Word → Option Word}
    (hm : cfg.mode = .wrap) (hp : ∀ i ∈ X.prog, i.wf cfg = true)
    (hl : ∀ i ∈ X.prog, ∀ d r r', i ≠ .lea d (.mem (.regReg r r'))) (hw : WmOK X.wm m0) :
    ∀ {pre : List Entry} {e : Entry} {post : List Entry} {S : State} {m : Nat} {b : Rat} {n : Nat} {ps : List Word} {t : State},
    Win cfg X T (pre ++ e :: post) S m b n ps → MemOK X.wm mem0 S m → m0 ≤ m → e.st ≠ .retiring →
    ahead cfg S (pre.map (·.instr)) = some t → MemOK X.wm mem0 t e.maxW ∧ m0 ≤ e.maxW
  | [], e, post, S, m, b, n, ps, t, h, hmem, hle, hst, ht => by
    cases ht
    have := h.1.le_maxW
    exact ⟨h.1.memOK_self hst hw.sorted hmem, by omega⟩
  | p :: pre, e, post, S, m, b, n, ps, t, h, hmem, hle, hst, ht => by
    have hwf := h.1.wf hp
    have hle' := h.1.le_maxW
    have hl' : ∀ d r r', p.instr ≠ .lea d (.mem (.regReg r r')) := by
      rw [h.1.instr]
      unfold fetchAt
      rw [List.getD_eq_getElem?_getD]
      cases hg : X.prog[S.pc.toNat]? with
      | none => intro _ _ _; simp
      | some i => exact hl i (List.mem_of_getElem? hg)
    rw [List.map_cons] at ht
    unfold ahead at ht
    cases hx : Isa.exec cfg S p.instr with
    | error f => rw [hx] at ht; cases ht
    | ok s' =>
      rw [hx] at ht
      have hd := dataStep_of_isa hm hwf hl' hx
      have hn : { s' with pc := guess S.pc p.instr } = specNext cfg S p.instr := by
        unfold specNext
        rw [hd]
        rfl
      simp only at ht
      rw [hn] at ht
      exact win_ahead hm hp hl hw h.2.2 (h.1.memOK hwf hw.sorted hmem) (by omega) hst ht

end
end T86
