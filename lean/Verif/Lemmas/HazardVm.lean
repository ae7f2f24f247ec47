import Verif.Lemmas.HazardTick
import Verif.Lemmas.Session

/-! Undefined behaviour while the processor is being debugged: only the states before the next stop matter. -/

set_option linter.unusedSimpArgs false
set_option linter.unusedVariables false

namespace T86
open Isa

section
variable {cfg : Cfg}

/-- `H` holds if there is a hazardous state before the next stop. -/
def Before (cfg : Cfg) (prog : List Instr) (dbg : List Word) (trap : Bool) (H : Prop) (S : State) : Prop :=
  ∀ k S', passes cfg prog dbg k S S' → (trap = true → k = 0) → S'.halted = false → Hazard cfg prog S' → H

/-- While no instruction is in flight, no record is. -/
theorem Inv.quiet_good {H : Prop} {c : Cpu} {S : State} (h : Inv cfg c S) (hq : c.entries = []) : c.wm.Good H := by
  obtain ⟨own, n, m, b, h⟩ := h
  intro w hw hr
  obtain ⟨j, e, h1, _⟩ := h.at w hw hr
  rw [hq] at h1
  cases h1

theorem retireLoop_before {H : Prop} : ∀ (fuel : Nat) {c : Cpu} {S : State}, Inv cfg c S → c.intr = 0 → S.halted = false →
    c.wm.Good H → Before cfg c.prog c.dbg c.trap H S → Fine H (Cpu.retireLoop cfg fuel c)
  | 0, c, S, h, hi, hh, hg, hz => hg
  | fuel + 1, c, S, h, hi, hh, hg, hz => by
    unfold Cpu.retireLoop
    split
    · exact hg
    · next e es hes =>
      split
      case isFalse hst => exact hg
      case isTrue hst =>
        have hp := retirePass_sat h hes hst
        have hq := retirePass_good h hes hst hg (hz 0 S rfl (fun _ => rfl) hh)
        have heq : (do
            let c ← Cpu.retireEntry cfg { c with entries := es } e
            let regs ← Cpu.dropTables c.regs e
            Cpu.retireLoop cfg fuel { c with regs := regs }) = (Cpu.retirePass cfg c e es >>= Cpu.retireLoop cfg fuel) := by
          unfold Cpu.retirePass
          rw [bind_assoc]
          congr 1
          funext c1
          rw [bind_assoc]
          rfl
        rw [heq]
        revert hp hq
        cases hpe : Cpu.retirePass cfg c e es with
        | error f => exact fun _ h => h
        | ok c1 =>
          rintro ⟨S1, P⟩ hq
          rw [ok_bind]
          by_cases hs : c.trap = true ∨ c1.intr ≠ 0 ∨ instrAt c.prog S.pc = .halt
          · rw [retireLoop_quiet (P.quiet hs).entries]
            exact hq
          · simp only [not_or, Bool.not_eq_true, not_not] at hs
            obtain ⟨ht, hz1, hnhalt⟩ := hs
            have hsc : stopCode c.dbg S (instrAt c.prog S.pc) = 0 := by rw [← P.intr hi]; exact hz1
            have hdbg : c1.dbg = c.dbg := by rw [P.dbg, stopCode_zero hsc]; rfl
            have one : passes cfg c.prog c.dbg 1 S S1 := ⟨hh, hsc, S1, P.step, rfl⟩
            have hnh : S1.halted = false := by
              rw [exec_halted (i := instrAt c.prog S.pc) P.step hnhalt]; exact hh
            refine retireLoop_before fuel P.inv hz1 hnh hq ?_
            rw [P.prog, hdbg, P.trap]
            exact fun k S' hk hk' => hz (1 + k) S' (passes_append one hk) (fun ht' => absurd ht' (by rw [ht]; simp))

theorem tickRetire_before {H : Prop} {c : Cpu} {S : State} (hm : cfg.mode = .wrap) (h : Inv cfg c S) (hh : S.halted = false)
    (hg : c.wm.Good H) (hz : Before cfg c.prog c.dbg c.trap H S) : Fine H (Cpu.tickRetire cfg c) := by
  obtain ⟨own, n, m, b, h⟩ := h
  unfold Cpu.tickRetire Cpu.executeAndRetire
  have e1 := h.tickStart.exec
  have e2 := h.tickStart.exec_good hm (good_removeFinished hg) (hz 0 S rfl (fun _ => rfl) hh)
  refine Sat.bind ((e1.and e2).mono (fun _ h => h) fun _ h => h.2) ?_
  rintro x ⟨⟨h1, h2⟩, e2⟩
  exact retireLoop_before _ ⟨own, n, m, b, h1⟩ rfl hh e2 hz

theorem tick_before {H : Prop} {c : Cpu} {S : State} (hm : cfg.mode = .wrap) (h : Inv cfg c S) (hh : S.halted = false) (hs : c.stepped = false)
    (hg : c.wm.Good H) (hz : Before cfg c.prog c.dbg c.trap H S) : Fine H (Cpu.tick cfg c) := by
  unfold Cpu.tick
  refine Sat.bind (((tickRetire_sat h hh).and (tickRetire_before hm h hh hg hz)).mono (fun _ h => h) fun _ h => h.2) ?_
  rintro c1 ⟨⟨S', h1, hp, ht, hl, hk⟩, g1⟩
  have hhal := h1.halted
  dsimp only
  split
  · exact g1
  · next hc =>
    have hsi : (Cpu.stepInterrupt c1).wm = c1.wm := by
      unfold Cpu.stepInterrupt
      repeat' split
      all_goals rfl
    split
    · change (Cpu.stepInterrupt c1).wm.Good H
      rw [hsi]; exact g1
    · next hni =>
      have hS : S'.halted = false := by rw [← hhal]; simpa using hc
      have hr : ∃ k, passes cfg c.prog c.dbg k S S' ∧ (c.trap = true → k = 0) := by
        rcases hk with ⟨k, g⟩ | ⟨k, S1, g⟩
        · refine ⟨k, g.passes, fun htr => ?_⟩
          have := g.stepped
          rw [hs, htr] at this
          by_contra hk0
          have hst : c1.stepped = true := by rw [this]; simp [hk0]
          apply hni
          unfold Cpu.stepInterrupt
          rw [if_pos hst]
          simp only
          split <;> simp_all
        · exfalso
          apply hni
          unfold Cpu.stepInterrupt
          have := g.stop
          split
          · simp only [if_neg this]; exact this
          · exact this
      obtain ⟨k, hr, hr2⟩ := hr
      refine tickFront_good (S := S') hm ?_ (by rw [hsi]; exact g1) ?_
      · unfold Cpu.stepInterrupt
        split
        · split
          · exact h1.setIntr _ _
          · exact h1.setIntr _ c1.intr
        · exact h1
      · have : (Cpu.stepInterrupt c1).prog = c1.prog := by
          unfold Cpu.stepInterrupt
          repeat' split
          all_goals rfl
        rw [this, hp]
        exact hz k S' hr hr2 hS

end
end T86
