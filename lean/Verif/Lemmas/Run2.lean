import Verif.Model.Run
import Verif.Props.Live

/-! # Lemmas: the command `t86-cli FILE` -/

namespace T86
namespace Run
open Isa

variable {cfg : Cfg} {prog : List Instr} {data : List Word} {inp : List (BitVec 8)}

theorem stopCode_le (dbg : List Word) (s : State) (i : Instr) : stopCode dbg s i ≤ 3 := by
  unfold stopCode
  repeat' split
  all_goals simp

theorem run_succ {n : Nat} {c : Cpu} (h : c.halted = false) : Cpu.run cfg (n + 1) c = (Cpu.tick cfg c >>= Cpu.run cfg n) := by
  conv => lhs; unfold Cpu.run
  rw [if_neg (by simp [h])]

theorem run_one {c : Cpu} (h : c.halted = false) : Cpu.run cfg 1 c = Cpu.tick cfg c := by
  rw [run_succ (n := 0) h]
  cases Cpu.tick cfg c <;> rfl

theorem run_halted {n : Nat} {c : Cpu} (h : c.halted = true) : Cpu.run cfg n c = .ok c := by
  cases n with
  | zero => rfl
  | succ n => unfold Cpu.run; rw [if_pos h]

/-- Without a debugger only the interrupts 1, 2 and 3 occur. -/
theorem intr_le (hs : Setup cfg prog data) : ∀ {n : Nat} {c : Cpu}, Cpu.run cfg n (Cpu.init cfg prog data inp) = .ok c → c.intr ≤ 3
  | 0, c, h => by cases h; exact Nat.zero_le _
  | n + 1, c, h => by
    rw [run_add, bind_ok_iff] at h
    obtain ⟨c1, h1, h2⟩ := h
    have ih := intr_le hs h1
    cases hh : c1.halted with
    | true =>
      rw [run_halted hh] at h2
      cases h2
      exact ih
    | false =>
      rw [run_one hh] at h2
      have hr := run_init (inp := inp) hs n
      rw [h1] at hr
      obtain ⟨s, r⟩ := hr
      have hsh : s.halted = false := r.inv.halted ▸ hh
      have ht := tick_sat r.inv hsh (r.run hsh)
      rw [h2] at ht
      obtain ⟨_, _, S', k, _, _, he⟩ := ht
      cases he with
      | go _ _ _ g => omega
      | halt _ _ _ g => omega
      | single _ _ _ g => omega
      | stop _ _ _ _ _ g => rw [g]; exact stopCode_le _ _ _

/-- An instruction that is retired prints what it prints on the sequential machine, unless that machine fails. -/
theorem retireInstr_out {c c1 : Cpu} {S : State} {e : Entry} {es : List Entry} (h : Inv cfg c S) (hes : c.entries = e :: es)
    (hst : e.st = .retiring) (h1 : Cpu.retireInstr cfg { c with entries := es } e = .ok c1) {f : Fault}
    (hf : step cfg c.prog S = .error f) : c1.out = S.out := by
  obtain ⟨own, n, m, b, h⟩ := h
  have he := h.head hes
  have hin : instrAt c.prog S.pc = e.instr := by rw [he.instr, fetchAt_eq]
  have hr := retireInstr_sat h hes hst
  rw [h1] at hr
  obtain ⟨⟨m', h2⟩, _⟩ := hr
  rw [h2.out]
  unfold step at hf
  rw [hin] at hf
  cases hx : e.instr.exec cfg (valsOf S e.instr) with
  | error f => rw [dataStep_error hx]; rfl
  | ok x =>
    rw [dataStep_ok hx]
    have io : ∀ (l : List Act) (s : State × Option Word), (l.foldl actStep s).1.out = s.1.out := fun l s => foldl_actStep_io.1
    unfold retireFx
    split
    · exact io _ _
    · exact io _ _
    · next hi => rw [hi] at hf; cases hf
    · next hi => rw [hi] at hf; cases hf
    · split
      · exact io _ _
      · exact io _ _
    · exact io _ _

theorem retireOut_exn : ∀ (fuel : Nat) {c : Cpu} {S : State} {f : Exn}, Inv cfg c S → S.halted = false →
    Cpu.retireLoop cfg fuel c = .error (.exn f) →
    ∃ k S', runs cfg c.prog k S S' ∧ S'.halted = false ∧ step cfg c.prog S' = .error (.exn .outOfRange) ∧
      retireOut cfg fuel c = S'.out
  | 0, c, S, f, h, hh, hr => by cases hr
  | fuel + 1, c, S, f, h, hh, hr => by
    unfold Cpu.retireLoop at hr
    unfold retireOut
    split at hr
    · cases hr
    · next e es hes =>
      rw [hes]
      dsimp only
      split at hr
      case isFalse hst => cases hr
      case isTrue hst =>
        rw [if_pos hst]
        have hp := retirePass_sat h hes hst
        have heq : (do
            let c ← Cpu.retireEntry cfg { c with entries := es } e
            let regs ← Cpu.dropTables c.regs e
            Cpu.retireLoop cfg fuel { c with regs := regs }) = (Cpu.retirePass cfg c e es >>= Cpu.retireLoop cfg fuel) := by
          unfold Cpu.retirePass
          rw [bind_assoc]
          congr 1
          funext c1
          rw [bind_assoc]
          rfl
        rw [heq] at hr
        change ∃ k S', _ ∧ _ ∧ _ ∧ (match Cpu.retireInstr cfg { c with entries := es } e with
          | .error _ => c.out
          | .ok c1 => match Cpu.retirePass cfg c e es with
            | .error _ => c1.out
            | .ok c2 => retireOut cfg fuel c2) = _
        have hout : c.out = S.out := by obtain ⟨_, _, _, _, h⟩ := h; exact h.out
        cases hpe : Cpu.retirePass cfg c e es with
        | error f' =>
          rw [hpe] at hp hr
          cases hr
          have hst' : step cfg c.prog S = .error (.exn .outOfRange) := by
            rcases hp with ⟨hf, _⟩ | ⟨_, hf⟩
            · cases hf
            · exact hf
          refine ⟨0, S, rfl, hh, hst', ?_⟩
          cases hri : Cpu.retireInstr cfg { c with entries := es } e with
          | error _ => exact hout
          | ok c1 => exact retireInstr_out h hes hst hri hst'
        | ok c1 =>
          rw [hpe] at hp hr
          obtain ⟨S1, P⟩ := hp
          have hok : ∃ c2, Cpu.retireInstr cfg { c with entries := es } e = .ok c2 := by
            unfold Cpu.retirePass Cpu.retireEntry at hpe
            cases hri : Cpu.retireInstr cfg { c with entries := es } e with
            | error _ => rw [hri] at hpe; cases hpe
            | ok c2 => exact ⟨c2, rfl⟩
          obtain ⟨c2, hc2⟩ := hok
          rw [hc2]
          rw [ok_bind] at hr
          by_cases hi : instrAt c.prog S.pc = .halt
          · rw [retireLoop_quiet (P.quiet (Or.inr (Or.inr hi))).entries] at hr
            cases hr
          · have hnh : S1.halted = false := by
              rw [exec_halted (i := instrAt c.prog S.pc) P.step hi]; exact hh
            obtain ⟨k, S', h1, h2, h3, h4⟩ := retireOut_exn fuel P.inv hnh hr
            rw [P.prog] at h1 h3
            exact ⟨k + 1, S', ⟨hh, S1, P.step, h1⟩, h2, h3, h4⟩

/-- A tick that fails has printed what the sequential machine prints until it fails. -/
theorem tickOut_exn {c : Cpu} {S : State} {f : Exn} (h : Inv cfg c S) (hh : S.halted = false)
    (hr : Cpu.tick cfg c = .error (.exn f)) :
    ∃ k S', runs cfg c.prog k S S' ∧ S'.halted = false ∧ step cfg c.prog S' = .error (.exn .outOfRange) ∧
      tickOut cfg c = S'.out := by
  have hret := tickRetire_sat h hh
  unfold Cpu.tick at hr
  cases ht : Cpu.tickRetire cfg c with
  | ok c1 =>
    exfalso
    rw [ht] at hr hret
    obtain ⟨S', h1, _⟩ := hret
    rw [ok_bind] at hr
    split at hr
    · cases hr
    · dsimp only at hr
      split at hr
      · cases hr
      · have h2 : Inv cfg (Cpu.stepInterrupt c1) S' := by
          unfold Cpu.stepInterrupt
          split
          · exact h1.setIntr _ _
          · exact h1
        have := tickFront_sat h2
        rw [hr] at this
        cases this.1
  | error f' =>
    rw [ht] at hr
    cases hr
    obtain ⟨own, n, m, b, h⟩ := h
    have he := h.tickStart.exec
    unfold Cpu.tickRetire Cpu.executeAndRetire at ht
    unfold tickOut
    dsimp only at ht he
    cases hx : Cpu.execLoop cfg (c.regs, c.wm.removeFinished c.ram.tick) c.freeAlus c.entries with
    | error f' =>
      rw [hx] at ht he
      cases ht
      cases he.1
    | ok x =>
      rw [hx] at ht he
      exact retireOut_exn x.1.length ⟨own, n, m, b, he.1⟩ hh ht

/-- The loop in terms of ticks. -/
theorem loop_cases : ∀ (n : Nat) {c : Cpu}, c.halted = false →
    match loop cfg n c with
    | .running out => ∃ c', Cpu.run cfg n c = .ok c' ∧ c'.halted = false ∧ out = c'.out
    | .exited k out => k = 0 ∧ ∃ m c', Cpu.run cfg m c = .ok c' ∧ c'.halted = true ∧ out = c'.out
    | .failed out => ∃ m c' e, Cpu.run cfg m c = .ok c' ∧ c'.halted = false ∧ out = tickOut cfg c' ∧ Cpu.tick cfg c' = .error (.exn e)
    | .aborted => ∃ m, Cpu.run cfg m c = .error .abort ∨ ∃ c', Cpu.run cfg m c = .ok c' ∧ 3 < c'.intr
    | .undefined => ∃ m, Cpu.run cfg m c = .error .ub
  | 0, c, h => ⟨c, rfl, h, rfl⟩
  | n + 1, c, h => by
    unfold loop
    cases ht : Cpu.tick cfg c with
    | error f =>
      cases f with
      | ub => exact ⟨1, by rw [run_one h, ht]⟩
      | abort => exact ⟨1, Or.inl (by rw [run_one h, ht])⟩
      | exn e => exact ⟨0, c, e, rfl, h, rfl, ht⟩
    | ok c1 =>
      dsimp only
      cases hh : c1.halted with
      | true => exact ⟨rfl, 1, c1, by rw [run_one h, ht], hh, rfl⟩
      | false =>
        have up : ∀ m, Cpu.run cfg (m + 1) c = Cpu.run cfg m c1 := fun m => by rw [run_succ h, ht]; rfl
        rw [if_neg (by simp)]
        by_cases hi : c1.intr ≤ 3
        · rw [if_pos hi]
          have ih := loop_cases n hh
          split at ih
          · next h0 => simpa only [up] using ih
          · next h0 => obtain ⟨h1, m, h2⟩ := ih; exact ⟨h1, m + 1, by simpa only [up] using h2⟩
          · next h0 => obtain ⟨m, c', e, h2⟩ := ih; exact ⟨m + 1, c', e, by simpa only [up] using h2⟩
          · next h0 => obtain ⟨m, h2⟩ := ih; exact ⟨m + 1, by simpa only [up] using h2⟩
          · next h0 => obtain ⟨m, h2⟩ := ih; exact ⟨m + 1, by simpa only [up] using h2⟩
        · rw [if_neg hi]
          exact ⟨1, Or.inr ⟨c1, by rw [run_one h, ht], by omega⟩⟩

/-- A run that halts ends the loop. -/
theorem loop_halts : ∀ (t : Nat) {c c' : Cpu}, c.halted = false → (∀ m d, Cpu.run cfg m c = .ok d → d.intr ≤ 3) →
    Cpu.run cfg t c = .ok c' → c'.halted = true → ∀ n, t ≤ n → loop cfg n c = .exited 0 c'.out
  | 0, c, c', h, _, hr, hh, _, _ => by cases hr; rw [h] at hh; cases hh
  | t + 1, c, c', h, hi, hr, hh, n, hn => by
    obtain ⟨n, rfl⟩ : ∃ k, n = k + 1 := ⟨n - 1, by omega⟩
    rw [run_succ h, bind_ok_iff] at hr
    obtain ⟨c1, h1, h2⟩ := hr
    unfold loop
    rw [h1]
    dsimp only
    cases hh1 : c1.halted with
    | true =>
      rw [run_halted hh1] at h2
      cases h2
      rfl
    | false =>
      have up : ∀ m, Cpu.run cfg (m + 1) c = Cpu.run cfg m c1 := fun m => by rw [run_succ h, h1]; rfl
      rw [if_neg (by simp), if_pos (hi 1 c1 (by rw [run_one h, h1]))]
      exact loop_halts t hh1 (fun m d hd => hi (m + 1) d ((up m).trans hd)) h2 hh n (by omega)

/-- A run with undefined behaviour. -/
theorem loop_ub : ∀ (t : Nat) {c : Cpu}, c.halted = false → (∀ m d, Cpu.run cfg m c = .ok d → d.intr ≤ 3) →
    Cpu.run cfg t c = .error .ub → ∀ n, t ≤ n → loop cfg n c = .undefined
  | 0, c, h, _, hr, _, _ => by cases hr
  | t + 1, c, h, hi, hr, n, hn => by
    obtain ⟨n, rfl⟩ : ∃ k, n = k + 1 := ⟨n - 1, by omega⟩
    unfold loop
    cases h1 : Cpu.tick cfg c with
    | error f =>
      rw [run_succ h, h1] at hr
      cases hr
      rfl
    | ok c1 =>
      have up : ∀ m, Cpu.run cfg (m + 1) c = Cpu.run cfg m c1 := fun m => by rw [run_succ h, h1]; rfl
      rw [up] at hr
      dsimp only
      cases hh1 : c1.halted with
      | true => rw [run_halted hh1] at hr; cases hr
      | false =>
        rw [if_neg (by simp), if_pos (hi 1 c1 (by rw [run_one h, h1]))]
        exact loop_ub t hh1 (fun m d hd => hi (m + 1) d ((up m).trans hd)) hr n (by omega)

end Run
end T86
