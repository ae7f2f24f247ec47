import Verif.Lemmas.RetireInstr

/-! The retirement loop. -/

set_option linter.unusedSimpArgs false
set_option linter.unusedVariables false

namespace T86
open Isa

section
variable {cfg : Cfg}

theorem fetchAt_eq (prog : List Instr) (pc : Word) : fetchAt prog pc = instrAt prog pc := by
  unfold fetchAt instrAt
  rw [List.getD_eq_getElem?_getD]

/-- Errors of a step of the sequential machine. -/
def StepErr (cfg : Cfg) (prog : List Instr) (S : State) (f : Fault) : Prop :=
  HostUb cfg prog f ∨ (f = .exn .outOfRange ∧ Isa.step cfg prog S = .error (.exn .outOfRange))

/-- The conclusion about one pass of the retirement loop. -/
structure Pass (cfg : Cfg) (c c' : Cpu) (S S' : State) (es : List Entry) : Prop where
  step : Isa.step cfg c.prog S = .ok S'
  inv : Inv cfg c' S'
  prog : c'.prog = c.prog
  trap : c'.trap = c.trap
  stepped : c'.stepped = (c.stepped || c.trap)
  retired : c'.retired = c.retired + 1
  dbg : c'.dbg = hitDbg c.dbg ((writeAddr S (instrAt c.prog S.pc)).bind (watchHit c.dbg))
  intr : c.intr = 0 → c'.intr = stopCode c.dbg S (instrAt c.prog S.pc)
  quiet : c.trap = true ∨ c'.intr ≠ 0 ∨ instrAt c.prog S.pc = .halt → Quiet c'
  rest : (c'.entries = es ∧ c'.fetch = c.fetch ∧ c'.decode = c.decode ∧ c'.spc = c.spc ∧ S'.pc = predict S.pc (fetchAt c.prog S.pc)) ∨ Quiet c'

/-- One pass of the loop. -/
def Cpu.retirePass (cfg : Cfg) (c : Cpu) (e : Entry) (es : List Entry) : Res Cpu := do
  let c ← Cpu.retireEntry cfg { c with entries := es } e
  let regs ← Cpu.dropTables c.regs e
  return { c with regs := regs }

/-- The end of a pass. -/
theorem drop_sat {c : Cpu} {S : State} {own : Nat → Nat × Nat} {n m : Nat} {b : Rat} {e : Entry}
    (h : Inv0 cfg c S (e.rrat ++ e.wrat) own n m b) :
    ∃ regs', Cpu.dropTables c.regs e = .ok regs' ∧ Inv cfg { c with regs := regs' } S := by
  have hs : SubsOK cfg c.regs (e.rrat ++ e.wrat ++ (c.rat ++ tables c.entries)) := h.subs.perm List.perm_append_comm
  obtain ⟨r, h1, h2, h3⟩ := dropTables_ok hs
  refine ⟨r, h1, own, n, m, b, h.wf, ?_, h.base.congr h3, ?_, ?_, h.wm, h.ram, h.out, h.inp, h.halted, h.alus, h.cap⟩
  · exact Win.frame (X := ⟨c.prog, c.regs, c.wm, own⟩) (X' := ⟨c.prog, r, c.wm, own⟩) rfl (fun _ _ _ _ _ h => h) h.win
      (fun _ _ _ _ p _ => ⟨h3 p, rfl⟩) (fun _ _ _ _ => ⟨rfl, Iff.rfl⟩)
  · intro he
    obtain ⟨p, h4, h0, h5⟩ := h.pc he
    exact ⟨p, h4, h0, h5.congr (h3 p)⟩
  · rw [List.append_nil]; exact h2

theorem Inv0.setRetired {c : Cpu} {S : State} {extra : List Nat} {own : Nat → Nat × Nat} {n m : Nat} {b : Rat}
    (h : Inv0 cfg c S extra own n m b) (s : Bool) (k : Nat) :
    Inv0 cfg { c with stepped := s, retired := k } S extra own n m b :=
  ⟨h.wf, h.win, h.base, h.pc, h.subs, h.wm, h.ram, h.out, h.inp, h.halted, h.alus, h.cap⟩

theorem retirePass_sat {c : Cpu} {S : State} {e : Entry} {es : List Entry} (h : Inv cfg c S) (hes : c.entries = e :: es)
    (hst : e.st = .retiring) :
    Sat (Cpu.retirePass cfg c e es) (fun c' => ∃ S', Pass cfg c c' S S' es) (StepErr cfg c.prog S) := by
  obtain ⟨own, n, m, b, h⟩ := h
  have he := h.head hes
  have hwf := he.wf h.wf
  have hin : instrAt c.prog S.pc = e.instr := by rw [he.instr, fetchAt_eq]
  have hstep : Isa.step cfg c.prog S = Isa.exec cfg S e.instr := by unfold Isa.step; rw [hin]
  have hops := he.ops
  unfold OpsOK at hops
  rw [if_pos hst] at hops
  obtain ⟨x, hx⟩ := he.done hst
  unfold Cpu.retirePass Cpu.retireEntry
  have hr := retireInstr_sat h hes hst
  revert hr
  cases hri : Cpu.retireInstr cfg { c with entries := es } e with
  | error f =>
    rintro (hf | ⟨hf, hf2⟩)
    · exact Or.inl hf
    · exact Or.inr ⟨hf, hstep.trans hf2⟩
  | ok c1 =>
    rintro ⟨⟨m', h1⟩, hpc, hfx, hstore, hget, hnext⟩
    rw [ok_bind]
    by_cases hexc : e.exc = true
    · rw [if_pos hexc]
      refine Or.inr ⟨rfl, hstep.trans (exec_fault hwf ?_)⟩
      rw [← hops.1]; exact hexc
    rw [if_neg hexc]
    have hfault : faultOf S e.instr = false := by rw [← hops.1]; simpa using hexc
    have hex : Isa.step cfg c.prog S = .ok (dataStep cfg S e.instr) :=
      hstep.trans (exec_eq_dataStep hwf hfault hx hstore hget)
    have hsub : ∀ p ∈ e.wrat, p ∈ e.rrat ++ e.wrat := fun p hp => by simp [hp]
    obtain ⟨r, u1, u2, u3⟩ := (h1.rpre hsub hpc).unroll
    -- the three ways to go on
    by_cases ht : c1.trap = true
    · rw [if_pos ht, u1, ok_bind, pure_ok, ok_bind]
      have h2 := u2.setRetired (s := true) (k := c1.retired + 1)
      obtain ⟨r', d1, d2⟩ := drop_sat h2
      change Sat (Cpu.dropTables r e >>= _) _ _
      change Cpu.dropTables r e = _ at d1
      rw [d1]
      have htr : c.trap = true := by rw [← hfx.trap]; exact ht
      refine ⟨_, ⟨hex, d2, hfx.prog, hfx.trap, ?_, ?_, ?_, ?_, fun _ => ⟨rfl, rfl, rfl, rfl⟩, Or.inr ⟨rfl, rfl, rfl, rfl⟩⟩⟩
      · rw [htr]; simp
      · change c1.retired + 1 = _; rw [hfx.retired]
      · rw [hin]; exact hfx.dbg
      · rw [hin]; exact hfx.intr
    rw [if_neg ht]
    have htr : c.trap = false := by rw [← hfx.trap]; simpa using ht
    by_cases hi : c1.intr ≠ 0
    · rw [if_pos hi, u1, ok_bind, pure_ok, ok_bind]
      have h2 := u2.setRetired (s := c1.stepped) (k := c1.retired + 1)
      obtain ⟨r', d1, d2⟩ := drop_sat h2
      change Sat (Cpu.dropTables r e >>= _) _ _
      change Cpu.dropTables r e = _ at d1
      rw [d1]
      refine ⟨_, ⟨hex, d2, hfx.prog, hfx.trap, ?_, ?_, ?_, ?_, fun _ => ⟨rfl, rfl, rfl, rfl⟩, Or.inr ⟨rfl, rfl, rfl, rfl⟩⟩⟩
      · change c1.stepped = _; rw [htr, hfx.stepped]; simp
      · change c1.retired + 1 = _; rw [hfx.retired]
      · rw [hin]; exact hfx.dbg
      · rw [hin]; exact hfx.intr
    rw [if_neg hi, pure_ok, ok_bind]
    have h2 := h1.setRetired (s := c1.stepped) (k := c1.retired + 1)
    obtain ⟨r', d1, d2⟩ := drop_sat h2
    change Cpu.dropTables c1.regs e = _ at d1
    simp only
    rw [d1]
    have hrest : (c1.entries = es ∧ c1.fetch = c.fetch ∧ c1.decode = c.decode ∧ c1.spc = c.spc ∧
        (dataStep cfg S e.instr).pc = predict S.pc (fetchAt c.prog S.pc)) ∨ Quiet c1 := by
      rcases hnext with hn | hn
      · rcases hfx.rest with ⟨k1, k2, k3, k4⟩ | hq
        · exact Or.inl ⟨k1, k2, k3, k4, hn.trans (by rw [← he.instr])⟩
        · exact Or.inr hq
      · exact Or.inr hn
    refine ⟨_, ⟨hex, d2, hfx.prog, hfx.trap, ?_, ?_, ?_, ?_, ?_, hrest.imp id fun q => ⟨q.1, q.2, q.3, q.4⟩⟩⟩
    · change c1.stepped = _; rw [htr, hfx.stepped]; simp
    · change c1.retired + 1 = _; rw [hfx.retired]
    · rw [hin]; exact hfx.dbg
    · rw [hin]; exact hfx.intr
    · rintro (hq | hq | hq)
      · rw [htr] at hq; cases hq
      · exact absurd hq hi
      · rw [hin] at hq
        obtain ⟨q1, q2, q3, q4⟩ := hfx.quiet (Or.inr hq)
        exact ⟨q1, q2, q3, q4⟩

theorem passes_steps {prog : List Instr} {dbg : List Word} : ∀ {k : Nat} {s s' : State}, passes cfg prog dbg k s s' →
    steps cfg prog k s = .ok s'
  | 0, _, _, h => by cases h; rfl
  | k + 1, s, s', ⟨_, _, t, h1, h2⟩ => by
    unfold steps
    rw [h1]
    exact passes_steps h2

/-- Only HALT halts. -/
theorem exec_halted {S S' : State} {i : Instr} (h : Isa.exec cfg S i = .ok S') (hi : i ≠ .halt) : S'.halted = S.halted := by
  have hst : ∀ {S S' : State} {a v : Word}, S.store a v = .ok S' → S'.halted = S.halted := by
    intro S S' a v h
    unfold State.store at h
    split at h
    · cases h; rfl
    · cases h
  cases i
  case halt => exact absurd rfl hi
  case mov dst v =>
    simp only [Isa.exec] at h
    obtain ⟨x, hx, h⟩ := bind_ok_iff.1 h
    split at h
    · cases h; rfl
    · cases h; rfl
    · obtain ⟨y, hy, h⟩ := bind_ok_iff.1 h
      cases h; exact (show y.halted = S.halted from hst hy)
    · obtain ⟨y, hy, h⟩ := bind_ok_iff.1 h
      cases h; exact (show y.halted = S.halted from hst hy)
    · cases h
  case call a =>
    simp only [Isa.exec] at h
    obtain ⟨x, hx, h⟩ := bind_ok_iff.1 h
    obtain ⟨y, hy, h⟩ := bind_ok_iff.1 h
    cases h; exact (show y.halted = S.halted from hst hy)
  case push a =>
    simp only [Isa.exec] at h
    obtain ⟨x, hx, h⟩ := bind_ok_iff.1 h
    obtain ⟨y, hy, h⟩ := bind_ok_iff.1 h
    cases h; exact (show y.halted = S.halted from hst hy)
  case fpush a =>
    simp only [Isa.exec] at h
    obtain ⟨x, hx, h⟩ := bind_ok_iff.1 h
    obtain ⟨y, hy, h⟩ := bind_ok_iff.1 h
    cases h; exact (show y.halted = S.halted from hst hy)
  case getchar r =>
    simp only [Isa.exec] at h
    split at h
    · cases h
    · cases h; rfl
  case nrw r =>
    simp only [Isa.exec] at h
    split at h
    · cases h; rfl
    · cases h
  case lea d m =>
    simp only [Isa.exec] at h
    split at h
    · cases h; rfl
    · cases h
  case jcc c a =>
    simp only [Isa.exec] at h
    obtain ⟨x, hx, h⟩ := bind_ok_iff.1 h
    cases h
    split <;> rfl
  case loop r a =>
    simp only [Isa.exec] at h
    obtain ⟨x, hx, h⟩ := bind_ok_iff.1 h
    obtain ⟨y, hy, h⟩ := bind_ok_iff.1 h
    cases h
    split <;> rfl
  case nop => cases h; rfl
  case bkpt => cases h; rfl
  case brk => cases h; rfl
  case clf => cases h; rfl
  case putchar => cases h; rfl
  case putnum => cases h; rfl
  case ext => cases h; rfl
  all_goals
    simp only [Isa.exec] at h
    obtain ⟨x, hx, h⟩ := bind_ok_iff.1 h
    first
      | (cases h; rfl)
      | (obtain ⟨y, hy, h⟩ := bind_ok_iff.1 h; cases h; rfl)

theorem stopCode_zero {dbg : List Word} {S : State} {i : Instr} (h : stopCode dbg S i = 0) :
    (writeAddr S i).bind (watchHit dbg) = none := by
  unfold stopCode at h
  split at h
  · cases h
  · cases hw : writeAddr S i with
    | none => rfl
    | some a =>
      rw [hw] at h
      simp only at h
      split at h
      · cases h
      · next hn => simpa using hn

/-- The retirement loop went on to the end of the window or to an instruction that cannot retire yet. -/
structure LoopGo (cfg : Cfg) (c c' : Cpu) (S S' : State) (k : Nat) : Prop where
  passes : passes cfg c.prog c.dbg k S S'
  intr : c'.intr = 0
  dbg : c'.dbg = c.dbg
  retired : c'.retired = c.retired + k
  trap : c.trap = true → k ≤ 1
  stepped : c'.stepped = (c.stepped || (c.trap && k != 0))
  quiet : (c.trap = true ∧ k ≠ 0) ∨ (S'.halted = true ∧ k ≠ 0) → Quiet c'

/-- The retirement loop ended because of an interrupt. -/
structure LoopStop (cfg : Cfg) (c c' : Cpu) (S S' : State) (k : Nat) (S1 : State) : Prop where
  passes : passes cfg c.prog c.dbg k S S1
  run : S1.halted = false
  step : step cfg c.prog S1 = .ok S'
  intr : c'.intr = stopCode c.dbg S1 (instrAt c.prog S1.pc)
  stop : c'.intr ≠ 0
  dbg : c'.dbg = hitDbg c.dbg ((writeAddr S1 (instrAt c.prog S1.pc)).bind (watchHit c.dbg))
  retired : c'.retired = c.retired + (k + 1)
  trap : c.trap = true → k = 0
  stepped : c'.stepped = (c.stepped || c.trap)
  quiet : Quiet c'

/-- The conclusion about the retirement loop. -/
structure LoopOK (cfg : Cfg) (c c' : Cpu) (S : State) (fuel : Nat) : Prop where
  prog : c'.prog = c.prog
  trap : c'.trap = c.trap
  length : c'.entries.length ≤ c.entries.length
  last : c.entries.length ≤ fuel → ∀ e, c'.entries.head? = some e → e.st ≠ .retiring
  ok : ∃ S', Inv cfg c' S' ∧ ((∃ k, LoopGo cfg c c' S S' k) ∨ ∃ k S1, LoopStop cfg c c' S S' k S1)

/-- The sequential machine runs into an access outside of the memory. -/
def RunErr (cfg : Cfg) (prog : List Instr) (dbg : List Word) (trap : Bool) (S : State) (f : Fault) : Prop :=
  HostUb cfg prog f ∨ (f = .exn .outOfRange ∧ ∃ k S1, passes cfg prog dbg k S S1 ∧ S1.halted = false ∧
    Isa.step cfg prog S1 = .error (.exn .outOfRange) ∧ (trap = true → k = 0))

theorem loopGo_refl {c : Cpu} {S : State} (hi : c.intr = 0) : LoopGo cfg c c S S 0 :=
  ⟨rfl, hi, rfl, rfl, fun _ => Nat.zero_le _, by simp, by simp⟩

theorem retireLoop_quiet {c : Cpu} (h : c.entries = []) : ∀ fuel, Cpu.retireLoop cfg fuel c = .ok c
  | 0 => rfl
  | n + 1 => by unfold Cpu.retireLoop; rw [h]

theorem retireLoop_sat : ∀ (fuel : Nat) {c : Cpu} {S : State}, Inv cfg c S → c.intr = 0 → S.halted = false →
    Sat (Cpu.retireLoop cfg fuel c) (fun c' => LoopOK cfg c c' S fuel) (RunErr cfg c.prog c.dbg c.trap S)
  | 0, c, S, h, hi, hh => ⟨rfl, rfl, Nat.le_refl _, (by
      intro h0 e he
      rw [List.eq_nil_of_length_eq_zero (Nat.le_zero.1 h0)] at he; cases he), S, h, Or.inl ⟨0, loopGo_refl hi⟩⟩
  | fuel + 1, c, S, h, hi, hh => by
    unfold Cpu.retireLoop
    split
    · next hes =>
      exact ⟨rfl, rfl, Nat.le_refl _, (by intro _ e he; rw [hes] at he; cases he), S, h, Or.inl ⟨0, loopGo_refl hi⟩⟩
    · next e es hes =>
      split
      case isFalse hst =>
        refine ⟨rfl, rfl, Nat.le_refl _, ?_, S, h, Or.inl ⟨0, loopGo_refl hi⟩⟩
        intro _ e' he'; rw [hes] at he'; cases he'; exact hst
      case isTrue hst =>
        have hp := retirePass_sat h hes hst
        have heq : (do
            let c ← Cpu.retireEntry cfg { c with entries := es } e
            let regs ← Cpu.dropTables c.regs e
            Cpu.retireLoop cfg fuel { c with regs := regs }) = (Cpu.retirePass cfg c e es >>= Cpu.retireLoop cfg fuel) := by
          unfold Cpu.retirePass
          rw [bind_assoc]
          congr 1
          funext c1
          rw [bind_assoc]
          rfl
        rw [heq]
        revert hp
        cases hpe : Cpu.retirePass cfg c e es with
        | error f =>
          rintro (hf | ⟨hf, hf2⟩)
          · exact Or.inl hf
          · exact Or.inr ⟨hf, 0, S, rfl, hh, hf2, fun _ => rfl⟩
        | ok c1 =>
          rintro ⟨S1, P⟩
          rw [ok_bind]
          have hlen : c1.entries.length ≤ es.length := by
            rcases P.rest with ⟨h, _⟩ | h <;> [rw [h]; rw [h.entries]]
            · exact Nat.le_refl _
            · exact Nat.zero_le _
          have hcl : c.entries.length = es.length + 1 := by rw [hes]; rfl
          by_cases hz : c1.intr = 0
          case neg =>
            have q := P.quiet (Or.inr (Or.inl hz))
            rw [retireLoop_quiet q.entries]
            refine ⟨P.prog, P.trap, by omega, (by intro _ e' he'; rw [q.entries] at he'; cases he'), S1, P.inv, Or.inr ⟨0, S, ?_⟩⟩
            exact ⟨rfl, hh, P.step, P.intr hi, hz, P.dbg, P.retired, fun _ => rfl, P.stepped, q⟩
          have hsc : stopCode c.dbg S (instrAt c.prog S.pc) = 0 := by rw [← P.intr hi]; exact hz
          have hdbg : c1.dbg = c.dbg := by rw [P.dbg, stopCode_zero hsc]; rfl
          have one : passes cfg c.prog c.dbg 1 S S1 := ⟨hh, hsc, S1, P.step, rfl⟩
          by_cases hq : c.trap = true ∨ instrAt c.prog S.pc = .halt
          · have q := P.quiet (by rcases hq with hq | hq <;> simp [hq])
            rw [retireLoop_quiet q.entries]
            refine ⟨P.prog, P.trap, by omega, (by intro _ e' he'; rw [q.entries] at he'; cases he'), S1, P.inv, Or.inl ⟨1, ?_⟩⟩
            exact ⟨one, hz, hdbg, P.retired, fun _ => Nat.le_refl _, by rw [P.stepped]; simp, fun _ => q⟩
          have ht : c.trap = false := by
            cases hc : c.trap
            · rfl
            · exact absurd (Or.inl hc) hq
          have hnh : S1.halted = false := by
            rw [exec_halted (i := instrAt c.prog S.pc) P.step (fun h => hq (Or.inr h))]; exact hh
          have ih := retireLoop_sat fuel P.inv hz hnh
          have ext : ∀ {k T}, passes cfg c1.prog c1.dbg k S1 T → passes cfg c.prog c.dbg (k + 1) S T := by
            intro k T hT
            rw [P.prog, hdbg] at hT
            exact ⟨hh, hsc, S1, P.step, hT⟩
          refine ih.mono ?_ ?_
          · rintro c2 ⟨l1, l2, l3, l4, S2, l5, l6⟩
            refine ⟨l1.trans P.prog, l2.trans P.trap, by omega, fun hf => l4 (by omega), S2, l5, ?_⟩
            rcases l6 with ⟨k, L⟩ | ⟨k, T, L⟩
            · refine Or.inl ⟨k + 1, ext L.passes, L.intr, L.dbg.trans hdbg, ?_, ?_, ?_, ?_⟩
              · rw [L.retired, P.retired]; omega
              · intro h; rw [ht] at h; cases h
              · rw [L.stepped, P.stepped, P.trap, ht]; simp
              · rintro (⟨h, _⟩ | ⟨h, hk⟩)
                · rw [ht] at h; cases h
                · apply L.quiet
                  by_cases hk0 : k = 0
                  · subst hk0
                    have := L.passes
                    cases this
                    rw [hnh] at h; cases h
                  · exact Or.inr ⟨h, hk0⟩
            · refine Or.inr ⟨k + 1, T, ext L.passes, L.run, ?_, ?_, L.stop, ?_, ?_, ?_, ?_, L.quiet⟩
              · rw [← P.prog]; exact L.step
              · rw [← P.prog, ← hdbg]; exact L.intr
              · rw [← P.prog, ← hdbg]; exact L.dbg
              · rw [L.retired, P.retired]; omega
              · intro h; rw [ht] at h; cases h
              · rw [L.stepped, P.stepped, P.trap, ht]; simp
          · rintro f (hf | ⟨hf, k, T, h1, h2, h3, h4⟩)
            · left; rw [← P.prog]; exact hf
            · right
              refine ⟨hf, k + 1, T, ext h1, h2, ?_, ?_⟩
              · rw [← P.prog]; exact h3
              · intro h; rw [ht] at h; cases h

end
end T86
