import Verif.Lemmas.Add

/-! The front end and the whole tick. -/

set_option linter.unusedSimpArgs false
set_option linter.unusedVariables false

namespace T86
open Isa

section
variable {cfg : Cfg}

theorem PredOK.append {pc : Word} {i : Instr} {ps x : List Word} (h : PredOK pc i ps) : PredOK pc i (ps ++ x) := by
  intro d hd
  have := h d hd
  cases ps with
  | nil => cases this
  | cons a l => exact this

theorem dropPred_append {pc : Word} {i : Instr} {ps x : List Word} (h : PredOK pc i ps) :
    dropPred i (ps ++ x) = dropPred i ps ++ x := by
  unfold dropPred
  split
  · next hj =>
    obtain ⟨d, hd⟩ := Option.isSome_iff_exists.1 hj
    have := h d hd
    cases ps with
    | nil => cases this
    | cons a l => rfl
  · rfl

/-- Predictions are added at the end. -/
theorem Win.appendPred {X : Ctx} {T T' : State → Nat → Rat → Nat → List Word → Prop} {x : List Word}
    (hT : ∀ S m b n ps, T S m b n ps → T' S m b n (ps ++ x)) :
    ∀ {es : List Entry} {S : State} {m : Nat} {b : Rat} {n : Nat} {ps : List Word}, Win cfg X T es S m b n ps →
    Win cfg X T' es S m b n (ps ++ x)
  | [], _, _, _, _, _, h => hT _ _ _ _ _ h
  | e :: es, _, _, _, _, _, h => ⟨h.1, h.2.1.append, by
      rw [dropPred_append h.2.1]; exact Win.appendPred hT h.2.2⟩

/-- Fetching the next instruction of the predicted path. -/
theorem Front.fetch {prog : List Instr} {spc : Word} {x : List Word} {spc' : Word}
    (hp : PredOK spc (fetchAt prog spc) x) (hd : dropPred (fetchAt prog spc) x = []) (hs : spc' = predict spc (fetchAt prog spc)) :
    ∀ {fs : List Fetched} {pc : Word} {ps : List Word}, Front prog spc fs pc ps →
    Front prog spc' (fs ++ [⟨fetchAt prog spc, spc + 1⟩]) pc (ps ++ x)
  | [], pc, ps, ⟨h1, h2⟩ => by
    subst h1 h2
    exact ⟨rfl, rfl, hp, hs.symm, hd⟩
  | f :: fs, pc, ps, ⟨h1, h2, h3, h4⟩ => ⟨h1, h2, h3.append, by
      rw [dropPred_append h3]; exact Front.fetch hp hd hs h4⟩

theorem Inv.shiftStage {c : Cpu} {S : State} (h : Inv cfg c S) : Inv cfg (Cpu.shiftStage c) S := by
  obtain ⟨own, n, m, b, h⟩ := h
  refine ⟨own, n, m, b, ?_⟩
  unfold Cpu.shiftStage
  split
  · next hd =>
    refine ⟨h.wf, ?_, h.base, h.pc, h.subs, h.wm, h.ram, h.out, h.inp, h.halted, h.alus, h.cap⟩
    refine Win.frame (X := ⟨c.prog, c.regs, c.wm, own⟩) (X' := ⟨c.prog, c.regs, c.wm, own⟩) rfl ?_ h.win
      (fun _ _ _ _ _ _ => ⟨rfl, rfl⟩) (fun _ _ _ _ => ⟨rfl, Iff.rfl⟩)
    rintro S' m' b' n' ps' ⟨t1, t2, t3⟩
    refine ⟨t1, t2, ?_⟩
    rw [hd] at t3
    simpa using t3
  · exact h

theorem Inv.fetchStage {c : Cpu} {S : State} (h : Inv cfg c S) : Inv cfg (Cpu.fetchStage c) S := by
  obtain ⟨own, n, m, b, h⟩ := h
  refine ⟨own, n, m, b, ?_⟩
  unfold Cpu.fetchStage
  split
  · exact h
  · next hf =>
    dsimp only
    split
    · next d hd =>
      refine ⟨h.wf, ?_, h.base, h.pc, h.subs, h.wm, h.ram, h.out, h.inp, h.halted, h.alus, h.cap⟩
      refine Win.appendPred (T := Tail c) ?_ h.win
      rintro S' m' b' n' ps' ⟨t1, t2, t3⟩
      refine ⟨t1, t2, ?_⟩
      rw [hf, Option.toList_none, List.append_nil] at t3
      refine Front.fetch ?_ ?_ ?_ t3
      · intro d' hd'; rw [hd] at hd'; cases hd'; rfl
      · unfold dropPred; rw [hd]; rfl
      · unfold predict; rw [hd]
    · next hd =>
      refine ⟨h.wf, ?_, h.base, h.pc, h.subs, h.wm, h.ram, h.out, h.inp, h.halted, h.alus, h.cap⟩
      change Win cfg _ _ c.entries S m b n c.preds
      rw [← List.append_nil c.preds]
      refine Win.appendPred (T := Tail c) ?_ h.win
      rintro S' m' b' n' ps' ⟨t1, t2, t3⟩
      refine ⟨t1, t2, ?_⟩
      rw [hf, Option.toList_none, List.append_nil] at t3
      refine Front.fetch ?_ ?_ ?_ t3
      · intro d' hd'; rw [hd] at hd'; cases hd'
      · unfold dropPred; rw [hd]; rfl
      · unfold predict; rw [hd]

/-- What the front end leaves alone. -/
structure Same (c c' : Cpu) : Prop where
  prog : c'.prog = c.prog
  dbg : c'.dbg = c.dbg
  halted : c'.halted = c.halted
  stepped : c'.stepped = c.stepped
  intr : c'.intr = c.intr
  trap : c'.trap = c.trap
  retired : c'.retired = c.retired

theorem Same.refl (c : Cpu) : Same c c := ⟨rfl, rfl, rfl, rfl, rfl, rfl, rfl⟩

theorem Same.trans {a b c : Cpu} (h : Same a b) (h' : Same b c) : Same a c :=
  ⟨h'.prog.trans h.prog, h'.dbg.trans h.dbg, h'.halted.trans h.halted, h'.stepped.trans h.stepped, h'.intr.trans h.intr,
    h'.trap.trans h.trap, h'.retired.trans h.retired⟩

theorem same_shift (c : Cpu) : Same c (Cpu.shiftStage c) := by
  unfold Cpu.shiftStage; split <;> exact ⟨rfl, rfl, rfl, rfl, rfl, rfl, rfl⟩

theorem same_fetch (c : Cpu) : Same c (Cpu.fetchStage c) := by
  unfold Cpu.fetchStage
  split
  · exact Same.refl c
  · dsimp only
    split <;> exact ⟨rfl, rfl, rfl, rfl, rfl, rfl, rfl⟩

theorem fetchAndStart_sat {c : Cpu} {S : State} (h : Inv cfg c S) :
    Sat (Cpu.fetchAndStart cfg c) (fun c' => Inv cfg c' S ∧ Same c c') (StrictUb cfg) := by
  obtain ⟨own, n, m, b, h⟩ := h
  unfold Cpu.fetchAndStart
  refine Sat.bind (fetchStartLoop_sat (X := ⟨c.prog, c.regs, c.wm, own⟩) (T := Tail c) h.wf h.wm c.entries (fa := c.freeAlus)
    h.win h.base.tbl h.ram (memOK_base h.wm h.ram) (Nat.le_refl _)) ?_
  rintro ⟨es, ram, fa⟩ ⟨h1, h2, h3, h4, h5⟩
  refine ⟨⟨own, n, m, b, h.wf, h1, h.base, ?_, ?_, h.wm, h2, h.out, h.inp, h.halted, ?_, ?_⟩, ⟨rfl, rfl, rfl, rfl, rfl, rfl, rfl⟩⟩
  · intro he
    refine h.pc (List.eq_nil_of_length_eq_zero ?_)
    rw [← h5]
    exact congrArg List.length he
  · change SubsOK cfg c.regs (c.rat ++ tables es ++ [])
    rw [h4]; exact h.subs
  · exact h3.trans h.alus
  · change es.length ≤ _
    rw [h5]; exact h.cap

theorem decodeStage_ok {c : Cpu} {S : State} (h : Inv cfg c S) :
    ∃ c', Cpu.decodeStage cfg c = .ok c' ∧ Inv cfg c' S ∧ Same c c' := by
  unfold Cpu.decodeStage
  split
  · exact ⟨c, rfl, h, Same.refl c⟩
  · next f hd =>
    split
    · next hcap =>
      obtain ⟨c', h1, h2, h3, _⟩ := add_ok h hd hcap
      rw [h1]
      refine ⟨_, rfl, h2, ?_⟩
      rw [h3]
      exact ⟨rfl, rfl, rfl, rfl, rfl, rfl, rfl⟩
    · exact ⟨c, rfl, h, Same.refl c⟩

theorem tickFront_sat {c : Cpu} {S : State} (h : Inv cfg c S) :
    Sat (Cpu.tickFront cfg c) (fun c' => Inv cfg c' S ∧ Same c c') (HostUb cfg c.prog) := by
  unfold Cpu.tickFront
  refine Sat.bind ((fetchAndStart_sat h).mono (fun _ h => h) (hostUb_mode _)) ?_
  rintro c1 ⟨h1, s1⟩
  obtain ⟨c2, e2, h2, s2⟩ := decodeStage_ok h1
  rw [e2]
  exact ⟨h2.shiftStage.fetchStage, ((s1.trans s2).trans (same_shift c2)).trans (same_fetch _)⟩

theorem tickRetire_sat {c : Cpu} {S : State} (h : Inv cfg c S) (hh : S.halted = false) :
    Sat (Cpu.tickRetire cfg c) (fun c' => ∃ S', Inv cfg c' S' ∧ c'.prog = c.prog ∧ c'.trap = c.trap ∧
      (∀ e, c'.entries.head? = some e → e.st ≠ .retiring) ∧
      ((∃ k, LoopGo cfg c c' S S' k) ∨ ∃ k S1, LoopStop cfg c c' S S' k S1))
      (RunErr cfg c.prog c.dbg c.trap S) := by
  obtain ⟨own, n, m, b, h⟩ := h
  unfold Cpu.tickRetire Cpu.executeAndRetire
  refine Sat.bind (h.tickStart.exec.mono (fun _ h => h) (fun f hf => Or.inl hf)) ?_
  rintro x ⟨h1, h2⟩
  refine (retireLoop_sat x.1.length ⟨own, n, m, b, h1⟩ rfl hh).imp ?_
  rintro c' ⟨a1, a2, a3, a4, S', a5, a6⟩
  refine ⟨S', a5, a1, a2, a4 (Nat.le_refl _), ?_⟩
  rcases a6 with ⟨k, g⟩ | ⟨k, S1, g⟩
  · exact Or.inl ⟨k, g.passes, g.intr, g.dbg, g.retired, g.trap, g.stepped, g.quiet⟩
  · exact Or.inr ⟨k, S1, g.passes, g.run, g.step, g.intr, g.stop, g.dbg, g.retired, g.trap, g.stepped, g.quiet⟩

/-- How a tick ends. `k` instructions have retired. -/
inductive TickEnd (cfg : Cfg) (c c' : Cpu) (S S' : State) : Nat → Prop
  /-- Nothing special. -/
  | go {k : Nat} (h : passes cfg c.prog c.dbg k S S') (run : S'.halted = false) (trap : c.trap = true → k = 0)
      (intr : c'.intr = 0) (dbg : c'.dbg = c.dbg) (stepped : c'.stepped = false) : TickEnd cfg c c' S S' k
  /-- The program halted. -/
  | halt {k : Nat} (h : passes cfg c.prog c.dbg k S S') (halt : S'.halted = true) (trap : c.trap = true → k = 1)
      (intr : c'.intr = 0) (dbg : c'.dbg = c.dbg) (quiet : Quiet c') : TickEnd cfg c c' S S' k
  /-- A single step is complete. -/
  | single (h : passes cfg c.prog c.dbg 1 S S') (run : S'.halted = false) (trap : c.trap = true)
      (intr : c'.intr = 1) (dbg : c'.dbg = c.dbg) (stepped : c'.stepped = false) (quiet : Quiet c') : TickEnd cfg c c' S S' 1
  /-- The last instruction caused an interrupt. -/
  | stop {k : Nat} {S1 : State} (h : passes cfg c.prog c.dbg k S S1) (run : S1.halted = false)
      (step : Isa.step cfg c.prog S1 = .ok S') (run' : S'.halted = false) (trap : c.trap = true → k = 0)
      (intr : c'.intr = stopCode c.dbg S1 (instrAt c.prog S1.pc)) (ne : c'.intr ≠ 0)
      (dbg : c'.dbg = hitDbg c.dbg ((writeAddr S1 (instrAt c.prog S1.pc)).bind (watchHit c.dbg)))
      (stepped : c'.stepped = false) (quiet : Quiet c') : TickEnd cfg c c' S S' (k + 1)

structure TickOK (cfg : Cfg) (c c' : Cpu) (S : State) : Prop where
  prog : c'.prog = c.prog
  trap : c'.trap = c.trap
  ok : ∃ S' k, Inv cfg c' S' ∧ c'.retired = c.retired + k ∧ TickEnd cfg c c' S S' k

theorem Inv.halted {c : Cpu} {S : State} (h : Inv cfg c S) : c.halted = S.halted := by
  obtain ⟨_, _, _, _, h⟩ := h; exact h.halted

theorem passes_halted {prog : List Instr} {dbg : List Word} {k : Nat} {S S' : State} (h : passes cfg prog dbg k S S')
    (h0 : S.halted = false) (h1 : S'.halted = true) : k ≠ 0 := by
  rintro rfl
  have h : S' = S := h
  rw [h, h0] at h1
  cases h1

theorem Inv.setIntr {c : Cpu} {S : State} (h : Inv cfg c S) (s : Bool) (i : Nat) :
    Inv cfg { c with stepped := s, intr := i } S := by
  obtain ⟨own, n, m, b, h⟩ := h
  exact ⟨own, n, m, b, h.wf, h.win, h.base, h.pc, h.subs, h.wm, h.ram, h.out, h.inp, h.halted, h.alus, h.cap⟩

theorem stopCode_halt {dbg : List Word} {S : State} : stopCode dbg S .halt = 0 := rfl

/-- A tick of the processor. -/
theorem tick_sat {c : Cpu} {S : State} (h : Inv cfg c S) (hh : S.halted = false) (hs : c.stepped = false) :
    Sat (Cpu.tick cfg c) (fun c' => TickOK cfg c c' S) (RunErr cfg c.prog c.dbg c.trap S) := by
  unfold Cpu.tick
  refine Sat.bind (tickRetire_sat h hh) ?_
  rintro c1 ⟨S', h1, hp, ht, hl, hk⟩
  have hhal := h1.halted
  dsimp only
  split
  · next hc =>
    rw [hhal] at hc
    refine ⟨hp, ht, S', ?_⟩
    rcases hk with ⟨k, g⟩ | ⟨k, S1, g⟩
    · refine ⟨k, h1, g.retired, .halt g.passes hc ?_ g.intr g.dbg ?_⟩
      · intro htr
        have := g.trap htr
        have := passes_halted g.passes hh hc
        omega
      · exact g.quiet (Or.inr ⟨hc, passes_halted g.passes hh hc⟩)
    · exfalso
      have hst := g.step
      by_cases hi : instrAt c.prog S1.pc = .halt
      · have := g.intr
        rw [hi] at this
        exact g.stop this
      · have := exec_halted hst hi
        rw [g.run, hc] at this
        cases this
  · next hc =>
    rw [hhal] at hc
    have hc : S'.halted = false := by simpa using hc
    rcases hk with ⟨k, g⟩ | ⟨k, S1, g⟩
    · have gst := g.stepped
      rw [hs, Bool.false_or] at gst
      cases hst : (c.trap && k != 0) with
      | true =>
        rw [hst] at gst
        rw [Bool.and_eq_true] at hst
        have hk0 : k ≠ 0 := by simpa using hst.2
        have hk1 : k = 1 := by have := g.trap hst.1; omega
        subst hk1
        have e1 : Cpu.stepInterrupt c1 = { c1 with stepped := false, intr := 1 } := by
          unfold Cpu.stepInterrupt; rw [if_pos gst, if_pos g.intr]
        rw [e1]
        obtain ⟨q1, q2, q3, q4⟩ := g.quiet (Or.inl ⟨hst.1, by simp⟩)
        rw [if_pos (by simp)]
        exact ⟨hp, ht, S', 1, h1.setIntr false 1, g.retired,
          .single g.passes hc hst.1 rfl g.dbg rfl ⟨q1, q2, q3, q4⟩⟩
      | false =>
        rw [hst] at gst
        have e1 : Cpu.stepInterrupt c1 = c1 := by
          unfold Cpu.stepInterrupt; rw [gst]; rfl
        rw [e1, if_neg (fun h => h g.intr)]
        have hkt : c.trap = true → k = 0 := by
          intro htr; rw [htr] at hst; simpa using hst
        refine (tickFront_sat h1).mono ?_ ?_
        · rintro c2 ⟨h2, s⟩
          refine ⟨s.prog.trans hp, s.trap.trans ht, S', k, h2, s.retired.trans g.retired, .go g.passes hc hkt
            (s.intr.trans g.intr) (s.dbg.trans g.dbg) (s.stepped.trans gst)⟩
        · intro f hf
          rw [hp] at hf
          exact Or.inl hf
    · have e1 : Cpu.stepInterrupt c1 = { c1 with stepped := false } := by
        unfold Cpu.stepInterrupt
        cases hst : c1.stepped with
        | true => rw [if_pos rfl, if_neg g.stop]
        | false => rw [if_neg (by simp), ← hst]
      rw [e1, if_pos g.stop]
      obtain ⟨q1, q2, q3, q4⟩ := g.quiet
      exact ⟨hp, ht, S', k + 1, h1.setIntr false c1.intr, g.retired,
        .stop g.passes g.run g.step hc g.trap g.intr g.stop g.dbg rfl ⟨q1, q2, q3, q4⟩⟩

end
end T86
