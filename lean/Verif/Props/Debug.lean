import Verif.Lemmas.Resume
import Verif.Props.Sample

/-! # The machine under a debugger (C10, C11, C12, C18, C20, C21)

`Vm.Reach` are the states in which a debugging session can be. `Isa.Shows` says which state of the sequential machine the
debugger sees, `Isa.Outcome` what the sequential machine does when it is resumed (both in `Verif/Spec/Session.lean`). -/

set_option linter.unusedSimpArgs false
set_option linter.unusedVariables false

set_option maxRecDepth 100000

namespace T86
open Isa

section
variable {cfg : Cfg} {gregs gram : Nat} {prog : List Instr} {data : List Word} {inp : List (BitVec 8)}

/-- A session that is at a stop other than at HALT, resumed by CONTINUE or STEP, then given any number of ticks: what has
happened is an outcome of the sequential machine resumed in the state that the debugger saw, and if the machine has
stopped again, it is idle and shows the state reached. -/
theorem resume_outcome (hs : Setup cfg prog data) {vm : Vm} (hr : Vm.Reach cfg gregs gram prog data inp vm) {why : Reason}
    (hp : vm.phase = .stopped why) (hw : why ≠ .halt) {k : Cmd} (hk : k = .cont ∨ k = .step) {n : Nat} {vm' : Vm} {rs : List Reply}
    (h : vm.play cfg gregs gram (.cmd k :: List.replicate n .tick) = .ok (vm', rs)) :
    ∃ s m s', Shows cfg vm.cpu s ∧
      Outcome cfg vm.cpu.prog vm.cpu.dbg (vm.cpu.trap || k = .step) s vm'.phase m s' vm'.cpu.dbg ∧
      (vm'.phase ≠ .failed → vm'.cpu.retired = vm.cpu.retired + m) ∧
      (∀ why', vm'.phase = .stopped why' → Shows cfg vm'.cpu s' ∧ Idle vm'.cpu) := by
  obtain ⟨d, hm⟩ := reach_matches hs hr
  have hpd : d.phase = .stopped why := hm.phase.symm.trans hp
  obtain ⟨hi, p1, p2, p3, p4⟩ := hm.live (by rw [hpd]; simp) (by rw [hpd]; simp)
  obtain ⟨m, s', o, h1, h2, _⟩ := resume_matches hm hp hw hk h
  refine ⟨d.state, m, s', hi.shows (hm.quiet why hpd), ?_, h1, h2⟩
  rw [p1, p2, p3]
  exact o

/-! ## C10 -/

/-- The reason for the stop after stepping over an instruction. -/
def stepReason (dbg : List Word) (s s' : State) (i : Instr) : Reason :=
  if s'.halted then .halt
  else if i = .bkpt then .swBkpt
  else match writeAddr s i with
    | some a => if (watchHit dbg a).isSome then .hwBkpt else .singleStep
    | none => .singleStep

theorem stepReason_zero {dbg : List Word} {s s' : State} {i : Instr} (h : stopCode dbg s i = 0) (hs : s'.halted = false) :
    stepReason dbg s s' i = .singleStep := by
  unfold stopCode at h
  unfold stepReason
  rw [if_neg (by rw [hs]; simp)]
  split at h
  · cases h
  · rename_i hb
    rw [if_neg hb]
    cases hwa : writeAddr s i with
    | none => rfl
    | some a =>
      rw [hwa] at h
      dsimp only at h ⊢
      split at h
      · cases h
      · rename_i hw
        rw [if_neg hw]

/-- C10. Resuming with STEP at any stop other than HALT: either nothing has taken effect yet, or the instruction at IP
accesses memory that does not exist, or the machine has stopped again, exactly one instruction has taken effect, the
pipeline is empty and IP names the next instruction. -/
theorem C10_single_step (hs : Setup cfg prog data) {vm : Vm} (hr : Vm.Reach cfg gregs gram prog data inp vm) {why : Reason}
    (hp : vm.phase = .stopped why) (hw : why ≠ .halt) {n : Nat} {vm' : Vm} {rs : List Reply}
    (h : vm.play cfg gregs gram (.cmd .step :: List.replicate n .tick) = .ok (vm', rs)) :
    ∃ s, Shows cfg vm.cpu s ∧
      ((vm'.phase = .running ∧ vm'.cpu.retired = vm.cpu.retired) ∨
       (vm'.phase = .failed ∧ step cfg vm.cpu.prog s = .error (.exn .outOfRange)) ∨
       (∃ s', step cfg vm.cpu.prog s = .ok s' ∧ Shows cfg vm'.cpu s' ∧ Idle vm'.cpu ∧ vm'.cpu.retired = vm.cpu.retired + 1 ∧
         vm'.phase = .stopped (stepReason vm.cpu.dbg s s' (instrAt vm.cpu.prog s.pc)))) := by
  obtain ⟨s, m, s', h1, h2, h3, h4⟩ := resume_outcome hs hr hp hw (Or.inr rfl) h
  refine ⟨s, h1, ?_⟩
  have ht : (vm.cpu.trap || decide (Cmd.step = Cmd.step)) = true := by simp
  generalize hph : vm'.phase = p at h2 h3 h4 ⊢
  generalize vm'.cpu.dbg = dbg' at h2
  cases h2 with
  | running g1 g2 g3 =>
    rw [g3 ht] at h3
    exact Or.inl ⟨rfl, h3 (by simp)⟩
  | halt g1 g2 g3 =>
    have := g3 ht
    subst this
    obtain ⟨_, _, t, g4, g5⟩ := g1
    have g5 : s' = t := g5
    subst g5
    refine Or.inr (Or.inr ⟨s', g4, (h4 _ rfl).1, (h4 _ rfl).2, h3 (by simp), ?_⟩)
    unfold stepReason
    rw [if_pos g2]
  | single g1 g2 g3 =>
    obtain ⟨_, hc, t, g4, g5⟩ := g1
    have g5 : s' = t := g5
    subst g5
    exact Or.inr (Or.inr ⟨s', g4, (h4 _ rfl).1, (h4 _ rfl).2, h3 (by simp), by rw [stepReason_zero hc g2]⟩)
  | bkpt g1 g2 g3 g4 g5 =>
    have := g5 ht
    subst this
    have g1 : _ = s := g1
    subst g1
    refine Or.inr (Or.inr ⟨s', ?_, (h4 _ rfl).1, (h4 _ rfl).2, h3 (by simp), ?_⟩)
    · unfold step
      rw [g3, g4]
      rfl
    · unfold stepReason
      rw [if_neg (by rw [g4]; exact fun h => Bool.noConfusion (g2.symm.trans h)), if_pos g3]
  | watch g1 g2 g3 g4 g5 g6 g7 =>
    have := g7 ht
    subst this
    have g1 : _ = s := g1
    subst g1
    refine Or.inr (Or.inr ⟨s', g5, (h4 _ rfl).1, (h4 _ rfl).2, h3 (by simp), ?_⟩)
    unfold stepReason
    rw [if_neg (by rw [g6]; simp), if_neg (fun hb => by rw [hb] at g3; cases g3), g3]
    simp [g4]
  | fail g1 g2 g3 g4 =>
    have := g4 ht
    subst this
    have g1 : _ = s := g1
    subst g1
    exact Or.inr (Or.inl ⟨rfl, g3⟩)

/-- Non-vacuity of C10: stepping twice through the sample program, from START and over the addition; IP is 2 and R1 is 3. -/
example :
    ((Vm.start Sample.cfg Sample.prog [] []).1.play Sample.cfg 8 1024
      (.cmd .step :: List.replicate 10 .tick ++ .cmd .step :: List.replicate 10 .tick ++ [.cmd .reason, .cmd .peekRegs])).map (·.2) =
    .ok [.ok, .stopped, .ok, .stopped, .reason .singleStep,
      .regs [(.pc, 2), (.bp, 16), (.sp, 16), (.gp 0, 3), (.gp 1, 3), (.gp 2, 0)]] := by
  decide +kernel

/-! ## C11 -/

/-- C11. A machine resumed by CONTINUE or STEP and found stopped by a software breakpoint: the instructions up to the first
BKPT have taken effect (none of them is a BKPT, a HALT or writes to a watched address), and no other; IP is the address
after BKPT. -/
theorem C11_breakpoint (hs : Setup cfg prog data) {vm : Vm} (hr : Vm.Reach cfg gregs gram prog data inp vm) {why : Reason}
    (hp : vm.phase = .stopped why) (hw : why ≠ .halt) {k : Cmd} (hk : k = .cont ∨ k = .step) {n : Nat} {vm' : Vm} {rs : List Reply}
    (h : vm.play cfg gregs gram (.cmd k :: List.replicate n .tick) = .ok (vm', rs)) (hst : vm'.phase = .stopped .swBkpt) :
    ∃ s m s1, Shows cfg vm.cpu s ∧ passes cfg vm.cpu.prog vm.cpu.dbg m s s1 ∧ instrAt vm.cpu.prog s1.pc = .bkpt ∧
      Shows cfg vm'.cpu { s1 with pc := s1.pc + 1 } ∧ Idle vm'.cpu ∧ vm'.cpu.retired = vm.cpu.retired + m + 1 ∧
      vm'.cpu.dbg = vm.cpu.dbg := by
  obtain ⟨s, m, s', h1, h2, h3, h4⟩ := resume_outcome hs hr hp hw hk h
  obtain ⟨h5, h6⟩ := h4 _ hst
  have h3 := h3 (by rw [hst]; simp)
  rw [hst] at h2
  generalize hd : vm'.cpu.dbg = dbg' at h2
  cases h2 with
  | bkpt g1 g2 g3 g4 g5 => exact ⟨s, _, _, h1, g1, g3, by rw [g4] at h5; exact h5, h6, by rw [h3]; omega, rfl⟩

/-- C11, the other direction: while the machine runs, no BKPT has taken effect. -/
theorem C11_not_missed (hs : Setup cfg prog data) {vm : Vm} (hr : Vm.Reach cfg gregs gram prog data inp vm) {why : Reason}
    (hp : vm.phase = .stopped why) (hw : why ≠ .halt) {k : Cmd} (hk : k = .cont ∨ k = .step) {n : Nat} {vm' : Vm} {rs : List Reply}
    (h : vm.play cfg gregs gram (.cmd k :: List.replicate n .tick) = .ok (vm', rs)) (hst : vm'.phase = .running) :
    ∃ s m s', Shows cfg vm.cpu s ∧ passes cfg vm.cpu.prog vm.cpu.dbg m s s' ∧ vm'.cpu.retired = vm.cpu.retired + m := by
  obtain ⟨s, m, s', h1, h2, h3, h4⟩ := resume_outcome hs hr hp hw hk h
  have h3 := h3 (by rw [hst]; simp)
  rw [hst] at h2
  generalize vm'.cpu.dbg = dbg' at h2
  cases h2 with
  | running g1 g2 g3 => exact ⟨s, _, _, h1, g1, h3⟩

/-- What it means that instructions pass without an interrupt. -/
theorem C11_passes {prog : List Instr} {dbg : List Word} {m : Nat} {s s' : State} :
    passes cfg prog dbg (m + 1) s s' ↔
      ∃ t, passes cfg prog dbg m s t ∧ t.halted = false ∧ step cfg prog t = .ok s' ∧ instrAt prog t.pc ≠ .bkpt ∧
        ∀ a, writeAddr t (instrAt prog t.pc) = some a → ∀ j, j < 4 → ¬ ((dbg.getD 4 0).getLsbD j = true ∧ dbg.getD j 0 = a) := by
  have hwt : ∀ {a : Word} {j : Nat}, watches dbg a j = false ↔ ¬ ((dbg.getD 4 0).getLsbD j = true ∧ dbg.getD j 0 = a) := by
    intro a j
    unfold watches
    rw [← Bool.not_eq_true, Bool.and_eq_true, beq_iff_eq]
  induction m generalizing s with
  | zero =>
    constructor
    · rintro ⟨h1, h2, t, h3, h4⟩
      have h4 : s' = t := h4
      subst h4
      obtain ⟨h5, h6⟩ := stopCode_eq_zero.1 h2
      exact ⟨s, rfl, h1, h3, h5, fun a ha j hj => hwt.1 (h6 a ha j hj)⟩
    · rintro ⟨t, h1, h2, h3, h4, h5⟩
      have h1 : t = s := h1
      subst h1
      exact ⟨h2, stopCode_eq_zero.2 ⟨h4, fun a ha j hj => hwt.2 (h5 a ha j hj)⟩, s', h3, rfl⟩
  | succ m ih =>
    constructor
    · rintro ⟨h1, h2, t, h3, h4⟩
      obtain ⟨u, h5, h6⟩ := ih.1 h4
      exact ⟨u, ⟨h1, h2, t, h3, h5⟩, h6⟩
    · rintro ⟨u, ⟨h1, h2, t, h3, h5⟩, h6⟩
      exact ⟨h1, h2, t, h3, ih.2 ⟨u, h5, h6⟩⟩

/-- Non-vacuity of C11: a BKPT behind a store and before younger instructions; IP is 2, R1 (written by the younger
instruction) is still 0, the store has taken effect. -/
example :
    ((Vm.start Sample.cfg
        [.mov (.memImm 5) (.imm 1), .bkpt, .mov (.val (.reg (.gp 1))) (.imm 7), .halt] [] []).1.play Sample.cfg 8 1024
      (.cmd .cont :: List.replicate 20 .tick ++ [.cmd .reason, .cmd .peekRegs, .cmd (.peekData 5 1)])).map (·.2) =
    .ok [.ok, .stopped, .reason .swBkpt, .regs [(.pc, 2), (.bp, 16), (.sp, 16), (.gp 0, 0), (.gp 1, 0), (.gp 2, 0)],
      .data [1]] := by
  decide +kernel

/-! ## C12 -/

/-- C12. A machine resumed by CONTINUE or STEP and found stopped by a hardware breakpoint: the last instruction wrote to an
address that some active debug register holds, no instruction before it did (`C11_passes`), and the control register
names such a register in bits 8 to 15 while its other bits are as before. -/
theorem C12_watchpoint (hs : Setup cfg prog data) {vm : Vm} (hr : Vm.Reach cfg gregs gram prog data inp vm) {why : Reason}
    (hp : vm.phase = .stopped why) (hw : why ≠ .halt) {k : Cmd} (hk : k = .cont ∨ k = .step) {n : Nat} {vm' : Vm} {rs : List Reply}
    (h : vm.play cfg gregs gram (.cmd k :: List.replicate n .tick) = .ok (vm', rs)) (hst : vm'.phase = .stopped .hwBkpt) :
    ∃ s m s1 s2 a j, Shows cfg vm.cpu s ∧ passes cfg vm.cpu.prog vm.cpu.dbg m s s1 ∧
      writeAddr s1 (instrAt vm.cpu.prog s1.pc) = some a ∧ step cfg vm.cpu.prog s1 = .ok s2 ∧
      j < 4 ∧ (vm.cpu.dbg.getD 4 0).getLsbD j = true ∧ vm.cpu.dbg.getD j 0 = a ∧
      Shows cfg vm'.cpu s2 ∧ Idle vm'.cpu ∧ vm'.cpu.retired = vm.cpu.retired + m + 1 ∧
      vm'.cpu.dbg = vm.cpu.dbg.set 4 ((vm.cpu.dbg.getD 4 0 &&& 0xFFFFFFFFFFFF00FF#64) ||| BitVec.ofNat 64 (2 ^ (8 + j))) := by
  obtain ⟨s, m, s', h1, h2, h3, h4⟩ := resume_outcome hs hr hp hw hk h
  obtain ⟨h5, h6⟩ := h4 _ hst
  have h3 := h3 (by rw [hst]; simp)
  rw [hst] at h2
  generalize hd : vm'.cpu.dbg = dbg' at h2
  cases h2 with
  | @watch m j a s1 _ g1 g2 g3 g4 g5 g6 g7 =>
    have hj := watchHit_lt g4
    have hwj := List.find?_some g4
    unfold watches at hwj
    rw [Bool.and_eq_true, beq_iff_eq] at hwj
    exact ⟨s, m, s1, s', a, j, h1, g1, g3, g5, hj, hwj.1, hwj.2, h5, h6, by rw [h3]; omega, rfl⟩

/-- The address that an instruction writes to, as used above, is the only cell it can change. -/
theorem C12_writes {prog : List Instr} {s s' : State} (h : step cfg prog s = .ok s') :
    (∀ a, writeAddr s (instrAt prog s.pc) ≠ some a → s'.mem a = s.mem a) ∧
    (∀ a, writeAddr s (instrAt prog s.pc) = some a → (s.mem a).isSome = true ∧ (s'.mem a).isSome = true) := exec_mem h

/-- Non-vacuity of C12: registers 0 and 2 hold address 5, only register 2 is active (control register 4). The store to
cell 6 passes, the store to cell 5 stops the machine, and the control register becomes 4 + 2^10. -/
example :
    ((Vm.start Sample.cfg
        [.mov (.memImm 6) (.imm 1), .mov (.memImm 5) (.imm 2), .mov (.val (.reg (.gp 1))) (.imm 7), .halt] [] []).1.play Sample.cfg 8 1024
      ([.cmd (.pokeDebugReg 0 5), .cmd (.pokeDebugReg 2 5), .cmd (.pokeDebugReg 4 4)] ++ .cmd .cont :: List.replicate 20 .tick ++
        [.cmd .reason, .cmd .peekRegs, .cmd .peekDebugRegs])).map (·.2) =
    .ok [.ok, .ok, .ok, .ok, .stopped, .reason .hwBkpt,
      .regs [(.pc, 2), (.bp, 16), (.sp, 16), (.gp 0, 0), (.gp 1, 0), (.gp 2, 0)], .debugs [5, 0, 5, 0, 1028]] := by
  decide +kernel

/-! ## C18 -/

/-- C18, partial: the property holds if, when the debugger writes the cell, no read of it is in flight and no write to it
is queued. Then the machine goes on as the sequential machine does from the state with the cell changed. What is missing:
cells with an access under way, for which the property fails (`C18_stale_read`). -/
theorem C18_poke_partial (hs : Setup cfg prog data) {vm : Vm} (hr : Vm.Reach cfg gregs gram prog data inp vm) {why : Reason}
    (hp : vm.phase = .stopped why) (hw : why ≠ .halt) {i : Nat} {v : Word} (hset : vm.cpu.settled (BitVec.ofNat 64 i))
    {k : Cmd} (hk : k = .cont ∨ k = .step) {n : Nat} {vm' : Vm} {rs : List Reply}
    (h : vm.play cfg gregs gram (.cmd (.pokeData i v) :: .cmd k :: List.replicate n .tick) = .ok (vm', rs)) :
    ∃ s m s', Shows cfg vm.cpu s ∧
      Outcome cfg vm.cpu.prog vm.cpu.dbg (vm.cpu.trap || k = .step)
        { s with mem := fun a => if a = BitVec.ofNat 64 i then some v else s.mem a } vm'.phase m s' vm'.cpu.dbg ∧
      (vm'.phase ≠ .failed → vm'.cpu.retired = vm.cpu.retired + m) ∧
      (∀ why', vm'.phase = .stopped why' → Shows cfg vm'.cpu s' ∧ Idle vm'.cpu) := by
  obtain ⟨d, hm⟩ := reach_matches hs hr
  have hpd : d.phase = .stopped why := hm.phase.symm.trans hp
  obtain ⟨hi, p1, p2, p3, p4⟩ := hm.live (by rw [hpd]; simp) (by rw [hpd]; simp)
  obtain ⟨vm1, r1, r2, e1, e2, _⟩ := play_cons h
  obtain ⟨d1, e3, hm1⟩ := step_of_matches hm (i := .cmd (.pokeData i v)) hset e1
  have hd1 : d1 = { d with state := { d.state with mem := fun a => if a = BitVec.ofNat 64 i then some v else d.state.mem a } } := by
    cases e3 with
    | command hs hc =>
      rw [hpd] at hs
      cases hs
      change (d.state.store (BitVec.ofNat 64 i) v >>= fun s => Except.ok (_, _)) = _ at hc
      cases hst : d.state.store (BitVec.ofNat 64 i) v with
      | error f => rw [hst] at hc; cases hc
      | ok s =>
        rw [hst] at hc
        cases hc
        rw [(store_mem hst).2]
    | leave hs => rw [hpd] at hs; cases hs
    | idle hs =>
      rcases hs with ⟨hs, _⟩ | ⟨_, _, hs, _⟩
      · cases hs
      · exact absurd hpd (hs why)
  subst hd1
  have hp1 : vm1.phase = .stopped why := hm1.phase.trans hpd
  have hc1 : vm1.cpu.retired = vm.cpu.retired := by
    obtain ⟨_, _, _, _, q4⟩ := hm1.live (by rw [← hm1.phase, hp1]; simp) (by rw [← hm1.phase, hp1]; simp)
    rw [q4, p4]
  obtain ⟨m, s', o, h1, h2, _⟩ := resume_matches hm1 hp1 hw hk e2
  refine ⟨d.state, m, s', hi.shows (hm.quiet why hpd), ?_, by rw [hc1] at h1; exact h1, h2⟩
  rw [p1, p2, p3]
  exact o

/-- In particular: if the instruction at IP loads that cell into a register, the debugger sees the written value in the
register after a STEP that succeeds. -/
theorem C18_load_partial (hs : Setup cfg prog data) {vm : Vm} (hr : Vm.Reach cfg gregs gram prog data inp vm) {why : Reason}
    (hp : vm.phase = .stopped why) (hw : why ≠ .halt) {i : Nat} {v : Word} (hset : vm.cpu.settled (BitVec.ofNat 64 i))
    {n : Nat} {vm' : Vm} {rs : List Reply} {pc : Word} {j : Nat} (hj : j < cfg.nreg)
    (hpc : Cpu.readReg cfg vm.cpu.regs vm.cpu.rat (.int .pc) = .ok pc)
    (hload : instrAt vm.cpu.prog pc = .mov (.val (.reg (.gp j))) (.memImm (BitVec.ofNat 64 i)))
    (h : vm.play cfg gregs gram (.cmd (.pokeData i v) :: .cmd .step :: List.replicate n .tick) = .ok (vm', rs))
    (hst : vm'.phase = .stopped .singleStep) :
    Cpu.readReg cfg vm'.cpu.regs vm'.cpu.rat (.int (.gp j)) = .ok v := by
  obtain ⟨s, m, s', h1, h2, h3, h4⟩ := C18_poke_partial hs hr hp hw hset (Or.inr rfl) h
  obtain ⟨h5, h6⟩ := h4 _ hst
  rw [hst] at h2
  have hpc' : s.pc = pc := by
    have := h1.regs (.int .pc) rfl
    rw [hpc] at this
    injection this with this
    exact this.symm
  generalize vm'.cpu.dbg = dbg' at h2
  cases h2 with
  | single g1 g2 g3 =>
    obtain ⟨_, _, t, g4, g5⟩ := g1
    have g5 : s' = t := g5
    subst g5
    unfold step at g4
    simp only [hpc', hload] at g4
    simp [exec, State.operand, State.load] at g4
    have hkey : (cfg.key (.int (.gp j))).isSome = true := by unfold Cfg.key; simp [hj]
    rw [h5.regs _ hkey, ← g4]
    simp [State.look, State.next, State.set]

/-- The property fails for cells with an access under way. The program stores 1 to cell 5 and stops at a BKPT; the
debugger writes 99 to cell 5 (and PEEKDATA confirms it), then steps over an instruction that loads the cell into R0, and
finds 1 in R0. -/
theorem C18_stale_read :
    ((Vm.start Sample.cfg
        [.mov (.memImm 5) (.imm 1), .bkpt, .mov (.val (.reg (.gp 0))) (.memImm 5), .nop, .halt] [] []).1.play Sample.cfg 8 1024
      (.cmd .cont :: List.replicate 20 .tick ++ [.cmd .reason, .cmd (.pokeData 5 99), .cmd (.peekData 5 1)] ++
        .cmd .step :: List.replicate 20 .tick ++ [.cmd .reason, .cmd .peekRegs])).map (·.2) =
    .ok [.ok, .stopped, .reason .swBkpt, .ok, .data [99],
      .ok, .stopped, .reason .singleStep, .regs [(.pc, 3), (.bp, 16), (.sp, 16), (.gp 0, 1), (.gp 1, 0), (.gp 2, 0)]] := by
  decide +kernel

/-- Non-vacuity of the partial theorems: with the cell written at the START stop, where nothing is in flight, the same
steps find 99 in R0. -/
example :
    ((Vm.start Sample.cfg [.mov (.val (.reg (.gp 0))) (.memImm 5), .nop, .halt] [] []).1.play Sample.cfg 8 1024
      (.cmd (.pokeData 5 99) :: .cmd .step :: List.replicate 20 .tick ++ [.cmd .reason, .cmd .peekRegs])).map (·.2) =
    .ok [.ok, .ok, .stopped, .reason .singleStep, .regs [(.pc, 1), (.bp, 16), (.sp, 16), (.gp 0, 99), (.gp 1, 0), (.gp 2, 0)]] := by
  decide +kernel

/-! ## C20 -/

/-- The commands that ask and do not change. -/
def Asks : Cmd → Prop
  | .reason | .peekText _ _ | .peekData _ _ | .peekRegs | .peekFloatRegs | .peekDebugRegs | .regCount | .textSize
  | .dataSize | .unknown => True
  | _ => False

/-- C20. Commands that ask, and unknown commands, change nothing. -/
theorem C20_peeks_change_nothing {vm vm' : Vm} {k : Cmd} (hk : Asks k) {rs : List Reply}
    (h : vm.step cfg gregs gram (.cmd k) = .ok (vm', rs)) : vm' = vm := by
  have key : ∀ {α β : Type} {x : Res α} {f : α → Res β} {y : β}, (x >>= f) = .ok y → ∃ a, x = .ok a ∧ f a = .ok y := by
    intro α β x f y h
    cases x with
    | error e => cases h
    | ok a => exact ⟨a, rfl, h⟩
  obtain ⟨c, p⟩ := vm
  cases p with
  | running => cases h; rfl
  | ended b => cases h; rfl
  | failed => cases k <;> first | exact hk.elim | (cases h; rfl)
  | stopped why =>
    obtain ⟨x, h1, h⟩ := key h
    cases h
    cases k
    all_goals try exact hk.elim
    all_goals try (cases h1; rfl)
    all_goals
      obtain ⟨l, _, h1⟩ := key h1
      cases h1
      rfl

/-- C20, registers. At any stop a register can be written; then PEEKREGS lists the new value for it, the values of before
for the other registers, and nothing else differs. -/
theorem C20_poke_reg (hs : Setup cfg prog data) {vm : Vm} (hr : Vm.Reach cfg gregs gram prog data inp vm) {why : Reason}
    (hp : vm.phase = .stopped why) {r : Reg} (hk : (cfg.key (.int r)).isSome = true) (v : Word) :
    ∃ vm' l fl, vm.step cfg gregs gram (.cmd (.pokeReg r v)) = .ok (vm', [.ok]) ∧
      vm.step cfg gregs gram (.cmd .peekRegs) = .ok (vm, [.regs l]) ∧
      vm'.step cfg gregs gram (.cmd .peekRegs) = .ok (vm', [.regs (l.map fun p => if p.1 = r then (r, v) else p)]) ∧
      l.map (·.1) = [.pc, .bp, .sp] ++ (List.range cfg.nreg).map .gp ∧
      vm.step cfg gregs gram (.cmd .peekFloatRegs) = .ok (vm, [.floats fl]) ∧
      vm'.step cfg gregs gram (.cmd .peekFloatRegs) = .ok (vm', [.floats fl]) ∧
      vm' = { vm with cpu := { vm.cpu with regs := vm'.cpu.regs, spc := vm'.cpu.spc } } := by
  obtain ⟨d, hm⟩ := reach_matches hs hr
  have hpd : d.phase = .stopped why := hm.phase.symm.trans hp
  obtain ⟨hi, p1, p2, p3, p4⟩ := hm.live (by rw [hpd]; simp) (by rw [hpd]; simp)
  have hq := hm.quiet why hpd
  obtain ⟨k, hk⟩ := Option.isSome_iff_exists.1 hk
  obtain ⟨c', e1, e2, e3⟩ := hi.pokeReg hq hk v
  have hq' : Quiet c' := by rw [e3]; exact ⟨hq.1, hq.2, hq.3, hq.4⟩
  obtain ⟨c, p⟩ := vm
  simp only at hp
  subst hp
  refine ⟨⟨c', .stopped why⟩, (shown cfg).map fun r => (r, d.state.look (.int r)), (List.range cfg.nfreg).map fun i => d.state.look (.flt i),
    ?_, ?_, ?_, ?_, ?_, ?_, ?_⟩
  · change (Cpu.pokeReg cfg c (.int r) v >>= _) >>= _ = _
    rw [e1]
    rfl
  · exact peekRegs_eq hi hq
  · rw [peekRegs_eq e2 hq', List.map_map]
    congr 5
    funext r'
    simp only [Function.comp_apply]
    unfold State.poke State.look
    by_cases h : r' = r
    · subst h
      by_cases h' : r' = .pc
      · subst h'; simp
      · simp [h', State.set]
    · by_cases h' : r = .pc
      · subst h'
        simp [h]
      · simp only [LReg.int.injEq, h, h', if_false, State.set]
  · rw [List.map_map]
    exact List.map_id _
  · exact peekFloats_eq hi hq
  · rw [peekFloats_eq e2 hq']
    congr 5
    funext i
    unfold State.poke
    by_cases h : r = .pc <;> simp [h, State.look, State.set]
  · rw [← e3]

/-- C20, float registers. -/
theorem C20_poke_float (hs : Setup cfg prog data) {vm : Vm} (hr : Vm.Reach cfg gregs gram prog data inp vm) {why : Reason}
    (hp : vm.phase = .stopped why) {i : Nat} (hk : i < cfg.nfreg) (v : Word) :
    ∃ vm' l rl, vm.step cfg gregs gram (.cmd (.pokeFloatReg i v)) = .ok (vm', [.ok]) ∧
      vm.step cfg gregs gram (.cmd .peekFloatRegs) = .ok (vm, [.floats l]) ∧ l.length = cfg.nfreg ∧
      vm'.step cfg gregs gram (.cmd .peekFloatRegs) = .ok (vm', [.floats (l.set i v)]) ∧
      vm.step cfg gregs gram (.cmd .peekRegs) = .ok (vm, [.regs rl]) ∧
      vm'.step cfg gregs gram (.cmd .peekRegs) = .ok (vm', [.regs rl]) ∧
      vm' = { vm with cpu := { vm.cpu with regs := vm'.cpu.regs, spc := vm'.cpu.spc } } := by
  obtain ⟨d, hm⟩ := reach_matches hs hr
  have hpd : d.phase = .stopped why := hm.phase.symm.trans hp
  obtain ⟨hi, p1, p2, p3, p4⟩ := hm.live (by rw [hpd]; simp) (by rw [hpd]; simp)
  have hq := hm.quiet why hpd
  obtain ⟨k, hk'⟩ : ∃ k, cfg.key (.flt i) = some k := by unfold Cfg.key; simp [hk]
  obtain ⟨c', e1, e2, e3⟩ := hi.pokeReg hq hk' v
  have hq' : Quiet c' := by rw [e3]; exact ⟨hq.1, hq.2, hq.3, hq.4⟩
  obtain ⟨c, p⟩ := vm
  simp only at hp
  subst hp
  refine ⟨⟨c', .stopped why⟩, (List.range cfg.nfreg).map fun i => d.state.look (.flt i), (shown cfg).map fun r => (r, d.state.look (.int r)),
    ?_, ?_, ?_, ?_, ?_, ?_, ?_⟩
  · change (Cpu.pokeReg cfg c (.flt i) v >>= _) >>= _ = _
    rw [e1]
    rfl
  · exact peekFloats_eq hi hq
  · simp
  · rw [peekFloats_eq e2 hq']
    congr 4
    apply List.ext_getElem
    · simp
    · intro j h1 h2
      rw [List.getElem_set]
      simp [State.poke, State.look, State.set]
      by_cases h : i = j
      · simp [h]
      · simp only [h, if_false]
        exact if_neg (fun h' => h h'.symm)
  · exact peekRegs_eq hi hq
  · rw [peekRegs_eq e2 hq']
    rfl
  · rw [← e3]

/-- C20, debug registers. -/
theorem C20_poke_debug {vm : Vm} {why : Reason} (hp : vm.phase = .stopped why) {i : Nat} (hi : i < 5) (v : Word) :
    ∃ vm' l, vm.step cfg gregs gram (.cmd (.pokeDebugReg i v)) = .ok (vm', [.ok]) ∧
      vm.step cfg gregs gram (.cmd .peekDebugRegs) = .ok (vm, [.debugs l]) ∧
      vm'.step cfg gregs gram (.cmd .peekDebugRegs) = .ok (vm', [.debugs (l.set i v)]) ∧
      vm' = { vm with cpu := { vm.cpu with dbg := vm'.cpu.dbg } } := by
  obtain ⟨c, p⟩ := vm
  simp only at hp
  subst hp
  refine ⟨⟨{ c with dbg := c.dbg.set i v }, .stopped why⟩, c.dbg, ?_, rfl, rfl, rfl⟩
  change (Cpu.setDebugReg c i v >>= _) >>= _ = _
  unfold Cpu.setDebugReg
  rw [if_pos hi]
  rfl

/-- C20, memory. A cell that exists can be written; then PEEKDATA returns the new value for it and the values of before
for the other cells, and nothing else differs. -/
theorem C20_poke_data {vm : Vm} {why : Reason} (hp : vm.phase = .stopped why) {i : Nat} (h64 : i < 2 ^ 64)
    (hi : i < vm.cpu.ram.mem.length) (v : Word) :
    ∃ vm', vm.step cfg gregs gram (.cmd (.pokeData i v)) = .ok (vm', [.ok]) ∧
      vm'.step cfg gregs gram (.cmd (.peekData i 1)) = .ok (vm', [.data [v]]) ∧
      (∀ j, j < 2 ^ 64 → j ≠ i → (vm'.step cfg gregs gram (.cmd (.peekData j 1))).map (·.2) =
        (vm.step cfg gregs gram (.cmd (.peekData j 1))).map (·.2)) ∧
      vm' = { vm with cpu := { vm.cpu with ram := { vm.cpu.ram with mem := vm'.cpu.ram.mem } } } := by
  obtain ⟨c, p⟩ := vm
  simp only at hp hi
  subst hp
  have hn : ∀ {j : Nat}, j < 2 ^ 64 → (BitVec.ofNat 64 j).toNat = j := fun hj => by
    rw [BitVec.toNat_ofNat, Nat.mod_eq_of_lt hj]
  refine ⟨⟨{ c with ram := { c.ram with mem := c.ram.mem.set i v } }, .stopped why⟩, ?_, ?_, ?_, rfl⟩
  · change (Cpu.setMemory c (BitVec.ofNat 64 i) v >>= _) >>= _ = _
    unfold Cpu.setMemory Ram.set
    rw [hn h64, if_pos hi]
    rfl
  · change (Cpu.peekData _ i 1 >>= _) >>= _ = _
    unfold Cpu.peekData Ram.get
    simp only [List.range_one, List.mapM_cons, List.mapM_nil, Nat.add_zero, hn h64]
    rw [List.getElem?_set_self hi]
    rfl
  · intro j hj hji
    change ((Cpu.peekData _ j 1 >>= _) >>= _).map _ = ((Cpu.peekData _ j 1 >>= _) >>= _).map _
    unfold Cpu.peekData Ram.get
    simp only [List.range_one, List.mapM_cons, List.mapM_nil, Nat.add_zero, hn hj]
    rw [List.getElem?_set_ne (Ne.symm hji)]
    cases c.ram.mem[j]? <;> rfl

/-- C20, instructions. -/
theorem C20_poke_text {vm : Vm} {why : Reason} (hp : vm.phase = .stopped why) {i : Nat} (h64 : i < 2 ^ 64)
    (hi : i < vm.cpu.prog.length) (ins : Instr) :
    ∃ vm', vm.step cfg gregs gram (.cmd (.pokeText i ins)) = .ok (vm', [.ok]) ∧
      vm'.step cfg gregs gram (.cmd (.peekText i 1)) = .ok (vm', [.text [ins]]) ∧
      (∀ j, j < 2 ^ 64 → j ≠ i → (vm'.step cfg gregs gram (.cmd (.peekText j 1))).map (·.2) =
        (vm.step cfg gregs gram (.cmd (.peekText j 1))).map (·.2)) ∧
      vm' = { vm with cpu := { vm.cpu with prog := vm'.cpu.prog } } := by
  obtain ⟨c, p⟩ := vm
  simp only at hp hi
  subst hp
  have hn : ∀ {j : Nat}, j < 2 ^ 64 → (BitVec.ofNat 64 j).toNat = j := fun hj => by
    rw [BitVec.toNat_ofNat, Nat.mod_eq_of_lt hj]
  refine ⟨⟨{ c with prog := c.prog.set i ins }, .stopped why⟩, ?_, ?_, ?_, rfl⟩
  · change (Cpu.setText c i ins >>= _) >>= _ = _
    unfold Cpu.setText
    rw [if_pos hi]
    rfl
  · change Except.ok (_, [Reply.text (Cpu.peekText _ i 1)]) = _
    unfold Cpu.peekText fetchAt
    simp only [List.range_one, List.map_cons, List.map_nil, Nat.add_zero, hn h64, List.getD_eq_getElem?_getD]
    rw [List.getElem?_set_self hi]
    rfl
  · intro j hj hji
    change Except.ok [Reply.text (Cpu.peekText _ j 1)] = Except.ok [Reply.text (Cpu.peekText _ j 1)]
    unfold Cpu.peekText fetchAt
    simp only [List.range_one, List.map_cons, List.map_nil, Nat.add_zero, hn hj, List.getD_eq_getElem?_getD]
    rw [List.getElem?_set_ne (Ne.symm hji)]

/-- Non-vacuity of C20: pokes of every kind at the START stop of the sample program, with the replies to the peeks. -/
example :
    ((Vm.start Sample.cfg Sample.prog [] []).1.play Sample.cfg 8 1024
      [.cmd (.pokeReg (.gp 1) 7), .cmd (.pokeReg .pc 3), .cmd (.pokeFloatReg 0 9), .cmd (.pokeDebugReg 2 4), .cmd (.pokeData 3 11),
       .cmd (.pokeText 2 .bkpt), .cmd .peekRegs, .cmd .peekFloatRegs, .cmd .peekDebugRegs, .cmd (.peekData 2 3), .cmd (.peekText 2 1),
       .cmd .unknown]).map (·.2) =
    .ok [.ok, .ok, .ok, .ok, .ok, .ok, .regs [(.pc, 3), (.bp, 16), (.sp, 16), (.gp 0, 0), (.gp 1, 7), (.gp 2, 0)], .floats [9],
      .debugs [0, 0, 4, 0, 0], .data [0, 11, 0], .text [.bkpt], .unknown] := by
  decide +kernel

/-! ## C21 -/

/-- Commands after which the machine stays stopped leave the trap flag alone. -/
theorem command_trap {why : Reason} {c c' : Cpu} {k : Cmd} {r : Reply}
    (h : Cpu.command cfg gregs gram why c k = .ok (c', r, .stay)) : c'.trap = c.trap := by
  have key : ∀ {α β : Type} {x : Res α} {f : α → Res β} {y : β}, (x >>= f) = .ok y → ∃ a, x = .ok a ∧ f a = .ok y := by
    intro α β x f y h
    cases x with
    | error e => cases h
    | ok a => exact ⟨a, rfl, h⟩
  have poke : ∀ {r v}, c.pokeReg cfg r v = .ok c' → c'.trap = c.trap := by
    intro r v h
    obtain ⟨p, _, h⟩ := key h
    obtain ⟨regs, _, h⟩ := key h
    cases h
    rfl
  cases k
  all_goals try (cases h; first | done | rfl)
  case pokeText i ins =>
    obtain ⟨a, h1, h⟩ := key h
    cases h
    unfold Cpu.setText at h1
    split at h1 <;> cases h1
    rfl
  case peekData i n =>
    obtain ⟨a, h1, h⟩ := key h
    cases h
    rfl
  case pokeData i v =>
    obtain ⟨a, h1, h⟩ := key h
    cases h
    obtain ⟨ram, _, h1⟩ := key h1
    cases h1
    rfl
  case peekRegs =>
    obtain ⟨a, h1, h⟩ := key h
    cases h
    rfl
  case peekFloatRegs =>
    obtain ⟨a, h1, h⟩ := key h
    cases h
    rfl
  case pokeDebugReg i v =>
    obtain ⟨a, h1, h⟩ := key h
    cases h
    unfold Cpu.setDebugReg at h1
    split at h1 <;> cases h1
    rfl
  case pokeFloatReg i v =>
    obtain ⟨a, h1, h⟩ := key h
    cases h
    exact poke h1
  case pokeReg i v =>
    obtain ⟨a, h1, h⟩ := key h
    cases h
    exact poke h1

/-- The trap flag is never set at the first stop or at a single-step stop. -/
theorem C21_trap {vm : Vm} (hr : Vm.Reach cfg gregs gram prog data inp vm) :
    vm.phase = .stopped .begin ∨ vm.phase = .stopped .singleStep → vm.cpu.trap = false := by
  induction hr with
  | start => intro _; rfl
  | @step vm vm' i rs h1 h2 h3 ih =>
    have enter_ : ∀ (c : Cpu) (why : Reason), why ≠ .begin →
        ((Vm.enter c why).1.phase = .stopped .begin ∨ (Vm.enter c why).1.phase = .stopped .singleStep → (Vm.enter c why).1.cpu.trap = false) := by
      intro c why hb hx
      unfold Vm.enter at hx ⊢
      rcases hx with hx | hx
      · cases hx; exact absurd rfl hb
      · cases hx; rfl
    unfold Vm.step at h3
    split at h3
    · unfold Vm.tick at h3
      split at h3
      · cases h3; simp
      · cases h3
      · split at h3
        · cases h3; exact enter_ _ _ (by simp)
        · split at h3
          · cases h3; simp
          · cases h3; exact enter_ _ _ (by simp)
          · cases h3; exact enter_ _ _ (by simp)
          · cases h3; exact enter_ _ _ (by simp)
          · cases h3
    · rename_i why k hph
      cases hc : Cpu.command cfg gregs gram why vm.cpu k with
      | error f => rw [hc] at h3; cases h3
      | ok x =>
        rw [hc, ok_bind] at h3
        cases h3
        obtain ⟨c', r, nx⟩ := x
        have key : nx = .stay → c'.trap = vm.cpu.trap := by
          intro hn
          subst hn
          exact command_trap hc
        intro hx
        cases nx with
        | stay =>
          refine (key rfl).trans (ih ?_)
          rw [hph]
          exact hx
        | resume =>
          change (if why = .halt then Phase.ended true else .running) = _ ∨ (if why = .halt then Phase.ended true else .running) = _ at hx
          split at hx <;> simp at hx
        | quit => rcases hx with hx | hx <;> cases hx
    · cases h3; exact ih
    · cases h3; intro hx; simp at hx
    · cases h3; intro hx; simp at hx
    · cases h3; intro hx; simp at hx
    · cases h3; exact ih

/-- C21, partial: after a stop for the reasons START or SINGLESTEP, and after any other stop in which the trap flag is not
set, CONTINUE never reports a single-step stop. What is missing: stops by a breakpoint or watchpoint that ended a STEP,
which leave the trap flag set; there the property fails (`C21_continue_single_steps`). -/
theorem C21_continue_partial (hs : Setup cfg prog data) {vm : Vm} (hr : Vm.Reach cfg gregs gram prog data inp vm) {why : Reason}
    (hp : vm.phase = .stopped why) (hw : why ≠ .halt) (ht : why = .begin ∨ why = .singleStep ∨ vm.cpu.trap = false)
    {n : Nat} {vm' : Vm} {rs : List Reply}
    (h : vm.play cfg gregs gram (.cmd .cont :: List.replicate n .tick) = .ok (vm', rs)) : vm'.phase ≠ .stopped .singleStep := by
  have htr : vm.cpu.trap = false := by
    rcases ht with rfl | rfl | h
    · exact C21_trap hr (Or.inl hp)
    · exact C21_trap hr (Or.inr hp)
    · exact h
  obtain ⟨s, m, s', h1, h2, h3, h4⟩ := resume_outcome hs hr hp hw (Or.inl rfl) h
  intro hc
  rw [hc] at h2
  generalize vm'.cpu.dbg = dbg' at h2
  cases h2 with
  | single _ _ g => rw [htr] at g; simp at g

/-- The property fails after a STEP that ends at a breakpoint: CONTINUE then stops after one instruction, for the reason
SINGLESTEP. -/
theorem C21_continue_single_steps :
    ((Vm.start Sample.cfg [.bkpt, .nop, .nop, .halt] [] []).1.play Sample.cfg 8 1024
      (.cmd .step :: List.replicate 10 .tick ++ [.cmd .reason] ++ .cmd .cont :: List.replicate 10 .tick ++ [.cmd .reason])).map (·.2) =
    .ok [.ok, .stopped, .reason .swBkpt, .ok, .stopped, .reason .singleStep] := by
  decide +kernel

/-- Non-vacuity: CONTINUE after a single-step stop and after a breakpoint reached by CONTINUE run on to HALT. -/
example :
    ((Vm.start Sample.cfg [.nop, .bkpt, .nop, .halt] [] []).1.play Sample.cfg 8 1024
      (.cmd .step :: List.replicate 10 .tick ++ [.cmd .reason] ++ .cmd .cont :: List.replicate 10 .tick ++ [.cmd .reason] ++
        .cmd .cont :: List.replicate 20 .tick ++ [.cmd .reason])).map (·.2) =
    .ok [.ok, .stopped, .reason .singleStep, .ok, .stopped, .reason .swBkpt, .ok, .stopped, .reason .halt] := by
  decide +kernel

end
end T86
