import Verif.Lemmas.Session

/-! Runs and sessions. -/

set_option linter.unusedSimpArgs false
set_option linter.unusedVariables false

namespace T86
open Isa

section
variable {cfg : Cfg}

theorem runs_append {prog : List Instr} : ∀ {k l : Nat} {s t u : State}, runs cfg prog k s t → runs cfg prog l t u →
    runs cfg prog (k + l) s u
  | 0, l, s, t, u, h, h' => by
    have h : t = s := h
    subst h
    rw [Nat.zero_add]; exact h'
  | k + 1, l, s, t, u, ⟨h1, w, h2, h3⟩, h' => by
    rw [Nat.add_right_comm]
    exact ⟨h1, w, h2, runs_append h3 h'⟩

theorem passes_runs {prog : List Instr} {dbg : List Word} : ∀ {k : Nat} {s s' : State}, passes cfg prog dbg k s s' → runs cfg prog k s s'
  | 0, _, _, h => h
  | _ + 1, _, _, ⟨h1, _, t, h2, h3⟩ => ⟨h1, t, h2, passes_runs h3⟩

theorem passes_append {prog : List Instr} {dbg : List Word} : ∀ {k l : Nat} {s t u : State}, passes cfg prog dbg k s t →
    passes cfg prog dbg l t u → passes cfg prog dbg (k + l) s u
  | 0, l, s, t, u, h, h' => by
    have h : t = s := h
    subst h
    rw [Nat.zero_add]; exact h'
  | k + 1, l, s, t, u, ⟨h1, h2, w, h3, h4⟩, h' => by
    rw [Nat.add_right_comm]
    exact ⟨h1, h2, w, h3, passes_append h4 h'⟩

theorem runs_one {prog : List Instr} {s t : State} (h : s.halted = false) (hs : Isa.step cfg prog s = .ok t) : runs cfg prog 1 s t :=
  ⟨h, t, hs, rfl⟩

/-- The sequential machine is deterministic. -/
theorem runs_det {prog : List Instr} : ∀ {k : Nat} {s t u : State}, runs cfg prog k s t → runs cfg prog k s u → t = u
  | 0, _, _, _, h, h' => by
    have h : _ = _ := h
    have h' : _ = _ := h'
    rw [h, h']
  | k + 1, _, _, _, ⟨_, w, h1, h2⟩, ⟨_, w', h1', h2'⟩ => by
    rw [h1] at h1'
    cases h1'
    exact runs_det h2 h2'

/-- How a run without a debugger relates to the sequential machine. -/
structure RunTo (cfg : Cfg) (c0 c : Cpu) (S0 S : State) : Prop where
  inv : Inv cfg c S
  prog : c.prog = c0.prog
  trap : c.trap = c0.trap
  runs : ∃ k, c.retired = c0.retired + k ∧ Isa.runs cfg c0.prog k S0 S
  run : S.halted = false → c.stepped = false
  halt : S.halted = true → Quiet c

theorem tick_run {c c' : Cpu} {S : State} (h : TickOK cfg c c' S) : ∃ S', RunTo cfg c c' S S' := by
  obtain ⟨h1, h2, S', k, h3, h4, h5⟩ := h
  refine ⟨S', ?_⟩
  cases h5 with
  | go g1 g2 g3 g4 g5 g6 => exact ⟨h3, h1, h2, ⟨k, h4, passes_runs g1⟩, fun _ => g6, fun h => by rw [g2] at h; cases h⟩
  | halt g1 g2 g3 g4 g5 g6 => exact ⟨h3, h1, h2, ⟨k, h4, passes_runs g1⟩, (fun h => by rw [g2] at h; cases h), fun _ => g6⟩
  | single g1 g2 g3 g4 g5 g6 g7 =>
    exact ⟨h3, h1, h2, ⟨1, h4, passes_runs g1⟩, fun _ => g6, fun h => by rw [g2] at h; cases h⟩
  | stop g1 g2 g3 g4 g5 g6 g7 g8 g9 g10 =>
    exact ⟨h3, h1, h2, ⟨_, h4, runs_append (passes_runs g1) (runs_one g2 g3)⟩, fun _ => g9, fun h => by rw [g4] at h; cases h⟩

/-- Errors of a run. -/
def RunFault (cfg : Cfg) (prog : List Instr) (S : State) (f : Fault) : Prop :=
  HostUb cfg prog f ∨ (f = .exn .outOfRange ∧ ∃ k S1, Isa.runs cfg prog k S S1 ∧ S1.halted = false ∧
    Isa.step cfg prog S1 = .error (.exn .outOfRange))

theorem run_sat : ∀ (n : Nat) {c : Cpu} {S : State}, Inv cfg c S → (S.halted = false → c.stepped = false) → (S.halted = true → Quiet c) →
    Sat (Cpu.run cfg n c) (fun c' => ∃ S', RunTo cfg c c' S S') (RunFault cfg c.prog S)
  | 0, c, S, h, hs, hq => ⟨S, h, rfl, rfl, ⟨0, rfl, rfl⟩, hs, hq⟩
  | n + 1, c, S, h, hs, hq => by
    unfold Cpu.run
    rw [h.halted]
    by_cases hh : S.halted = true
    · rw [if_pos hh]
      exact ⟨S, h, rfl, rfl, ⟨0, rfl, rfl⟩, hs, hq⟩
    · rw [if_neg hh]
      simp only [Bool.not_eq_true] at hh
      have hstep : ∀ c1, TickOK cfg c c1 S → Sat (Cpu.run cfg n c1) (fun c' => ∃ S', RunTo cfg c c' S S') (RunFault cfg c.prog S) := by
        intro c1 h1
        obtain ⟨S1, r1⟩ := tick_run h1
        obtain ⟨k, rk, rr⟩ := r1.runs
        refine (run_sat n r1.inv r1.run r1.halt).mono ?_ ?_
        · rintro c2 ⟨S2, r2⟩
          obtain ⟨l, rl, rr2⟩ := r2.runs
          refine ⟨S2, r2.inv, r2.prog.trans r1.prog, r2.trap.trans r1.trap, ⟨k + l, by omega, ?_⟩, r2.run, r2.halt⟩
          rw [r1.prog] at rr2
          exact runs_append rr rr2
        · rintro f (hf | ⟨hf, l, S2, r2, r3, r4⟩)
          · rw [r1.prog] at hf; exact Or.inl hf
          · rw [r1.prog] at r2 r4
            exact Or.inr ⟨hf, k + l, S2, runs_append rr r2, r3, r4⟩
      refine Sat.bind ((tick_sat h hh (hs hh)).mono (fun _ h => h) ?_) hstep
      rintro f (hf | ⟨hf, k, S1, g1, g2, g3, g4⟩)
      · exact Or.inl hf
      · exact Or.inr ⟨hf, k, S1, passes_runs g1, g2, g3⟩

/-- An idle machine shows the state of the sequential machine. -/
theorem Inv.shows {c : Cpu} {S : State} (h : Inv cfg c S) (hq : Quiet c) : Shows cfg c S := by
  refine ⟨?_, fun a => (h.memEq a).symm, h.out, h.inp, h.halted⟩
  intro r hr
  obtain ⟨k, hk⟩ := Option.isSome_iff_exists.1 hr
  exact h.readReg hq hk

theorem Quiet.idle {c : Cpu} (h : Quiet c) : Idle c := ⟨h.1, h.2, h.3, h.4⟩

/-! ## Output -/

theorem store_out {s s' : State} {a v : Word} (h : s.store a v = .ok s') : s'.out = s.out := by
  unfold State.store at h
  split at h
  · cases h; rfl
  · cases h

theorem exec_out {s s' : State} {i : Instr} (h : exec cfg s i = .ok s') : s'.out = s.out ++ prints s i := by
  have nil : ∀ {l : List Out}, l = l ++ [] := (List.append_nil _).symm
  have key : ∀ {α β : Type} {x : Res α} {f : α → Res β} {y : β}, (x >>= f) = .ok y → ∃ a, x = .ok a ∧ f a = .ok y := by
    intro α β x f y h
    cases x with
    | error e => cases h
    | ok a => exact ⟨a, rfl, h⟩
  cases i with
  | putchar r => change Except.ok _ = _ at h; cases h; rfl
  | putnum r => change Except.ok _ = _ at h; cases h; rfl
  | nop => change Except.ok _ = _ at h; cases h; exact nil
  | halt => change Except.ok _ = _ at h; cases h; exact nil
  | brk => change Except.ok _ = _ at h; cases h; exact nil
  | bkpt => change Except.ok _ = _ at h; cases h; exact nil
  | clf => change Except.ok _ = _ at h; cases h; exact nil
  | ext f r => change Except.ok _ = _ at h; cases h; exact nil
  | mov dst v =>
    obtain ⟨x, _, h⟩ := key h
    cases dst with
    | imm w => cases h
    | fimm w => cases h
    | val e => cases e <;> first | (cases h; exact nil) | cases h
    | freg f => cases h; exact nil
    | memImm a =>
      obtain ⟨s1, h1, h⟩ := key h
      cases h
      exact (store_out h1).trans nil
    | mem e =>
      obtain ⟨s1, h1, h⟩ := key h
      cases h
      exact (store_out h1).trans nil
  | lea d m => cases m <;> first | (cases h; exact nil) | cases h
  | bin op b d r v =>
    obtain ⟨y, _, h⟩ := key h
    obtain ⟨z, _, h⟩ := key h
    cases h; exact nil
  | fbin op f v =>
    obtain ⟨y, _, h⟩ := key h
    cases h; exact nil
  | un op r =>
    obtain ⟨y, _, h⟩ := key h
    cases h; exact nil
  | cmp r v =>
    obtain ⟨y, _, h⟩ := key h
    obtain ⟨z, _, h⟩ := key h
    cases h; exact nil
  | fcmp f v =>
    obtain ⟨y, _, h⟩ := key h
    cases h; exact nil
  | jmp a =>
    obtain ⟨y, _, h⟩ := key h
    cases h; exact nil
  | jcc c a =>
    obtain ⟨y, _, h⟩ := key h
    split at h <;> (cases h; exact nil)
  | loop r a =>
    obtain ⟨y, _, h⟩ := key h
    obtain ⟨z, _, h⟩ := key h
    dsimp only at h
    split at h <;> (cases h; exact nil)
  | call a =>
    obtain ⟨y, _, h⟩ := key h
    obtain ⟨s1, h1, h⟩ := key h
    cases h
    exact (store_out h1).trans nil
  | ret =>
    obtain ⟨y, _, h⟩ := key h
    cases h; exact nil
  | push v =>
    obtain ⟨y, _, h⟩ := key h
    obtain ⟨s1, h1, h⟩ := key h
    cases h
    exact (store_out h1).trans nil
  | fpush v =>
    obtain ⟨y, _, h⟩ := key h
    obtain ⟨s1, h1, h⟩ := key h
    cases h
    exact (store_out h1).trans nil
  | pop r =>
    obtain ⟨y, _, h⟩ := key h
    cases h; exact nil
  | fpop r =>
    obtain ⟨y, _, h⟩ := key h
    cases h; exact nil
  | getchar r =>
    change (match skipSpace s.inp with | [] => _ | b :: rest => _) = _ at h
    split at h
    · cases h
    · cases h; exact nil
  | nrw r f =>
    change (match cfg.fo.toInt (s.get (.flt f)) with | some w => _ | none => _) = _ at h
    split at h
    · cases h; exact nil
    · cases h

theorem runs_printed {prog : List Instr} : ∀ {k : Nat} {s s' : State}, runs cfg prog k s s' → s'.out = s.out ++ printed cfg prog k s
  | 0, s, s', h => by
    have h : s' = s := h
    subst h
    exact (List.append_nil _).symm
  | k + 1, s, s', ⟨_, t, h1, h2⟩ => by
    unfold printed
    rw [runs_printed h2, exec_out h1, h1, List.append_assoc]

theorem runs_unique {prog : List Instr} {k l : Nat} : ∀ {s t u : State}, runs cfg prog k s t → runs cfg prog (k + l) s u → runs cfg prog l t u := by
  induction k with
  | zero =>
    intro s t u h h'
    have h : t = s := h
    subst h
    rwa [Nat.zero_add] at h'
  | succ k ih =>
    intro s t u h h'
    obtain ⟨_, w, h1, h2⟩ := h
    rw [Nat.add_right_comm] at h'
    obtain ⟨_, w', h1', h2'⟩ := h'
    rw [h1] at h1'
    cases h1'
    exact ih h2 h2'

/-! ## Sessions -/

section
variable {gregs gram : Nat} {prog : List Instr} {data : List Word} {inp : List (BitVec 8)}

theorem reach_matches (hs : Setup cfg prog data) {vm : Vm} (h : Vm.Reach cfg gregs gram prog data inp vm) : ∃ d, Matches cfg vm d := by
  induction h with
  | start => exact ⟨_, start_matches hs.station hs.wf hs.data⟩
  | step h1 h2 h3 ih =>
    obtain ⟨d, hd⟩ := ih
    have := step_matches hd gregs gram _ h2
    rw [h3] at this
    obtain ⟨d', _, h⟩ := this
    exact ⟨d', h⟩

/-- Stepping a session that corresponds. -/
theorem step_of_matches {vm vm' : Vm} {d : Dbg} {i : Vm.Input} {rs : List Reply} (h : Matches cfg vm d) (hs : vm.safe cfg i)
    (he : vm.step cfg gregs gram i = .ok (vm', rs)) : ∃ d', d.Step cfg gregs gram i d' rs ∧ Matches cfg vm' d' := by
  have := step_matches h gregs gram i hs
  rw [he] at this
  exact this

/-- What has happened since a stop in which the machine was told to continue. -/
inductive Since (cfg : Cfg) (d0 d : Dbg) : Prop
  | go {k : Nat} (phase : d.phase = .running) (h : passes cfg d0.prog d0.dbg k d0.state d.state) (trap : d0.trap = true → k = 0)
      (count : d.count = d0.count + k) (dbg : d.dbg = d0.dbg) (tr : d.trap = d0.trap) (prog : d.prog = d0.prog)
      (run : d.state.halted = false)
  | halt {k : Nat} (phase : d.phase = .stopped .halt) (h : passes cfg d0.prog d0.dbg k d0.state d.state) (halt : d.state.halted = true)
      (trap : d0.trap = true → k = 1) (count : d.count = d0.count + k) (dbg : d.dbg = d0.dbg) (tr : d.trap = d0.trap)
  | single (phase : d.phase = .stopped .singleStep) (h : passes cfg d0.prog d0.dbg 1 d0.state d.state) (run : d.state.halted = false)
      (trap : d0.trap = true) (count : d.count = d0.count + 1) (dbg : d.dbg = d0.dbg) (tr : d.trap = false)
  | stop {k n : Nat} {s : State} (phase : d.phase = .stopped (reasonOf n)) (h : passes cfg d0.prog d0.dbg k d0.state s)
      (run : s.halted = false)
      (step : Isa.step cfg d0.prog s = .ok d.state) (run' : d.state.halted = false) (trap : d0.trap = true → k = 0)
      (code : stopCode d0.dbg s (instrAt d0.prog s.pc) = n) (ne : n ≠ 0) (count : d.count = d0.count + (k + 1))
      (dbg : d.dbg = marked d0.dbg s (instrAt d0.prog s.pc)) (tr : d.trap = d0.trap)
  | fail {k : Nat} {s : State} (phase : d.phase = .failed) (h : passes cfg d0.prog d0.dbg k d0.state s) (run : s.halted = false)
      (step : Isa.step cfg d0.prog s = .error (.exn .outOfRange)) (trap : d0.trap = true → k = 0)

/-- Ticks only make progress while the machine runs. -/
theorem Since.tick {d0 d d' : Dbg} {rs : List Reply} (h : Since cfg d0 d) (hs : d.Step cfg gregs gram .tick d' rs) : Since cfg d0 d' := by
  cases hs with
  | tick hp ht =>
    cases h with
    | go h1 h2 h3 h4 h5 h6 h7 h8 =>
      cases ht with
      | go g1 g2 g3 =>
        rw [h7, h5] at g1
        refine .go (k := _ + _) h1 (passes_append h2 g1) ?_ ?_ h5 h6 h7 g2
        · intro ht
          rw [h3 ht, g3 (h6.trans ht)]
        · change d.count + _ = _
          rw [h4, Nat.add_assoc]
      | halt g1 g2 g3 =>
        rw [h7, h5] at g1
        refine .halt (k := _ + _) rfl (passes_append h2 g1) g2 ?_ ?_ h5 h6
        · intro ht
          rw [h3 ht, g3 (h6.trans ht)]
        · change d.count + _ = _
          rw [h4, Nat.add_assoc]
      | single g1 g2 g3 =>
        rw [h7, h5] at g1
        have hk := h3 (h6.symm.trans g3)
        subst hk
        have h2 : d.state = d0.state := h2
        rw [h2] at g1
        refine .single rfl g1 g2 (h6.symm.trans g3) ?_ h5 rfl
        change d.count + 1 = _
        rw [h4]
      | stop g1 g2 g3 g4 g5 g6 g7 =>
        rw [h7, h5] at g1
        rw [h7] at g3
        rw [h5, h7] at g6
        refine .stop (k := _ + _) rfl (passes_append h2 g1) g2 g3 g4 ?_ g6 g7 ?_ ?_ h6
        · intro ht
          rw [h3 ht, g5 (h6.trans ht)]
        · change d.count + _ = _
          rw [h4]; omega
        · change marked d.dbg _ (instrAt d.prog _) = _
          rw [h5, h7]
      | fail g1 g2 g3 g4 =>
        rw [h7, h5] at g1
        rw [h7] at g3
        refine .fail (k := _ + _) rfl (passes_append h2 g1) g2 g3 ?_
        intro ht
        rw [h3 ht, g4 (h6.trans ht)]
    | halt h1 => rw [h1] at hp; cases hp
    | single h1 => rw [h1] at hp; cases hp
    | stop h1 => rw [h1] at hp; cases hp
    | fail h1 => rw [h1] at hp; cases hp
  | idle h' => exact h

theorem since_ticks {d0 : Dbg} : ∀ (n : Nat) {vm vm' : Vm} {d : Dbg} {rs : List Reply}, Matches cfg vm d → Since cfg d0 d →
    vm.play cfg gregs gram (List.replicate n .tick) = .ok (vm', rs) → ∃ d', Matches cfg vm' d' ∧ Since cfg d0 d'
  | 0, vm, vm', d, rs, hm, hd, he => by cases he; exact ⟨d, hm, hd⟩
  | n + 1, vm, vm', d, rs, hm, hd, he => by
    rw [List.replicate_succ] at he
    unfold Vm.play at he
    cases h1 : vm.step cfg gregs gram .tick with
    | error f => rw [h1] at he; cases he
    | ok x =>
      rw [h1, ok_bind] at he
      cases h2 : x.1.play cfg gregs gram (List.replicate n .tick) with
      | error f => rw [h2] at he; cases he
      | ok y =>
        rw [h2] at he
        cases he
        obtain ⟨d1, e1, e2⟩ := step_of_matches (i := .tick) hm trivial h1
        exact since_ticks n e2 (hd.tick e1) h2

end
end
end T86
