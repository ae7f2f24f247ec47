import Verif.Lemmas.Run

/-! Resuming a stopped machine, in terms of `Isa.Outcome`; facts about the addresses that instructions write to. -/

set_option linter.unusedSimpArgs false
set_option linter.unusedVariables false

namespace T86
open Isa

section
variable {cfg : Cfg} {gregs gram : Nat} {prog : List Instr} {data : List Word} {inp : List (BitVec 8)}

theorem find_isSome {dbg : List Word} {a : Word} : (watchHit dbg a).isSome = true ↔ ∃ j, j < 4 ∧ watches dbg a j = true := by
  unfold watchHit
  rw [List.find?_isSome]
  constructor
  · rintro ⟨j, h1, h2⟩
    refine ⟨j, ?_, h2⟩
    simp at h1
    omega
  · rintro ⟨j, h1, h2⟩
    refine ⟨j, ?_, h2⟩
    have : j = 0 ∨ j = 1 ∨ j = 2 ∨ j = 3 := by omega
    rcases this with rfl | rfl | rfl | rfl <;> simp

theorem stopCode_eq_zero {dbg : List Word} {s : State} {i : Instr} :
    stopCode dbg s i = 0 ↔ i ≠ .bkpt ∧ ∀ a, writeAddr s i = some a → ∀ j, j < 4 → watches dbg a j = false := by
  have key : ∀ a, (watchHit dbg a).isSome = false ↔ ∀ j, j < 4 → watches dbg a j = false := by
    intro a
    rw [← Bool.not_eq_true, find_isSome]
    push Not
    simp only [ne_eq, Bool.not_eq_true]
  unfold stopCode
  by_cases hb : i = .bkpt
  · simp [hb]
  · rw [if_neg hb]
    cases hw : writeAddr s i with
    | none => simp [hb]
    | some a =>
      dsimp only
      constructor
      · intro h
        refine ⟨hb, ?_⟩
        intro a' ha'
        cases ha'
        rw [← key]
        split at h
        · cases h
        · rename_i hn
          exact Bool.eq_false_iff.2 hn
      · rintro ⟨_, h⟩
        have := (key a).2 (h a rfl)
        rw [if_neg (by rw [this]; simp)]

theorem Since.outcome {d0 d : Dbg} (h : Since cfg d0 d) :
    ∃ k s, Outcome cfg d0.prog d0.dbg d0.trap d0.state d.phase k s d.dbg ∧ (d.phase ≠ .failed → d.count = d0.count + k ∧ s = d.state) := by
  cases h with
  | go h1 h2 h3 h4 h5 h6 h7 h8 => exact ⟨_, _, by rw [h1, h5]; exact .running h2 h8 h3, fun _ => ⟨h4, rfl⟩⟩
  | halt h1 h2 h3 h4 h5 h6 h7 => exact ⟨_, _, by rw [h1, h6]; exact .halt h2 h3 h4, fun _ => ⟨h5, rfl⟩⟩
  | single h1 h2 h3 h4 h5 h6 h7 => exact ⟨_, _, by rw [h1, h6]; exact .single h2 h3 h4, fun _ => ⟨h5, rfl⟩⟩
  | @stop k n s h1 h2 h3 h4 h5 h6 h7 h8 h9 h10 h11 =>
    unfold stopCode at h7
    split at h7
    · rename_i hb
      subst h7
      refine ⟨k + 1, d.state, ?_, fun _ => ⟨h9, rfl⟩⟩
      rw [h1, h10]
      have : marked d0.dbg s (instrAt d0.prog s.pc) = d0.dbg := by rw [hb]; rfl
      rw [this]
      refine .bkpt h2 h3 hb ?_ h6
      unfold step at h4
      rw [hb] at h4
      injection h4 with h4
      exact h4.symm
    · split at h7
      · rename_i a ha
        split at h7
        · rename_i hw
          subst h7
          obtain ⟨j, hj⟩ := Option.isSome_iff_exists.1 hw
          refine ⟨k + 1, d.state, ?_, fun _ => ⟨h9, rfl⟩⟩
          rw [h1, h10]
          have : marked d0.dbg s (instrAt d0.prog s.pc) = mark d0.dbg j := by
            unfold marked
            rw [ha, Option.bind_some, hj]
          rw [this]
          exact .watch h2 h3 ha hj h4 h5 h6
        · exact absurd h7.symm h8
      · exact absurd h7.symm h8
  | fail h1 h2 h3 h4 h5 => exact ⟨_, _, by rw [h1]; exact .fail h2 h3 h4 h5, fun h => absurd h1 h⟩

theorem play_cons {vm vm' : Vm} {i : Vm.Input} {is : List Vm.Input} {rs : List Reply} (h : vm.play cfg gregs gram (i :: is) = .ok (vm', rs)) :
    ∃ vm1 r1 r2, vm.step cfg gregs gram i = .ok (vm1, r1) ∧ vm1.play cfg gregs gram is = .ok (vm', r2) ∧ rs = r1 ++ r2 := by
  unfold Vm.play at h
  cases h1 : vm.step cfg gregs gram i with
  | error f => rw [h1] at h; cases h
  | ok x =>
    rw [h1, ok_bind] at h
    cases h2 : x.1.play cfg gregs gram is with
    | error f => rw [h2] at h; cases h
    | ok y =>
      rw [h2] at h
      cases h
      exact ⟨_, _, _, rfl, h2, rfl⟩

/-- A machine that corresponds, resumed at a stop. -/
theorem resume_matches {vm : Vm} {d : Dbg} (hm : Matches cfg vm d) {why : Reason} (hp : vm.phase = .stopped why) (hw : why ≠ .halt)
    {k : Cmd} (hk : k = .cont ∨ k = .step) {n : Nat} {vm' : Vm} {rs : List Reply}
    (h : vm.play cfg gregs gram (.cmd k :: List.replicate n .tick) = .ok (vm', rs)) :
    ∃ m s', Outcome cfg d.prog d.dbg (d.trap || k = .step) d.state vm'.phase m s' vm'.cpu.dbg ∧
      (vm'.phase ≠ .failed → vm'.cpu.retired = vm.cpu.retired + m) ∧
      (∀ why', vm'.phase = .stopped why' → Shows cfg vm'.cpu s' ∧ Idle vm'.cpu) ∧
      (vm'.phase = .stopped .singleStep → vm'.cpu.trap = false) := by
  obtain ⟨vm1, r1, r2, h1, h2, _⟩ := play_cons h
  have hpd : d.phase = .stopped why := hm.phase.symm.trans hp
  obtain ⟨hi, p1, p2, p3, p4⟩ := hm.live (by rw [hpd]; simp) (by rw [hpd]; simp)
  obtain ⟨hh, _⟩ := hm.run (Or.inr ⟨why, hpd, hw⟩)
  obtain ⟨d1, e1, e2⟩ := step_of_matches hm (by rcases hk with rfl | rfl <;> trivial) h1
  have hd1 : d1 = { d with phase := .running, trap := d.trap || k = .step } := by
    cases e1 with
    | command hs hc =>
      rw [hpd] at hs
      cases hs
      rcases hk with rfl | rfl
      · cases hc
        rw [if_neg hw]
        simp
      · cases hc
        rw [if_neg hw]
        simp
    | reason hs => rw [hpd] at hs; cases hs
    | leave hs => rw [hpd] at hs; cases hs
    | idle hs =>
      rcases hs with ⟨hs, _⟩ | ⟨_, _, hs, _⟩
      · cases hs
      · exact absurd hpd (hs why)
  subst hd1
  obtain ⟨d', e3, e4⟩ := since_ticks (d0 := { d with phase := .running, trap := d.trap || k = .step }) n e2
    (.go (k := 0) rfl rfl (fun _ => rfl) rfl rfl rfl rfl hh) h2
  obtain ⟨m, s', o, hf⟩ := e4.outcome
  by_cases hpf : vm'.phase = .failed
  · have hdf : d'.phase = .failed := e3.phase.symm.trans hpf
    rw [hdf] at o
    refine ⟨m, s', ?_, fun h => absurd hpf h, (fun w hw => by rw [hpf] at hw; cases hw), (fun hw => by rw [hpf] at hw; cases hw)⟩
    rw [hpf]
    cases o with
    | fail g1 g2 g3 g4 => exact .fail g1 g2 g3 g4
  · have hdf : d'.phase ≠ .failed := fun h => hpf (e3.phase.trans h)
    have hde : d'.phase ≠ .ended false := by
      intro h
      rw [h] at o
      cases o
    obtain ⟨i', q1, q2, q3, q4⟩ := e3.live hdf hde
    obtain ⟨f1, f2⟩ := hf hdf
    refine ⟨m, s', ?_, ?_, ?_, ?_⟩
    · rw [e3.phase, q2]; exact o
    · intro _; rw [q4, f1, p4]
    · intro w hw
      have hq := e3.quiet w (e3.phase.symm.trans hw)
      rw [f2]
      exact ⟨i'.shows hq, hq.idle⟩
    · intro hw
      rw [q3]
      have : d'.phase = .stopped .singleStep := e3.phase.symm.trans hw
      cases e4 with
      | go h => rw [h] at this; cases this
      | halt h => rw [h] at this; cases this
      | single h1 h2 h3 h4 h5 h6 h7 => exact h7
      | @stop k' n' s1 h => rw [h] at this; unfold reasonOf at this; split at this <;> cases this
      | fail h => rw [h] at this; cases this

/-- What PEEKREGS answers on an idle machine. -/
theorem peekRegs_eq {c : Cpu} {S : State} {why : Reason} (h : Inv cfg c S) (hq : Quiet c) :
    Vm.step cfg gregs gram ⟨c, .stopped why⟩ (.cmd .peekRegs) =
      .ok (⟨c, .stopped why⟩, [.regs ((shown cfg).map fun r => (r, S.look (.int r)))]) := by
  change (Cpu.peekRegs cfg c >>= _) >>= _ = _
  have : Cpu.peekRegs cfg c = .ok ((shown cfg).map fun r => (r, S.look (.int r))) := by
    apply mapM_ok
    intro r hr
    have hk : (cfg.key (.int r)).isSome = true := by
      unfold Cpu.shownRegs at hr
      simp at hr
      unfold Cfg.key
      rcases hr with rfl | rfl | rfl | ⟨i, hi, rfl⟩ <;> simp [*]
    rw [(h.shows hq).regs _ hk]
    rfl
  rw [this]
  rfl

/-- What PEEKFLOATREGS answers on an idle machine. -/
theorem peekFloats_eq {c : Cpu} {S : State} {why : Reason} (h : Inv cfg c S) (hq : Quiet c) :
    Vm.step cfg gregs gram ⟨c, .stopped why⟩ (.cmd .peekFloatRegs) =
      .ok (⟨c, .stopped why⟩, [.floats ((List.range cfg.nfreg).map fun i => S.look (.flt i))]) := by
  change (Cpu.peekFloats cfg c >>= _) >>= _ = _
  have : Cpu.peekFloats cfg c = .ok ((List.range cfg.nfreg).map fun i => S.look (.flt i)) := by
    apply mapM_ok
    intro i hi
    have hk : (cfg.key (.flt i)).isSome = true := by
      have := List.mem_range.1 hi
      unfold Cfg.key
      simp [this]
    exact (h.shows hq).regs _ hk
  rw [this]
  rfl

/-- Only the cell at `writeAddr` changes. -/
theorem store_mem {s s' : State} {a v : Word} (h : s.store a v = .ok s') :
    (s.mem a).isSome = true ∧ s' = { s with mem := fun a' => if a' = a then some v else s.mem a' } := by
  unfold State.store at h
  split at h
  · rename_i w hw
    cases h
    exact ⟨by rw [hw]; rfl, rfl⟩
  · cases h

theorem exec_mem {s s' : State} {i : Instr} (h : exec cfg s i = .ok s') :
    (∀ a, writeAddr s i ≠ some a → s'.mem a = s.mem a) ∧ (∀ a, writeAddr s i = some a → (s.mem a).isSome = true ∧ (s'.mem a).isSome = true) := by
  have key : ∀ {α β : Type} {x : Res α} {f : α → Res β} {y : β}, (x >>= f) = .ok y → ∃ a, x = .ok a ∧ f a = .ok y := by
    intro α β x f y h
    cases x with
    | error e => cases h
    | ok a => exact ⟨a, rfl, h⟩
  have none_ : ∀ {s'' : State}, writeAddr s i = none → s''.mem = s.mem →
      (∀ a, writeAddr s i ≠ some a → s''.mem a = s.mem a) ∧ (∀ a, writeAddr s i = some a → (s.mem a).isSome = true ∧ (s''.mem a).isSome = true) := by
    intro s'' h1 h2
    rw [h1, h2]
    exact ⟨fun _ _ => rfl, fun _ h => by cases h⟩
  have some_ : ∀ {s'' s1 : State} {b v : Word}, writeAddr s i = some b → s.store b v = .ok s1 → s''.mem = s1.mem →
      (∀ a, writeAddr s i ≠ some a → s''.mem a = s.mem a) ∧ (∀ a, writeAddr s i = some a → (s.mem a).isSome = true ∧ (s''.mem a).isSome = true) := by
    intro s'' s1 b v h1 h2 h3
    obtain ⟨g1, rfl⟩ := store_mem h2
    rw [h1, h3]
    constructor
    · intro a ha
      exact if_neg (fun h => ha (by rw [h]))
    · intro a ha
      cases ha
      exact ⟨g1, by dsimp only; rw [if_pos rfl]; rfl⟩
  cases i with
  | putchar r => change Except.ok _ = _ at h; cases h; exact none_ rfl rfl
  | putnum r => change Except.ok _ = _ at h; cases h; exact none_ rfl rfl
  | nop => change Except.ok _ = _ at h; cases h; exact none_ rfl rfl
  | halt => change Except.ok _ = _ at h; cases h; exact none_ rfl rfl
  | brk => change Except.ok _ = _ at h; cases h; exact none_ rfl rfl
  | bkpt => change Except.ok _ = _ at h; cases h; exact none_ rfl rfl
  | clf => change Except.ok _ = _ at h; cases h; exact none_ rfl rfl
  | ext f r => change Except.ok _ = _ at h; cases h; exact none_ rfl rfl
  | mov dst v =>
    obtain ⟨x, _, h⟩ := key h
    cases dst with
    | imm w => cases h
    | fimm w => cases h
    | val e => cases e <;> first | (cases h; exact none_ rfl rfl) | cases h
    | freg f => cases h; exact none_ rfl rfl
    | memImm a =>
      obtain ⟨s1, h1, h⟩ := key h
      cases h
      exact some_ rfl h1 rfl
    | mem e =>
      obtain ⟨s1, h1, h⟩ := key h
      cases h
      exact some_ rfl h1 rfl
  | lea d m => cases m <;> first | (cases h; exact none_ rfl rfl) | cases h
  | bin op b d r v =>
    obtain ⟨y, _, h⟩ := key h
    obtain ⟨z, _, h⟩ := key h
    cases h; exact none_ rfl rfl
  | fbin op f v =>
    obtain ⟨y, _, h⟩ := key h
    cases h; exact none_ rfl rfl
  | un op r =>
    obtain ⟨y, _, h⟩ := key h
    cases h; exact none_ rfl rfl
  | cmp r v =>
    obtain ⟨y, _, h⟩ := key h
    obtain ⟨z, _, h⟩ := key h
    cases h; exact none_ rfl rfl
  | fcmp f v =>
    obtain ⟨y, _, h⟩ := key h
    cases h; exact none_ rfl rfl
  | jmp a =>
    obtain ⟨y, _, h⟩ := key h
    cases h; exact none_ rfl rfl
  | jcc c a =>
    obtain ⟨y, _, h⟩ := key h
    split at h <;> (cases h; exact none_ rfl rfl)
  | loop r a =>
    obtain ⟨y, _, h⟩ := key h
    obtain ⟨z, _, h⟩ := key h
    dsimp only at h
    split at h <;> (cases h; exact none_ rfl rfl)
  | call a =>
    obtain ⟨y, _, h⟩ := key h
    obtain ⟨s1, h1, h⟩ := key h
    cases h
    exact some_ rfl h1 rfl
  | ret =>
    obtain ⟨y, _, h⟩ := key h
    cases h; exact none_ rfl rfl
  | push v =>
    obtain ⟨y, _, h⟩ := key h
    obtain ⟨s1, h1, h⟩ := key h
    cases h
    exact some_ rfl h1 rfl
  | fpush v =>
    obtain ⟨y, _, h⟩ := key h
    obtain ⟨s1, h1, h⟩ := key h
    cases h
    exact some_ rfl h1 rfl
  | pop r =>
    obtain ⟨y, _, h⟩ := key h
    cases h; exact none_ rfl rfl
  | fpop r =>
    obtain ⟨y, _, h⟩ := key h
    cases h; exact none_ rfl rfl
  | getchar r =>
    change (match skipSpace s.inp with | [] => _ | b :: rest => _) = _ at h
    split at h
    · cases h
    · cases h; exact none_ rfl rfl
  | nrw r f =>
    change (match cfg.fo.toInt (s.get (.flt f)) with | some w => _ | none => _) = _ at h
    split at h
    · cases h; exact none_ rfl rfl
    · cases h

end
end T86
