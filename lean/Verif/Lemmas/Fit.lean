import Verif.Lemmas.Live

/-! In a debug session the machine stays able to make progress, whatever the debugger does at the stops. -/

set_option linter.unusedSimpArgs false
set_option linter.unusedVariables false

namespace T86
open Isa

section
variable {cfg : Cfg}

/-- A tick keeps the machine able to make progress. -/
theorem tick_live {c c' : Cpu} {S : State} (hi : Inv cfg c S) (hl : Live cfg c) (ht : Cpu.tick cfg c = .ok c') : Live cfg c' := by
  obtain ⟨own, n, m, b, hi⟩ := hi
  unfold Cpu.tick at ht
  rw [bind_ok_iff] at ht
  obtain ⟨c2, h2, ht⟩ := ht
  obtain ⟨c1, _, _, hl2, _, _⟩ := (tickRetire_live hi hl).get h2
  have hlive : Live cfg (Cpu.stepInterrupt c2) := by
    unfold Cpu.stepInterrupt
    split
    · exact ⟨hl2.gates, hl2.room, hl2.wm, hl2.entries⟩
    · exact hl2
  split at ht
  · cases ht; exact hl2
  · dsimp only at ht
    split at ht
    · cases ht; exact hlive
    · exact ((tickFront_live hlive).get ht).live

/-- The machine is able to make progress, unless it has failed, and says that it has halted only when it has. -/
structure Fit (cfg : Cfg) (vm : Vm) : Prop where
  live : vm.phase = .running ∨ (∃ why, vm.phase = .stopped why) → Live cfg vm.cpu
  over : vm.phase = .stopped .halt → vm.cpu.halted = true

theorem Live.congr {c c' : Cpu} (h : Live cfg c) (h1 : c'.ram.gates = c.ram.gates) (h2 : c'.ram.reads = c.ram.reads)
    (h3 : c'.wm = c.wm) (h4 : c'.entries = c.entries) : Live cfg c' :=
  ⟨h1.trans h.gates, by rw [h1, h2]; exact h.room, by rw [h3]; exact h.wm, by rw [h4]; exact h.entries⟩

theorem fit_start {prog : List Instr} {data : List Word} {inp : List (BitVec 8)} : Fit cfg (Vm.start cfg prog data inp).1 :=
  ⟨fun _ => live_init, fun h => by cases h⟩

/-- A command keeps the machine able to make progress. -/
theorem command_live {gregs gram : Nat} {why : Reason} {c : Cpu} {k : Cmd} {x : Cpu × Reply × Next} (hl : Live cfg c)
    (hx : Cpu.command cfg gregs gram why c k = .ok x) : Live cfg x.1 ∧ x.1.halted = c.halted := by
  cases k <;> simp only [Cpu.command] at hx
  case pokeText i ins =>
    obtain ⟨c1, e, hx⟩ := bind_ok_iff.1 hx
    cases hx
    unfold Cpu.setText at e
    split at e
    · cases e; exact ⟨hl.congr rfl rfl rfl rfl, rfl⟩
    · cases e
  case pokeData i v =>
    obtain ⟨c1, e, hx⟩ := bind_ok_iff.1 hx
    cases hx
    unfold Cpu.setMemory at e
    obtain ⟨r, e1, e⟩ := bind_ok_iff.1 e
    cases e
    unfold Ram.set at e1
    split at e1
    · cases e1; exact ⟨hl.congr rfl rfl rfl rfl, rfl⟩
    · cases e1
  case pokeDebugReg i v =>
    obtain ⟨c1, e, hx⟩ := bind_ok_iff.1 hx
    cases hx
    unfold Cpu.setDebugReg at e
    split at e
    · cases e; exact ⟨hl.congr rfl rfl rfl rfl, rfl⟩
    · cases e
  case pokeFloatReg i v =>
    obtain ⟨c1, e, hx⟩ := bind_ok_iff.1 hx
    cases hx
    unfold Cpu.pokeReg at e
    obtain ⟨_, _, e⟩ := bind_ok_iff.1 e
    obtain ⟨_, _, e⟩ := bind_ok_iff.1 e
    cases e; exact ⟨hl.congr rfl rfl rfl rfl, rfl⟩
  case pokeReg i v =>
    obtain ⟨c1, e, hx⟩ := bind_ok_iff.1 hx
    cases hx
    unfold Cpu.pokeReg at e
    obtain ⟨_, _, e⟩ := bind_ok_iff.1 e
    obtain ⟨_, _, e⟩ := bind_ok_iff.1 e
    cases e; exact ⟨hl.congr rfl rfl rfl rfl, rfl⟩
  case step => cases hx; exact ⟨hl.congr rfl rfl rfl rfl, rfl⟩
  all_goals first
    | (cases hx; exact ⟨hl, rfl⟩)
    | (obtain ⟨_, _, hx⟩ := bind_ok_iff.1 hx; cases hx; exact ⟨hl, rfl⟩)

/-- A step of the machine keeps it able to make progress. -/
theorem step_fit {gregs gram : Nat} {vm vm' : Vm} {d : Dbg} {i : Vm.Input} {rs : List Reply} (hm : Matches cfg vm d) (hf : Fit cfg vm)
    (hs : vm.step cfg gregs gram i = .ok (vm', rs)) : Fit cfg vm' := by
  refine ⟨fun hp' => ?_, fun hp' => ?_⟩
  · cases hp : vm.phase with
    | running =>
      have hl := hf.live (Or.inl hp)
      obtain ⟨hi, _⟩ := hm.live (by rw [← hm.phase, hp]; simp) (by rw [← hm.phase, hp]; simp)
      cases i with
      | cmd k =>
        simp only [Vm.step, hp] at hs
        cases hs
        exact hl
      | tick =>
        simp only [Vm.step, hp, Vm.tick] at hs
        cases ht : Cpu.tick cfg vm.cpu with
        | error f =>
          rw [ht] at hs
          cases f <;> cases hs
          rcases hp' with h | ⟨_, h⟩ <;> cases h
        | ok c' =>
          have hl' := tick_live hi hl ht
          rw [ht] at hs
          simp only at hs
          have he : ∀ why, Live cfg (Vm.enter c' why).1.cpu := by
            intro why
            unfold Vm.enter
            simp only
            split
            · exact hl'.congr rfl rfl rfl rfl
            · exact hl'
          split at hs
          · injection hs with hs; have := he .halt; rw [hs] at this; exact this
          · split at hs
            · cases hs; exact hl'
            · injection hs with hs; have := he .singleStep; rw [hs] at this; exact this
            · injection hs with hs; have := he .hwBkpt; rw [hs] at this; exact this
            · injection hs with hs; have := he .swBkpt; rw [hs] at this; exact this
            · cases hs
    | stopped why =>
      have hl := hf.live (Or.inr ⟨why, hp⟩)
      cases i with
      | tick =>
        simp only [Vm.step, hp] at hs
        cases hs
        exact hl
      | cmd k =>
        simp only [Vm.step, hp] at hs
        obtain ⟨x, hx, hs⟩ := bind_ok_iff.1 hs
        cases hs
        have := (command_live hl hx).1
        cases x.2.2 <;> exact this
    | failed =>
      have hsame : vm'.phase = .failed ∨ vm'.phase = .ended false := by
        unfold Vm.step at hs
        rw [hp] at hs
        cases i with
        | tick => cases hs; exact Or.inl hp
        | cmd k => cases k <;> cases hs <;> first | exact Or.inl hp | exact Or.inr rfl
      rcases hp' with h | ⟨_, h⟩ <;> rcases hsame with h' | h' <;> rw [h] at h' <;> cases h'
    | ended b =>
      have hsame : vm'.phase = .ended b := by
        unfold Vm.step at hs
        rw [hp] at hs
        cases i <;> cases hs <;> exact hp
      rcases hp' with h | ⟨_, h⟩ <;> rw [h] at hsame <;> cases hsame
  · cases hp : vm.phase with
    | running =>
      cases i with
      | cmd k =>
        simp only [Vm.step, hp] at hs
        cases hs
        rw [hp] at hp'; cases hp'
      | tick =>
        simp only [Vm.step, hp, Vm.tick] at hs
        cases ht : Cpu.tick cfg vm.cpu with
        | error f =>
          rw [ht] at hs
          cases f <;> cases hs
          cases hp'
        | ok c' =>
          rw [ht] at hs
          simp only at hs
          split at hs
          · rename_i hh
            injection hs with hs
            have : vm'.cpu = c' := by
              have := congrArg (fun x => x.1.cpu) hs
              simpa [Vm.enter] using this.symm
            rw [this]; exact hh
          · split at hs
            · cases hs; cases hp'
            all_goals first
              | (injection hs with hs; have := congrArg (fun x => x.1.phase) hs; simp only [Vm.enter] at this; rw [hp'] at this; cases this)
              | cases hs
    | stopped why =>
      have hl := hf.live (Or.inr ⟨why, hp⟩)
      cases i with
      | tick =>
        simp only [Vm.step, hp] at hs
        cases hs
        exact hf.over hp'
      | cmd k =>
        simp only [Vm.step, hp] at hs
        obtain ⟨x, hx, hs⟩ := bind_ok_iff.1 hs
        cases hs
        have h2 := (command_live hl hx).2
        cases hx2 : x.2.2 with
        | stay =>
          rw [hx2] at hp'
          simp only [Vm.leave] at hp' ⊢
          rw [h2]
          exact hf.over (by rw [hp]; exact hp')
        | resume =>
          rw [hx2] at hp'
          simp only [Vm.leave] at hp'
          split at hp' <;> cases hp'
        | quit => rw [hx2] at hp'; cases hp'
    | failed =>
      have hsame : vm'.phase = .failed ∨ vm'.phase = .ended false := by
        unfold Vm.step at hs
        rw [hp] at hs
        cases i with
        | tick => cases hs; exact Or.inl hp
        | cmd k => cases k <;> cases hs <;> first | exact Or.inl hp | exact Or.inr rfl
      rcases hsame with h' | h' <;> rw [hp'] at h' <;> cases h'
    | ended b =>
      have hsame : vm'.phase = .ended b := by
        unfold Vm.step at hs
        rw [hp] at hs
        cases i <;> cases hs <;> exact hp
      rw [hp'] at hsame; cases hsame

end
end T86
