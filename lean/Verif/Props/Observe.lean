import Verif.Lemmas.Track
import Verif.Props.Run
import Verif.Props.Stepping

/-! # Debugging does not change what the program does: C69

The specification: `Observing` (Spec/Observe) are sessions without calls that write; `Isa.start` and `Isa.step` (Spec/Isa) say
what the program does; `Native.Shows` (Spec/Native) says what is seen of it. -/

set_option maxRecDepth 100000

namespace T86
open Isa Dbg Str Asm

variable {h : Host} {c : Client} {prog : List Instr} {data : List Word} {inp : List (BitVec 8)} {n n' : Native}

theorem no_bkpt (hb : ∀ i ∈ prog, i ≠ .bkpt) (a : Word) : instrAt prog a ≠ .bkpt := by
  unfold instrAt
  cases hi : prog[a.toNat]? with
  | none => simp
  | some i => exact hb i (List.mem_of_getElem? hi)

theorem Observing.track (hs : prog.length < 2 ^ 63) (hp : ∀ i ∈ prog, Plain h i) (hset : Setup h.cfg prog data)
    (hb : ∀ i ∈ prog, i ≠ .bkpt) (hx : Observing h c prog data inp n) :
    Native.Track h (fun s i => s = i.print h.ftos ∧ Plain h i) prog (fun s => ∃ k, runs h.cfg prog k (start h.cfg data inp) s) n := by
  induction hx with
  | begin hr => exact Native.begin_track hs hp hset hr ⟨0, rfl⟩
  | call o _ ho hr ih => exact Native.op_track Native.closed_runs (texts_print h) (no_bkpt hb) ho _ _ _ ih hr

/-- C69. Whatever has been looked at, wherever the program has been stopped and however it has been stepped: the debugger shows
a state the program gets to by itself. -/
theorem C69_states (hs : prog.length < 2 ^ 63) (hp : ∀ i ∈ prog, Plain h i) (hset : Setup h.cfg prog data)
    (hb : ∀ i ∈ prog, i ≠ .bkpt) (hx : Observing h c prog data inp n) :
    ∃ k s, runs h.cfg prog k (start h.cfg data inp) s ∧ Native.Shows h n s := by
  obtain ⟨s, h1, k, h2⟩ := (hx.track hs hp hset hb).shows
  exact ⟨k, s, h2, h1⟩

/-- C69. Each call takes the program from the state that is shown before it to the state that is shown after it, by executing
instructions of the program, and by executing none if it is not a call that lets the program go on. -/
theorem C69_call (hs : prog.length < 2 ^ 63) (hp : ∀ i ∈ prog, Plain h i) (hset : Setup h.cfg prog data)
    (hb : ∀ i ∈ prog, i ≠ .bkpt) (hx : Observing h c prog data inp n) {o : Op} (ho : o.Looks) (hr : o.run h c n = (.ok (), n')) :
    ∃ k l s s', runs h.cfg prog k (start h.cfg data inp) s ∧ Native.Shows h n s ∧ runs h.cfg prog l s s' ∧ Native.Shows h n' s' ∧
      (¬ o.Moves → s' = s) := by
  have hk := hx.track hs hp hset hb
  obtain ⟨d, hv, ⟨why, hph⟩, k, hd⟩ := hk.view
  have hsh := hv.shows hph hk.alive
  by_cases hm : o.Moves
  · have hk' : Native.Track h (fun s i => s = i.print h.ftos ∧ Plain h i) prog (fun s => ∃ k, runs h.cfg prog k d.state s) n :=
      ⟨hk.fine, ⟨d, hv, ⟨why, hph⟩, 0, rfl⟩, hk.alive⟩
    obtain ⟨s', h1, l, h2⟩ := (Native.op_track Native.closed_runs (texts_print h) (no_bkpt hb) ho _ _ _ hk' hr).shows
    exact ⟨k, l, d.state, s', hd, hsh, h2, h1, fun hn => absurd hm hn⟩
  · have hk' : Native.Track h (fun s i => s = i.print h.ftos ∧ Plain h i) prog (fun s => s = d.state) n :=
      ⟨hk.fine, ⟨d, hv, ⟨why, hph⟩, rfl⟩, hk.alive⟩
    obtain ⟨s', h1, h2⟩ := (Native.look_track (texts_print h) ho hm _ _ _ hk' hr).shows
    exact ⟨k, 0, d.state, s', hd, hsh, h2, h1, fun _ => h2⟩

theorem runs_prints {cfg : Cfg} : ∀ {k : Nat} {s t : State}, runs cfg prog k s t → s.out <+: t.out
  | 0, _, _, h => by cases h; exact List.prefix_refl _
  | _ + 1, s, _, ⟨_, t, h1, h2⟩ => by
    have : s.out <+: t.out := ⟨_, (exec_out h1).symm⟩
    exact this.trans (runs_prints h2)

variable {stod : Str → Except Err Word} {mode : Mode} {fo : FloatOps} {o : Run.Options}

/-- C69. What has been printed in the session is a part of what is printed when the same file is run without a debugger: when
that process has ended, what the session has printed is the beginning of it, and all of it if the program has come to its end
in the session too. -/
theorem C69_output {text : Str} {u : Unit'} (ha : assemble stod text = .ok u) (hf : Run.Fits o mode fo u.program u.data)
    (hh : h.cfg = o.cfg mode fo) (hs : u.program.length < 2 ^ 63) (hp : ∀ i ∈ u.program, Plain h i) (hb : ∀ i ∈ u.program, i ≠ .bkpt)
    (hx : Observing h c u.program u.data inp n) {m : Nat} {status : Nat} {out : List Out}
    (hr : Run.main stod mode fo o (some text) inp m = .exited status out) :
    n.link.vm.cpu.out <+: out ∧ (n.link.vm.cpu.halted = true → n.link.vm.cpu.out = out) := by
  obtain ⟨k, s, h1, h2⟩ := C69_states hs hp (hh ▸ hf.setup) hb hx
  have hm := C67_prints (inp := inp) ha hf m
  rw [hr] at hm
  obtain ⟨_, l, t, h3, h4, rfl⟩ := hm
  rw [hh] at h1
  have hle := runs_halted h3 h4 h1
  obtain ⟨d, rfl⟩ : ∃ d, l = k + d := ⟨l - k, by omega⟩
  have h5 := runs_unique h1 h3
  rw [h2.machine.out]
  refine ⟨runs_prints h5, fun hn => ?_⟩
  rw [h2.machine.halted] at hn
  cases d with
  | zero => cases h5; rfl
  | succ d => rw [h5.1] at hn; cases hn

/-- C69. When the program has come to its end in the session, the same file run without a debugger ends too, with the same
output; unless the program leaves room for undefined behaviour. -/
theorem C69_ends {text : Str} {u : Unit'} (ha : assemble stod text = .ok u) (hf : Run.Fits o mode fo u.program u.data)
    (hh : h.cfg = o.cfg mode fo) (hs : u.program.length < 2 ^ 63) (hp : ∀ i ∈ u.program, Plain h i) (hb : ∀ i ∈ u.program, i ≠ .bkpt)
    (hx : Observing h c u.program u.data inp n) (hn : n.link.vm.cpu.halted = true) :
    ∃ k, ∀ m, k ≤ m → Run.main stod mode fo o (some text) inp m = .exited 0 n.link.vm.cpu.out ∨
      (Run.main stod mode fo o (some text) inp m = .undefined ∧ UbPossible (o.cfg mode fo) u.program) := by
  obtain ⟨k, s, h1, h2⟩ := C69_states hs hp (hh ▸ hf.setup) hb hx
  rw [hh] at h1
  rw [h2.machine.halted] at hn
  rw [h2.machine.out]
  exact ⟨24 * k, fun m hm => C67_ends ha hf h1 hn hm⟩

/-! ## Examples and a counterexample -/

theorem Sample.observing {p : List Instr} : ∀ {l : List Op} {n : Native}, Observing Sample.host Sample.client p [] [] n →
    l.all (fun o => decide o.Looks) = true → Sample.succeed n l = true → Observing Sample.host Sample.client p [] [] (Sample.after n l)
  | [], _, hn, _, _ => hn
  | o :: l, n, hn, hw, hs => by
    simp only [List.all_cons, Bool.and_eq_true, Sample.succeed, decide_eq_true_eq] at hw hs
    exact Sample.observing (l := l) (.call o hn hw.1 (Prod.ext hs.1 rfl)) hw.2 hs.2

/-- The history of `Verif/Props/Native.lean`, and on to the end of the program. -/
def Sample.toEnd : List Op := Sample.history ++ [.disable 1, .step, .go]

def Sample.callsText : Str := ".text MOV R0, 3 CALL 6 MOV [8], R0 MOV R1, [8] PUTNUM R1 HALT ADD R0, 4 RET".toList

/-- The hypotheses of C69 are met by a session with breakpoints set, hit, disabled, enabled and removed, steps, a watchpoint hit
and a step over, at the end of which the program has ended; it has printed what the program prints without a debugger. -/
example :
    Observing Sample.host Sample.client Sample.calls [] [] (Sample.after (Sample.started Sample.calls) Sample.toEnd) ∧
    (∀ i ∈ Sample.calls, Plain Sample.host i) ∧ Setup Sample.host.cfg Sample.calls [] ∧ (∀ i ∈ Sample.calls, i ≠ .bkpt) ∧
    (Sample.after (Sample.started Sample.calls) Sample.toEnd).link.vm.cpu.halted = true ∧
    (Sample.after (Sample.started Sample.calls) Sample.toEnd).link.vm.cpu.out = [.num 7] ∧
    assemble exStod Sample.callsText = .ok ⟨Sample.calls, []⟩ ∧
    Sample.host.cfg = (⟨3, 1, 16⟩ : Run.Options).cfg .wrap Sample.fo ∧
    Run.Fits ⟨3, 1, 16⟩ .wrap Sample.fo Sample.calls [] ∧
    Run.main exStod .wrap Sample.fo ⟨3, 1, 16⟩ (some Sample.callsText) [] 100 = .exited 0 [.num 7] := by
  refine ⟨Sample.observing (.begin (e := .begin) (Prod.ext (by decide +kernel) rfl)) (by decide) (by decide +kernel), Sample.calls_plain,
    Sample.calls_setup, by decide, by decide +kernel, by decide +kernel, by decide +kernel, rfl, ⟨by decide, by decide⟩, by decide +kernel⟩

/-- A program that counts once and has a BKPT of its own. -/
def Sample.counts : List Instr := [.bin .add false (.gp 0) (.gp 0) (.imm 1), .bkpt, .halt]

theorem Sample.counts_once : ∀ k s, runs Sample.cfg Sample.counts k (start Sample.cfg [] []) s → s.reg (.int (.gp 0)) ≠ 2
  | 0, _, hr => by cases hr; decide
  | 1, _, ⟨_, t, h1, h2⟩ => by cases h1; cases h2; decide
  | 2, _, ⟨_, t, h1, _, t', h2, h3⟩ => by cases h1; cases h2; cases h3; decide
  | 3, _, ⟨_, t, h1, _, t', h2, _, t'', h3, h4⟩ => by cases h1; cases h2; cases h3; cases h4; decide
  | k + 4, _, ⟨_, t, h1, _, t', h2, _, t'', h3, h4, _⟩ => by cases h1; cases h2; cases h3; cases h4

/-- C69 fails for programs with a BKPT of their own: with a breakpoint on it, continuing twice executes the instruction before it
twice, and the debugger shows 2 where the program counts to 1. -/
theorem C69_own_bkpt : ∃ n, Observing Sample.host Sample.client Sample.counts [] [] n ∧ Setup Sample.host.cfg Sample.counts [] ∧
    (Native.getRegister Sample.host "R0".toList n).1 = .ok 2 ∧
    ∀ k s, runs Sample.cfg Sample.counts k (start Sample.cfg [] []) s → s.reg (.int (.gp 0)) ≠ 2 := by
  have h0 : Observing Sample.host Sample.client Sample.counts [] [] (Sample.after (Sample.started Sample.counts) [.set 1, .go, .go, .go]) :=
    Sample.observing (.begin (e := .begin) (Prod.ext (by decide +kernel) rfl)) (by decide) (by decide +kernel)
  have h1 : (Native.getRegister Sample.host "R0".toList (Sample.after (Sample.started Sample.counts) [.set 1, .go, .go, .go])).1 = .ok 2 := by
    decide +kernel
  exact ⟨_, h0, ⟨by decide, by decide, by decide⟩, h1, Sample.counts_once⟩

end T86
