import Verif.Lemmas.HazardTick
import Verif.Props.Run

/-! # C68: undefined behaviour has its cause in the program

The specification is `Hazard` in `Verif/Spec/Hazard.lean`: what the next few instructions, along the path the processor
expects, would do on the sequential machine. -/

set_option maxRecDepth 100000

namespace T86
open Isa Dbg Str Asm

variable {cfg : Cfg} {prog : List Instr} {data : List Word} {inp : List (BitVec 8)}

/-- C68. If the behaviour of the processor is undefined, then the program, executed one instruction after the other, gets to
a hazardous state. -/
theorem C68_cause (hs : Setup cfg prog data) (hm : cfg.mode = .wrap) {n : Nat}
    (h : Cpu.run cfg n (Cpu.init cfg prog data inp) = .error .ub) :
    ∃ k s, runs cfg prog k (start cfg data inp) s ∧ s.halted = false ∧ Hazard cfg prog s := by
  have := run_good (H := ∃ k s, runs cfg prog k (start cfg data inp) s ∧ s.halted = false ∧ Hazard cfg prog s) hm n
    (inv_init (inp := inp) hs.station hs.wf hs.data) (fun _ => rfl) (fun w hw => by cases hw) (fun k s h1 h2 h3 => ⟨k, s, h1, h2, h3⟩)
  rw [h] at this
  exact this rfl

/-- C68. A program that does not get to a hazardous state, and does not access memory that does not exist, runs for any
number of ticks. -/
theorem C68_defined (hs : Setup cfg prog data) (hm : cfg.mode = .wrap)
    (hz : ∀ k s, runs cfg prog k (start cfg data inp) s → s.halted = false → ¬ Hazard cfg prog s)
    (hok : ∀ k s, runs cfg prog k (start cfg data inp) s → s.halted = false → step cfg prog s ≠ .error (.exn .outOfRange))
    (n : Nat) : ∃ c, Cpu.run cfg n (Cpu.init cfg prog data inp) = .ok c := by
  cases h : Cpu.run cfg n (Cpu.init cfg prog data inp) with
  | ok c => exact ⟨c, rfl⟩
  | error f =>
    rcases C07_errors hs h with ⟨rfl, _⟩ | ⟨_, k, s, h1, h2, h3⟩
    · obtain ⟨k, s, h1, h2, h3⟩ := C68_cause hs hm h
      exact absurd h3 (hz k s h1 h2)
    · exact absurd h3 (hok k s h1 h2)

/-- C68. A program that halts on the sequential machine and does not get to a hazardous state halts on the processor, in
the same state. -/
theorem C68_halts (hs : Setup cfg prog data) (hf : Free cfg prog) (hm : cfg.mode = .wrap)
    (hz : ∀ k s, runs cfg prog k (start cfg data inp) s → s.halted = false → ¬ Hazard cfg prog s)
    {k : Nat} {s : State} (h : runs cfg prog k (start cfg data inp) s) (hh : s.halted = true) :
    ∃ t c, t ≤ 24 * k ∧ Cpu.run cfg t (Cpu.init cfg prog data inp) = .ok c ∧ c.halted = true ∧ Shows cfg c s := by
  obtain ⟨t, t1, ⟨c, h1, h2, h3⟩ | ⟨h1, _⟩⟩ := C17_halts (inp := inp) hs hf h hh
  · exact ⟨t, c, t1, h1, h2, h3⟩
  · obtain ⟨k, s, g1, g2, g3⟩ := C68_cause hs hm h1
    exact absurd g3 (hz k s g1 g2)

/-- C68. The text of a program that halts on the sequential machine and does not get to a hazardous state: running the file
ends with exit status 0 after at most 24 ticks for each instruction, having printed what the instructions print. -/
theorem C68_file {stod : Str → Except Err Word} {fo : FloatOps} {o : Run.Options} {text : Str} {u : Unit'}
    (ha : assemble stod text = .ok u) (hf : Run.Fits o .wrap fo u.program u.data)
    (hz : ∀ k s, runs (o.cfg .wrap fo) u.program k (start (o.cfg .wrap fo) u.data inp) s → s.halted = false →
      ¬ Hazard (o.cfg .wrap fo) u.program s)
    {k : Nat} {s : State} (hr : runs (o.cfg .wrap fo) u.program k (start (o.cfg .wrap fo) u.data inp) s)
    (hh : s.halted = true) {n : Nat} (hn : 24 * k ≤ n) :
    Run.main stod .wrap fo o (some text) inp n = .exited 0 s.out := by
  have hs := hf.setup
  have hfree : Free (o.cfg .wrap fo) u.program :=
    ⟨by change 0 < 1; decide, by change 0 < 4; decide, fun i hi => C17_writable (C22_producible ha i hi)⟩
  obtain ⟨t, c, ht, h1, h2, h3⟩ := C68_halts hs hfree rfl hz hr hh
  rw [Run.main_eq ha hf.2, ← h3.out]
  exact Run.loop_halts t rfl (fun m d hd => Run.intr_le hs hd) h1 h2 n (by omega)

/-- C68. A program that gets to an access to memory that does not exist and not to a hazardous state: running the file ends
with that failure after at most 24 ticks for each instruction, having printed exactly what the instructions
before print. -/
theorem C68_fails {stod : Str → Except Err Word} {fo : FloatOps} {o : Run.Options} {text : Str} {u : Unit'}
    (ha : assemble stod text = .ok u) (hf : Run.Fits o .wrap fo u.program u.data)
    (hz : ∀ k s, runs (o.cfg .wrap fo) u.program k (start (o.cfg .wrap fo) u.data inp) s → s.halted = false →
      ¬ Hazard (o.cfg .wrap fo) u.program s)
    {k : Nat} {s : State} (hr : runs (o.cfg .wrap fo) u.program k (start (o.cfg .wrap fo) u.data inp) s)
    (hh : s.halted = false) (he : step (o.cfg .wrap fo) u.program s = .error (.exn .outOfRange))
    {n : Nat} (hn : 24 * (k + 1) ≤ n) :
    Run.main stod .wrap fo o (some text) inp n = .failed s.out := by
  rcases C67_fails ha hf hr hh he hn with h | ⟨h, _⟩
  · exact h
  · rw [Run.main_eq ha hf.2] at h
    have hc := Run.loop_cases (cfg := o.cfg .wrap fo) n (c := Cpu.init (o.cfg .wrap fo) u.program u.data inp) rfl
    rw [h] at hc
    obtain ⟨m, h1⟩ := hc
    obtain ⟨k, s, g1, g2, g3⟩ := C68_cause hf.setup rfl h1
    exact absurd g3 (hz k s g1 g2)

/-- C68. Programs of instructions that are always defined have no hazardous states at all. -/
theorem C68_harmless (hm : cfg.mode = .wrap) (hw : ∀ i ∈ prog, i.wf cfg = true) (hr : ∀ i ∈ prog, i.risky = false) (s : State) :
    ¬ Hazard cfg prog s := by
  have hat : ∀ pc, (instrAt prog pc).risky = false := by
    intro pc
    unfold instrAt
    cases hg : prog[pc.toNat]? with
    | none => rfl
    | some i => exact hr i (List.mem_of_getElem? hg)
  have tot : ∀ j (t : State), (∃ u : State, t = u.total) → ∃ u : State, foresee cfg prog j t = u.total := by
    intro j
    induction j with
    | zero => exact fun t h => h
    | succ j ih =>
      rintro t ⟨u, rfl⟩
      refine ih _ ⟨specNext cfg u (instrAt prog u.pc), ?_⟩
      refine onward_dataStep hm (wf_instrAt hw _) ?_
      intro d r r' hl
      have := hat u.pc
      rw [show instrAt prog u.pc = _ from hl] at this
      cases this
  intro h
  cases h with
  | undefined j hj hn hi =>
    obtain ⟨u, hu⟩ := tot j s.total ⟨s, rfl⟩
    have hwn : wanted cfg prog s j = instrAt prog u.pc := by unfold wanted; rw [hu]; rfl
    rw [hwn, hu] at hn
    have hwf := wf_instrAt hw u.pc
    have hrk := hat u.pc
    have hs := exec_sat (cfg := cfg) (s := u.total) hwf
    cases hx : (instrAt prog u.pc).exec cfg (valsOf u.total (instrAt prog u.pc)) with
    | error f =>
      rw [hx] at hs
      rcases hs.2 with h1 | h1
      · rw [hm] at h1; cases h1
      · rw [hrk] at h1; cases h1
    | ok x =>
      refine hn _ (exec_eq_dataStep hwf ?_ hx (fun a v _ => rfl) ?_)
      · unfold faultOf
        rw [List.any_eq_false]
        intro op _
        cases op <;> simp [opFault, State.total]
      · intro r h1
        rw [h1] at hrk
        cases hrk
  | lea j hj d r r' hl =>
    have := hat (foresee cfg prog j s.total).pc
    unfold wanted at hl
    rw [hl] at this
    cases this
  | stores j j' h1 h2 a h3 h4 =>
    have h5 := hat (foresee cfg prog j s.total).pc
    unfold writes wanted at h4
    generalize instrAt prog (foresee cfg prog j s.total).pc = i at h4 h5
    cases i with
    | mov d v => cases d <;> first | (cases h5; done) | cases h4
    | _ => first | (cases h5; done) | cases h4

/-! ## Examples -/

/-- A check for hazards. -/
def calm (cfg : Cfg) (prog : List Instr) (s : State) : Bool :=
  (List.range cfg.rsMax).all fun j =>
    ((exec cfg (foresee cfg prog j s.total) (wanted cfg prog s j)).isOk ||
      (j != 0 && match wanted cfg prog s j with | .getchar _ => true | _ => false)) &&
    (match wanted cfg prog s j with | .lea _ (.mem (.regReg _ _)) => false | _ => true) &&
    (match writes cfg prog s j with
      | none => true
      | some a => (List.range j).all fun j' => writes cfg prog s j' != some a)

theorem calm_sound {s : State} (h : calm cfg prog s = true) : ¬ Hazard cfg prog s := by
  unfold calm at h
  rw [List.all_eq_true] at h
  intro hz
  cases hz with
  | undefined j hj hn hi =>
    have := h j (List.mem_range.2 hj)
    rw [Bool.and_eq_true, Bool.and_eq_true] at this
    have h1 := this.1.1
    cases hx : exec cfg (foresee cfg prog j s.total) (wanted cfg prog s j) with
    | ok t => exact hn t hx
    | error f =>
      rw [hx] at h1
      simp only [Except.isOk, Except.toBool, Bool.false_or, Bool.and_eq_true, bne_iff_ne] at h1
      rcases hi with hi | hi
      · exact h1.1 hi
      · have h2 := h1.2
        split at h2
        · next r hr => exact hi r hr
        · cases h2
  | lea j hj d r r' hl =>
    have := h j (List.mem_range.2 hj)
    rw [Bool.and_eq_true, Bool.and_eq_true, hl] at this
    exact absurd this.1.2 (by simp)
  | stores j j' h1 h2 a h3 h4 =>
    have := h j (List.mem_range.2 h2)
    rw [Bool.and_eq_true, h4] at this
    have := this.2
    simp only [List.all_eq_true, bne_iff_ne] at this
    exact this j' (List.mem_range.2 h1) h3

/-- A check of a whole run. -/
def calmRun (cfg : Cfg) (prog : List Instr) : Nat → State → Bool
  | 0, s => s.halted
  | n + 1, s => s.halted || (calm cfg prog s && match step cfg prog s with
    | .ok s' => calmRun cfg prog n s'
    | .error _ => true)

theorem calmRun_sound : ∀ (n : Nat) {s : State}, calmRun cfg prog n s = true →
    ∀ k s', runs cfg prog k s s' → s'.halted = false → ¬ Hazard cfg prog s'
  | n, s, h, k, s', hr, hh => by
    by_cases hs : s.halted = true
    · cases k with
      | zero => cases hr; rw [hs] at hh; cases hh
      | succ k => have := hr.1; rw [hs] at this; cases this
    · cases n with
      | zero => exact absurd h hs
      | succ n =>
        unfold calmRun at h
        simp only [Bool.not_eq_true] at hs
        rw [hs, Bool.false_or, Bool.and_eq_true] at h
        cases k with
        | zero => cases hr; exact calm_sound h.1
        | succ k =>
          obtain ⟨_, t, h1, h2⟩ := hr
          rw [h1] at h
          exact calmRun_sound n h.2 k s' h2 hh

/-- A program with a call, stores, a division and the stack. -/
def exCalmFile : Str :=
  ".text 0 MOV R0, 12\n1 PUSH R0\n2 CALL 6\n3 POP R2\n4 PUTNUM R0\n5 HALT\n6 DIV R0, 3\n7 MOV [1], R0\n8 RET".toList

def exCalmUnit : Unit' :=
  ⟨[.mov (.val (.reg (.gp 0))) (.imm 12), .push (.val (.reg (.gp 0))), .call (.imm 6), .pop (.gp 2), .putnum (.gp 0), .halt,
    .bin .div false (.gp 0) (.gp 0) (.imm 3), .mov (.memImm 1) (.val (.reg (.gp 0))), .ret], []⟩

/-- The hypotheses of `C68_file` are met by a program that calls, stores, divides and uses the stack. -/
example : assemble exStod exCalmFile = .ok exCalmUnit ∧ Run.Fits {} .wrap Sample.fo exCalmUnit.program exCalmUnit.data ∧
    (∀ k s, runs (Run.Options.cfg {} .wrap Sample.fo) exCalmUnit.program k
      (start (Run.Options.cfg {} .wrap Sample.fo) exCalmUnit.data []) s → s.halted = false →
      ¬ Hazard (Run.Options.cfg {} .wrap Sample.fo) exCalmUnit.program s) ∧
    (∃ s, runs (Run.Options.cfg {} .wrap Sample.fo) exCalmUnit.program 9
      (start (Run.Options.cfg {} .wrap Sample.fo) exCalmUnit.data []) s ∧ s.halted = true ∧ s.out = [.num 4]) := by
  refine ⟨by decide +kernel, ⟨by decide, by decide⟩, calmRun_sound 20 (by decide +kernel), ?_⟩
  exact ⟨_, ⟨rfl, _, rfl, rfl, _, rfl, rfl, _, rfl, rfl, _, rfl, rfl, _, rfl, rfl, _, rfl, rfl, _, rfl, rfl, _, rfl, rfl, _, rfl,
    rfl⟩, rfl, by decide +kernel⟩

/-- The hypotheses of `C68_fails`, with a division before the access. -/
example : let u : Unit' := ⟨[.mov (.val (.reg (.gp 0))) (.imm 65), .bin .div false (.gp 0) (.gp 0) (.imm 5),
      .mov (.val (.reg (.gp 0))) (.memImm 5000), .halt], []⟩
    (∀ k s, runs (Run.Options.cfg {} .wrap Sample.fo) u.program k
      (start (Run.Options.cfg {} .wrap Sample.fo) u.data []) s → s.halted = false →
      ¬ Hazard (Run.Options.cfg {} .wrap Sample.fo) u.program s) ∧
    ∃ s, runs (Run.Options.cfg {} .wrap Sample.fo) u.program 2 (start (Run.Options.cfg {} .wrap Sample.fo) u.data []) s ∧
      s.halted = false ∧ step (Run.Options.cfg {} .wrap Sample.fo) u.program s = .error (.exn .outOfRange) := by
  refine ⟨calmRun_sound 20 (by decide +kernel), _, ⟨rfl, _, rfl, rfl, _, rfl, rfl⟩, rfl, rfl⟩

/-- Hazards are real: the two stores of `C67_two_stores` are one, right at the start, and the behaviour is undefined. -/
theorem C68_two_stores :
    Run.main exStod .wrap Sample.fo {} (some ".text MOV [5], 1 MOV [5], 2 HALT".toList) [] 40 = .undefined ∧
    let u : Unit' := ⟨[.mov (.memImm 5) (.imm 1), .mov (.memImm 5) (.imm 2), .halt], []⟩
    Hazard (Run.Options.cfg {} .wrap Sample.fo) u.program (start (Run.Options.cfg {} .wrap Sample.fo) u.data []) :=
  ⟨C67_two_stores.1, .stores 1 0 (by decide) (by decide) 5 (by decide +kernel) (by decide +kernel)⟩

/-- So is the division of `C09_speculative_division`, which stands behind a return and is never reached. -/
theorem C68_unreached_division :
    Cpu.run Sample.cfg 40 (Cpu.init Sample.cfg specDiv [0, 0, 0, 0, 0, 3] []) = .error .ub ∧
    ∃ s, runs Sample.cfg specDiv 1 (start Sample.cfg [0, 0, 0, 0, 0, 3] []) s ∧ Hazard Sample.cfg specDiv s := by
  refine ⟨C09_speculative_division.2.2, _, ⟨rfl, _, rfl, rfl⟩, .undefined 1 (by decide) ?_ (Or.inr ?_)⟩
  · intro t ht
    have : Except.isOk _ = true := congrArg Except.isOk ht
    revert this
    clear ht t
    decide +kernel
  · intro r h
    have : _ = true := congrArg (fun i => match i with | Instr.getchar _ => true | _ => false) h
    revert this
    clear h r
    change ¬ (_ = true)
    decide +kernel

/-- Being hazardous is not enough for undefined behaviour: here the processor knows in time that it does not jump. -/
example : Run.main exStod .wrap Sample.fo {} (some ".text JZ 2 HALT DIV R0, R1 HALT".toList) [] 120 = .exited 0 [] ∧
    calm (Run.Options.cfg {} .wrap Sample.fo) [.jcc .jz (.imm 2), .halt, .bin .div false (.gp 0) (.gp 0) (.val (.reg (.gp 1))), .halt]
      (start (Run.Options.cfg {} .wrap Sample.fo) [] []) = false := by
  decide +kernel

end T86
