import Verif.Lemmas.Ahead
import Verif.Props.Sample

/-! # Properties of the processor: C07-C09, C13, C14, C47, C48

The specification is the sequential machine of `Verif/Spec/Isa.lean` (`Isa.step`, `Isa.runs`, `Isa.start`) and the
notions `Shows`, `Idle` and `Setup` of `Verif/Spec/Session.lean`. -/

set_option maxRecDepth 100000

namespace T86
open Isa

variable {cfg : Cfg} {prog : List Instr} {data : List Word} {inp : List (BitVec 8)}

theorem run_init (hs : Setup cfg prog data) (n : Nat) :
    Sat (Cpu.run cfg n (Cpu.init cfg prog data inp)) (fun c => ∃ s, RunTo cfg (Cpu.init cfg prog data inp) c (start cfg data inp) s)
      (RunFault cfg prog (start cfg data inp)) :=
  run_sat n (inv_init hs.station hs.wf hs.data) (fun _ => rfl) (fun h => by cases h)

/-- C07. After any number of ticks the processor has done what the sequential machine does with as many instructions as
the processor has retired: the memory, the output, the rest of the input and the halt are the same. -/
theorem C07_refines (hs : Setup cfg prog data) {n : Nat} {c : Cpu} (h : Cpu.run cfg n (Cpu.init cfg prog data inp) = .ok c) :
    ∃ s, runs cfg prog c.retired (start cfg data inp) s ∧ (∀ a : Word, c.ram.mem[a.toNat]? = s.mem a) ∧ c.out = s.out ∧
      c.inp = s.inp ∧ c.halted = s.halted := by
  have := run_init (inp := inp) hs n
  rw [h] at this
  obtain ⟨s, r⟩ := this
  obtain ⟨k, hk, hr⟩ := r.runs
  have : c.retired = k := hk.trans (Nat.zero_add k)
  exact ⟨s, this ▸ hr, fun a => (r.inv.memEq a).symm, r.inv.out, r.inv.inp, r.inv.halted⟩

/-- C07. When the processor has halted, every register, too, has the value of the sequential machine, and nothing is in
flight. -/
theorem C07_halted (hs : Setup cfg prog data) {n : Nat} {c : Cpu} (h : Cpu.run cfg n (Cpu.init cfg prog data inp) = .ok c)
    (hh : c.halted = true) : ∃ s, runs cfg prog c.retired (start cfg data inp) s ∧ Shows cfg c s ∧ Idle c := by
  have := run_init (inp := inp) hs n
  rw [h] at this
  obtain ⟨s, r⟩ := this
  obtain ⟨k, hk, hr⟩ := r.runs
  have hq := r.halt (r.inv.halted ▸ hh)
  have : c.retired = k := hk.trans (Nat.zero_add k)
  exact ⟨s, this ▸ hr, r.inv.shows hq, hq.idle⟩

/-- C07. The only errors are undefined behaviour of the C++ (for configurations or programs that leave room for it) and
accesses to memory that does not exist, which the sequential machine makes as well. Assertions never fail, no other
exception is thrown. -/
theorem C07_errors (hs : Setup cfg prog data) {n : Nat} {f : Fault} (h : Cpu.run cfg n (Cpu.init cfg prog data inp) = .error f) :
    (f = .ub ∧ UbPossible cfg prog) ∨
    (f = .exn .outOfRange ∧ ∃ k s, runs cfg prog k (start cfg data inp) s ∧ s.halted = false ∧
      step cfg prog s = .error (.exn .outOfRange)) := by
  have := run_init (inp := inp) hs n
  rw [h] at this
  exact this

/-- C07. For wrapping arithmetic and programs of instructions that are always defined, the processor runs for any number
of ticks unless the sequential machine accesses memory that does not exist. -/
theorem C07_defined (hs : Setup cfg prog data) (hm : cfg.mode = .wrap) (hr : ∀ i ∈ prog, i.risky = false)
    (hok : ∀ k s, runs cfg prog k (start cfg data inp) s → s.halted = false → step cfg prog s ≠ .error (.exn .outOfRange))
    (n : Nat) : ∃ c, Cpu.run cfg n (Cpu.init cfg prog data inp) = .ok c := by
  cases h : Cpu.run cfg n (Cpu.init cfg prog data inp) with
  | ok c => exact ⟨c, rfl⟩
  | error f =>
    rcases C07_errors hs h with ⟨_, hu | ⟨i, hi, hu⟩⟩ | ⟨_, k, s, h1, h2, h3⟩
    · rw [hm] at hu; cases hu
    · rw [hr i hi] at hu; cases hu
    · exact absurd h3 (hok k s h1 h2)

/-- The sample program meets `Setup`. -/
theorem sample_setup : Setup Sample.cfg Sample.prog [] := ⟨by decide, by decide, by decide⟩

/-- Non-vacuity of C07: the sample program, with mispredicted jumps and memory accesses, halts after 42 ticks and has
printed 6. -/
example : (Cpu.run Sample.cfg 42 (Cpu.init Sample.cfg Sample.prog [] [])).map (fun c => (c.halted, c.out, c.retired)) =
    .ok (true, [.num 6], 11) := by decide +kernel

/-- Non-vacuity of the error case: a load from outside of the memory. -/
example : Cpu.run Sample.cfg 20 (Cpu.init Sample.cfg [.mov (.val (.reg (.gp 0))) (.memImm 16), .halt] [] []) =
    .error (.exn .outOfRange) := by decide +kernel

/-- Non-vacuity of `C07_defined`: a loop without end. -/
example : ∃ c, Cpu.run Sample.cfg 100000000 (Cpu.init Sample.cfg [.bin .add true (.gp 1) (.gp 1) (.imm 1), .jmp (.imm 0)] [] []) = .ok c := by
  refine C07_defined ⟨by decide, by decide, by decide⟩ rfl (by decide) ?_ _
  intro k s _ _ he
  unfold step instrAt at he
  obtain ⟨i, hi⟩ : ∃ i, s.pc.toNat = i := ⟨_, rfl⟩
  rw [hi] at he
  match i, he with
  | 0, he => simp [exec, State.operand, Sample.cfg, BinOp.alu, Alu.add, sadd, bind, Except.bind, pure, Except.pure] at he
  | 1, he => simp [exec, State.operand, bind, Except.bind, pure, Except.pure] at he
  | i + 2, he => simp [exec] at he

/-! ## C08 -/

/-- C08. In every tick of a running processor, whatever is in flight, memory, output and input change exactly as by the
next `j` instructions of the sequential machine, `j` being the number of instructions that retire. When nothing is left in
flight (as after the recovery from a wrong prediction) all registers are those of the sequential machine, and the
processor goes on fetching at the address of the instruction that comes next on the sequential machine. -/
theorem C08_no_trace (hs : Setup cfg prog data) {n : Nat} {c c' : Cpu} (h : Cpu.run cfg n (Cpu.init cfg prog data inp) = .ok c)
    (hh : c.halted = false) (ht : Cpu.tick cfg c = .ok c') :
    ∃ s s' j, runs cfg prog c.retired (start cfg data inp) s ∧ runs cfg prog j s s' ∧ c'.retired = c.retired + j ∧
      (∀ a : Word, c.ram.mem[a.toNat]? = s.mem a) ∧ c.out = s.out ∧ c.inp = s.inp ∧
      (∀ a : Word, c'.ram.mem[a.toNat]? = s'.mem a) ∧ c'.out = s'.out ∧ c'.inp = s'.inp ∧
      (Idle c' → Shows cfg c' s' ∧ c'.spc = s'.pc) := by
  have := run_init (inp := inp) hs n
  rw [h] at this
  obtain ⟨s, r⟩ := this
  obtain ⟨k, hk, hr⟩ := r.runs
  have hhs : s.halted = false := r.inv.halted.symm.trans hh
  have ht2 := tick_sat r.inv hhs (r.run hhs)
  rw [ht] at ht2
  obtain ⟨s', r'⟩ := tick_run ht2
  obtain ⟨j, hj, hr'⟩ := r'.runs
  rw [r.prog] at hr'
  have : c.retired = k := hk.trans (Nat.zero_add k)
  refine ⟨s, s', j, this ▸ hr, hr', hj, fun a => (r.inv.memEq a).symm, r.inv.out, r.inv.inp, fun a => (r'.inv.memEq a).symm, r'.inv.out,
    r'.inv.inp, fun hi => ?_⟩
  have hq : Quiet c' := ⟨hi.1, hi.2.1, hi.2.2.1, hi.2.2.2⟩
  exact ⟨r'.inv.shows hq, r'.inv.spc hq⟩

/-- Non-vacuity of C08: in the sample program, tick 27 finds the prediction of the third LOOP (in front) wrong, while the
instruction predicted to follow is already in flight; afterwards nothing is in flight and the next fetch is at 3. -/
example : (Cpu.run Sample.cfg 26 (Cpu.init Sample.cfg Sample.prog [] [])).map (fun c => (c.entries.map (·.instr), c.preds.take 1)) =
      .ok ([Sample.prog.getD 2 .nop, Sample.prog.getD 1 .nop], [1]) ∧
    (Cpu.run Sample.cfg 27 (Cpu.init Sample.cfg Sample.prog [] [])).map (fun c => (c.entries, c.preds, c.fetch.map (·.nextPc))) =
      .ok ([], [], some 4) := by decide +kernel

/-! ## C09 -/

/-- C09, the part that holds: an exception of the processor is an access to memory that does not exist, and it is one that
the sequential machine makes; failed assertions do not happen at all. What is missing: undefined behaviour of the host
(division by zero, ...) on a wrong path is not excluded, see `C09_speculative_division`. -/
theorem C09_faults_partial (hs : Setup cfg prog data) {n : Nat} {f : Fault}
    (h : Cpu.run cfg n (Cpu.init cfg prog data inp) = .error f) (hu : f ≠ .ub) :
    f = .exn .outOfRange ∧ ∃ k s, runs cfg prog k (start cfg data inp) s ∧ s.halted = false ∧
      step cfg prog s = .error (.exn .outOfRange) := by
  rcases C07_errors hs h with ⟨h, _⟩ | h
  · exact absurd h hu
  · exact h

/-- A return to address 3, followed by a division by zero at address 2. -/
def specDiv : List Instr :=
  [.mov (.val (.reg .sp)) (.imm 5), .ret, .bin .div true (.gp 0) (.gp 0) (.val (.reg (.gp 1))), .halt]

/-- Non-vacuity of `C09_faults_partial`: a wrong path with a load from outside of the memory, which is not reported. -/
example : (Cpu.run Sample.cfg 40 (Cpu.init Sample.cfg
    [.mov (.val (.reg .sp)) (.imm 5), .ret, .mov (.val (.reg (.gp 0))) (.memImm 99), .halt] [0, 0, 0, 0, 0, 3] [])).map
      (fun c => c.halted) = .ok true ∧
    Cpu.run Sample.cfg 40 (Cpu.init Sample.cfg [.mov (.val (.reg (.gp 0))) (.memImm 99), .halt] [] []) = .error (.exn .outOfRange) := by
  decide +kernel

/-- C09 does not hold in full: a program that halts without error on the sequential machine makes the processor divide by
zero, on a path that is only predicted. -/
theorem C09_speculative_division :
    Setup Sample.cfg specDiv [0, 0, 0, 0, 0, 3] ∧
    (∃ s, runs Sample.cfg specDiv 3 (start Sample.cfg [0, 0, 0, 0, 0, 3] []) s ∧ s.halted = true) ∧
    Cpu.run Sample.cfg 40 (Cpu.init Sample.cfg specDiv [0, 0, 0, 0, 0, 3] []) = .error .ub := by
  refine ⟨⟨by decide, by decide, by decide⟩, ?_, by decide +kernel⟩
  exact ⟨_, ⟨rfl, _, rfl, rfl, _, rfl, rfl, _, rfl, rfl⟩, rfl⟩

/-! ## C47 -/

/-- C47. After any number of ticks the output is what the retired instructions print when they are executed one after the
other in program order, each printing once; the remaining input is what they leave. -/
theorem C47_io_order (hs : Setup cfg prog data) {n : Nat} {c : Cpu} (h : Cpu.run cfg n (Cpu.init cfg prog data inp) = .ok c) :
    c.out = printed cfg prog c.retired (start cfg data inp) ∧
    ∃ s, runs cfg prog c.retired (start cfg data inp) s ∧ c.inp = s.inp := by
  obtain ⟨s, h1, _, h2, h3, _⟩ := C07_refines hs h
  exact ⟨h2.trans (runs_printed h1), s, h1, h3⟩

/-- C47. What has been printed stays printed, in the same order; retirement never goes back. -/
theorem C47_output_grows (hs : Setup cfg prog data) {n m : Nat} {c c' : Cpu}
    (h : Cpu.run cfg n (Cpu.init cfg prog data inp) = .ok c) (h' : Cpu.run cfg m c = .ok c') :
    c.retired ≤ c'.retired ∧ ∃ l, c'.out = c.out ++ l := by
  have := run_init (inp := inp) hs n
  rw [h] at this
  obtain ⟨s, r⟩ := this
  have := run_sat m r.inv r.run r.halt
  rw [h'] at this
  obtain ⟨s', r'⟩ := this
  obtain ⟨k, hk, hr⟩ := r'.runs
  exact ⟨by omega, _, by rw [r'.inv.out, runs_printed hr, r.inv.out]⟩

/-- Non-vacuity of C47: a program that echoes its input. -/
example : (Cpu.run Sample.cfg 60 (Cpu.init Sample.cfg
    [.getchar (.gp 0), .putchar (.gp 0), .getchar (.gp 1), .putchar (.gp 1), .putnum (.gp 0), .halt] [] [65, 32, 66, 67])).map
      (fun c => (c.out, c.inp, c.halted)) = .ok ([.char 65, .char 66, .num 65], [67], true) := by decide +kernel

/-! ## C48 -/

/-- C48. At every time the station holds at most as many entries as configured, and the free ALUs together with the
entries that execute on an ALU are the ALUs the machine has. -/
theorem C48_resources (hs : Setup cfg prog data) {n : Nat} {c : Cpu} (h : Cpu.run cfg n (Cpu.init cfg prog data inp) = .ok c) :
    c.entries.length ≤ cfg.rsMax ∧
    c.freeAlus + (c.entries.filter fun e => e.st = .executing ∧ e.instr.needsAlu).length = cfg.alus := by
  have := run_init (inp := inp) hs n
  rw [h] at this
  obtain ⟨s, r⟩ := this
  obtain ⟨_, _, _, _, w⟩ := r.inv
  refine ⟨w.cap, ?_⟩
  rw [← List.countP_eq_length_filter]
  exact w.alus

/-- Non-vacuity of C48: after 4 ticks of the sample program the station is full; after 8 ticks the ALU is busy. -/
example : (Cpu.run Sample.cfg 4 (Cpu.init Sample.cfg Sample.prog [] [])).map (fun c => c.entries.length) = .ok Sample.cfg.rsMax ∧
    (Cpu.run Sample.cfg 8 (Cpu.init Sample.cfg Sample.prog [] [])).map (fun c => c.freeAlus) = .ok 0 := by decide +kernel

/-! ## C13 -/

/-- The physical registers named by the live tables: the current table and the two tables of every entry. -/
def liveNames (c : Cpu) : List Nat := c.rat ++ c.entries.flatMap fun e => e.rrat ++ e.wrat

/-- C13. At every time the reference count of a physical register is the number of live table slots that name it. -/
theorem C13_refcounts (hs : Setup cfg prog data) {n : Nat} {c : Cpu} (h : Cpu.run cfg n (Cpu.init cfg prog data inp) = .ok c) :
    ∀ p x, c.regs[p]? = some x → x.subs = (liveNames c).count p := by
  have := run_init (inp := inp) hs n
  rw [h] at this
  obtain ⟨s, r⟩ := this
  obtain ⟨_, _, _, _, w⟩ := r.inv
  have := w.subs.subs
  rw [List.append_nil] at this
  exact this

/-- C13. As long as the station has room, renaming any register succeeds. The register handed out is named by no live
table, its predecessor loses one reference, no other register is touched, and the reference counts are right again. -/
theorem C13_rename (hs : Setup cfg prog data) {n : Nat} {c : Cpu} (h : Cpu.run cfg n (Cpu.init cfg prog data inp) = .ok c)
    (hroom : c.entries.length < cfg.rsMax) {r : LReg} {k : Nat} (hk : cfg.key r = some k) :
    ∃ p regs', Cpu.rename cfg (c.regs, c.rat) r = .ok (regs', c.rat.set k p) ∧ p < cfg.nphys ∧ p ∉ liveNames c ∧
      (∀ q x, regs'[q]? = some x → x.subs = (liveNames { c with rat := c.rat.set k p }).count q) ∧
      (∀ q, q ≠ p → regs'[q]?.map (fun x => (x.value, x.ready)) = c.regs[q]?.map fun x => (x.value, x.ready)) ∧
      ∃ x, regs'[p]? = some x ∧ x.ready = false := by
  have := run_init (inp := inp) hs n
  rw [h] at this
  obtain ⟨s, r⟩ := this
  obtain ⟨_, _, _, _, w⟩ := r.inv
  have hsub := w.subs
  rw [List.append_nil] at hsub
  obtain ⟨K, h1, h2⟩ := w.cover
  have hfree : ∃ p < cfg.nphys, p ∉ c.rat ++ tables c.entries := by
    by_contra hc
    push Not at hc
    have hsubset : List.range cfg.nphys ⊆ K := fun p hp => h2 p (hc p (List.mem_range.1 hp))
    have := (List.nodup_range (n := cfg.nphys)).length_le_of_subset hsubset
    rw [List.length_range] at this
    unfold Cfg.nphys at this
    unfold Cfg.nkeys at h1
    omega
  have hlen : c.rat.length = cfg.nkeys := Win.rat_len (fun _ _ _ _ _ hT => hT.2.1) w.win w.base.len
  obtain ⟨p, regs', e1, e2, e3, e4, e5, e6⟩ := rename_ok hsub hlen hk hfree
  exact ⟨p, regs', e1, e2, e3, e4.subs, e5, e6⟩

/-- Non-vacuity of C13: after 10 ticks of the sample program 40 table slots are live. -/
example : (Cpu.run Sample.cfg 10 (Cpu.init Sample.cfg Sample.prog [] [])).map (fun c => ((liveNames c).length, c.regs.map (·.subs))) =
    .ok (40, [2, 3, 5, 5, 4, 1, 5, 5, 2, 2, 3, 1, 2, 0, 0, 0, 0, 0, 0, 0, 0, 0]) := by decide +kernel

/-! ## C14 -/

/-- C14. Whenever a load of an instruction in flight is answered, by forwarding or by the RAM, the answer is the content
of the cell after the retired instructions and then the older instructions in flight have been executed one after the
other (along the path that was predicted). A load outside of the memory is answered by an error only if the cell does not
exist. Stated for wrapping arithmetic and programs without `LEA` of two registers, as for them every instruction of the
sequential machine has a defined counterpart. -/
theorem C14_loads (hs : Setup cfg prog data) (hm : cfg.mode = .wrap) (hl : ∀ i ∈ prog, ∀ d r r', i ≠ .lea d (.mem (.regReg r r')))
    {n : Nat} {c : Cpu} (h : Cpu.run cfg n (Cpu.init cfg prog data inp) = .ok c) {pre post : List Entry} {e : Entry}
    (he : c.entries = pre ++ e :: post) (hst : e.st = .preparing) {s t : State}
    (hr : runs cfg prog c.retired (start cfg data inp) s) (ht : ahead cfg s (pre.map (·.instr)) = some t) (a : Word) :
    (∀ v ram, Cpu.readMemory c.wm c.ram a e.maxW = .ok (some v, ram) → t.mem a = some v) ∧
    (∀ f, Cpu.readMemory c.wm c.ram a e.maxW = .error f → f = .exn .outOfRange ∧ t.mem a = none) := by
  have := run_init (inp := inp) hs n
  rw [h] at this
  obtain ⟨s0, r⟩ := this
  obtain ⟨k, hk, hr0⟩ := r.runs
  have : c.retired = k := hk.trans (Nat.zero_add k)
  subst this
  have hss := runs_det hr hr0
  subst hss
  obtain ⟨own, nn, m, b, w⟩ := r.inv
  have hprog : c.prog = prog := r.prog
  have hwin := w.win
  rw [he] at hwin
  obtain ⟨hmem, hle⟩ := win_ahead hm w.wf (by rw [show (Ctx.mk c.prog c.regs c.wm own).prog = prog from hprog]; exact hl) w.wm hwin
    (memOK_base w.wm w.ram) (Nat.le_refl _) (by rw [hst]; decide) ht
  have hS := entryReadMemory_sat (a := a) w.wm w.ram hmem hle
  unfold Cpu.entryReadMemory at hS
  constructor
  · intro v ram hv
    rw [hv] at hS
    obtain ⟨h1, h2⟩ := hS.2.1 v rfl
    cases hc : t.mem a with
    | none => rw [hc] at h2; cases h2
    | some v' => rw [hc] at h1; rw [h1]; rfl
  · intro f hf
    rw [hf] at hS
    cases f with
    | ub => exact hS.elim
    | abort => exact hS.elim
    | exn x =>
      obtain ⟨_, h2⟩ := hS.2.1 _ rfl
      refine ⟨?_, by simpa using h2.symm⟩
      have : ∀ x, Cpu.readMemory c.wm c.ram a e.maxW = .error (.exn x) → x = .outOfRange := by
        intro x hf
        unfold Cpu.readMemory at hf
        split at hf
        · cases hf
        · split at hf
          · cases hf
          · unfold Ram.read at hf
            split at hf
            · cases hf
            · split at hf
              · cases hf
              · split at hf
                · cases hf
                · split at hf <;> cases hf; rfl
      rw [this _ hf]

/-- Non-vacuity of C14: 34 ticks into the sample program the store of 6 to cell 8 has retired but its write is still on
its way through the RAM, the load of it (executed, not retired) is the older instruction in flight, and a load of the
same cell by the younger one is answered with 6. -/
example : (Cpu.run Sample.cfg 34 (Cpu.init Sample.cfg Sample.prog [] [])).map (fun c =>
    (c.entries.map (fun e => (e.instr, e.st)), c.wm.outs.length,
      c.entries.getLast?.map fun e => (Cpu.readMemory c.wm c.ram 8 e.maxW).map (·.1))) =
    .ok ([(Sample.prog.getD 4 .nop, .ready), (Sample.prog.getD 5 .nop, .preparing)], 1, some (.ok (some 6))) := by
  decide +kernel

end T86
