import Verif.Props.Asm
import Verif.Props.Live
import Verif.Spec.Programs

/-! # C07 for assembled programs

Which texts make programs that C07 (and what rests on it) speaks of, and what happens to the others. -/

namespace T86
open Dbg Str Asm Isa

variable {stod : Str → Except Err Word}

theorem hasReg_of_ok {cfg : Cfg} {r : Reg} (h : (Operand.val (.reg r)).ok cfg = true) : cfg.hasReg r = true := by
  simpa [Operand.ok, RegExpr.ok, RegExpr.regs] using h

theorem destReg_of {cfg : Cfg} {r : Reg} (h : (Operand.val (.reg r)).ok cfg = true) (h1 : r ≠ .pc) (h2 : r.Named) :
    cfg.destReg r = true := by
  have := hasReg_of_ok h
  have h3 : r ≠ .flags := by rintro rfl; exact h2
  simp [Cfg.destReg, this, h1, h3]

/-- Every instruction of the assembly language that the machine can execute is one that C07 speaks of. -/
theorem C07_sensible {cfg : Cfg} {i : Instr} (hw : i.Writable) (h : i.Sensible cfg) : i.wf cfg = true := by
  obtain ⟨hs, hn⟩ := hw
  obtain ⟨h1, h2, h3, h4⟩ := h
  have ne : ∀ {d : Reg}, Operand.val (.reg d) ≠ Operand.val (.reg .pc) → d ≠ .pc := by
    intro d hd hd'; exact hd (by rw [hd'])
  cases i with
  | mov d v =>
    simp only [Instr.shown, List.mem_cons, List.not_mem_nil, or_false, forall_eq_or_imp, forall_eq] at h1 hn
    simp only [Instr.overwrites, ne_eq, Option.some.injEq] at h2 h3
    cases d with
    | val e =>
      cases e with
      | reg r => simp only [Instr.wf, h1.2, destReg_of h1.1 (ne h2) hn.1, Bool.and_self]
      | _ => exact absurd hs (by simp [Instr.Shape, MovShape])
    | freg k => simp only [Instr.wf, h1.2]; simpa [Operand.ok] using h1.1
    | memImm a => simp only [Instr.wf, h1.2, Bool.and_self]
    | mem e => simp only [Instr.wf, h1.2]; simpa [Operand.ok] using h1.1
    | fimm w => exact absurd rfl (h3 w)
    | imm w => exact absurd hs (by simp [Instr.Shape, MovShape])
  | lea d m =>
    simp only [Instr.shown, List.mem_cons, List.not_mem_nil, or_false, forall_eq_or_imp, forall_eq] at h1 hn
    simp only [Instr.overwrites, ne_eq, Option.some.injEq] at h2
    obtain ⟨⟨e, rfl⟩, hr⟩ := hs
    have hd := destReg_of h1.1 (ne h2) hn.1
    cases e with
    | reg r => exact absurd rfl (hr r)
    | _ => simp only [Instr.wf, hd, Bool.true_and]; exact h1.2
  | bin op risc d r v =>
    obtain ⟨_, rfl, rfl, _⟩ := hs
    simp only [Instr.shown, Bool.false_eq_true, if_false, List.mem_cons, List.not_mem_nil, or_false, forall_eq_or_imp, forall_eq] at h1 hn
    simp only [Instr.overwrites, ne_eq, Option.some.injEq] at h2
    simp only [Instr.wf, destReg_of h1.1 (ne h2) hn.1, hasReg_of_ok h1.1, h1.2, Bool.and_self]
  | pop d =>
    simp only [Instr.shown, List.mem_cons, List.not_mem_nil, or_false, forall_eq] at h1 hn
    simp only [Instr.overwrites, ne_eq, Option.some.injEq] at h2
    have : d ≠ .sp := by rintro rfl; exact h4 rfl
    simp [Instr.wf, destReg_of h1 (ne h2) hn, this]
  | clf => rfl
  | un _ d | getchar d =>
    simp only [Instr.shown, List.mem_cons, List.not_mem_nil, or_false, forall_eq] at h1 hn
    simp only [Instr.overwrites, ne_eq, Option.some.injEq] at h2
    exact destReg_of h1 (ne h2) hn
  | loop d a =>
    simp only [Instr.shown, List.mem_cons, List.not_mem_nil, or_false, forall_eq_or_imp, forall_eq] at h1 hn
    simp only [Instr.overwrites, ne_eq, Option.some.injEq] at h2
    simp only [Instr.wf, destReg_of h1.1 (ne h2) hn.1, h1.2, Bool.and_self]
  | nrw d f =>
    simp only [Instr.shown, List.mem_cons, List.not_mem_nil, or_false, forall_eq_or_imp, forall_eq] at h1 hn
    simp only [Instr.overwrites, ne_eq, Option.some.injEq] at h2
    simp only [Instr.wf, destReg_of h1.1 (ne h2) hn.1, Bool.true_and]
    exact h1.2
  | cmp r v =>
    simp only [Instr.shown, List.mem_cons, List.not_mem_nil, or_false, forall_eq_or_imp, forall_eq] at h1
    simp only [Instr.wf, hasReg_of_ok h1.1, h1.2, Bool.and_self]
  | fbin _ f v | fcmp f v =>
    simp only [Instr.shown, List.mem_cons, List.not_mem_nil, or_false, forall_eq_or_imp, forall_eq] at h1
    simp only [Instr.wf, h1.2, Bool.and_true]
    exact h1.1
  | ext f r =>
    simp only [Instr.shown, List.mem_cons, List.not_mem_nil, or_false, forall_eq_or_imp, forall_eq] at h1
    simp only [Instr.wf, hasReg_of_ok h1.2, Bool.and_true]
    exact h1.1
  | putchar r | putnum r =>
    simp only [Instr.shown, List.mem_cons, List.not_mem_nil, or_false, forall_eq] at h1
    exact hasReg_of_ok h1
  | jmp a | jcc _ a | call a | push a | fpush a | fpop a =>
    simp only [Instr.shown, List.mem_cons, List.not_mem_nil, or_false, forall_eq] at h1
    exact h1
  | _ => rfl

/-- C07 and C17, from the text of a program on: what the processor shows after any number of ticks is what the sequential
machine has after as many instructions as were retired. -/
theorem C07_text {cfg : Cfg} {text : Str} {u : Unit'} {inp : List (BitVec 8)} (h : assemble stod text = .ok u)
    (hs : ∀ i ∈ u.program, i.Sensible cfg) (hr : 0 < cfg.rsMax) (hd : u.data.length ≤ cfg.ramSize) {n : Nat} {c : Cpu}
    (hn : Cpu.run cfg n (Cpu.init cfg u.program u.data inp) = .ok c) :
    ∃ s, Isa.runs cfg u.program c.retired (Isa.start cfg u.data inp) s ∧ (∀ a : Word, c.ram.mem[a.toNat]? = s.mem a) ∧
      c.out = s.out ∧ c.inp = s.inp ∧ c.halted = s.halted :=
  C07_refines ⟨hr, fun i hi => C07_sensible (C22_producible h i hi) (hs i hi), hd⟩ hn

/-- C17, from the text of a program on. -/
theorem C17_text {cfg : Cfg} {text : Str} {u : Unit'} {inp : List (BitVec 8)} (h : assemble stod text = .ok u)
    (hs : ∀ i ∈ u.program, i.Sensible cfg) (hr : 0 < cfg.rsMax) (ha : 0 < cfg.alus) (hg : 0 < cfg.gates)
    (hd : u.data.length ≤ cfg.ramSize) {k : Nat} {s : State}
    (hk : Isa.runs cfg u.program k (Isa.start cfg u.data inp) s) (hh : s.halted = true) :
    ∃ t, t ≤ 24 * k ∧ ((∃ c, Cpu.run cfg t (Cpu.init cfg u.program u.data inp) = .ok c ∧ c.halted = true ∧ Shows cfg c s) ∨
      (Cpu.run cfg t (Cpu.init cfg u.program u.data inp) = .error .ub ∧ UbPossible cfg u.program)) :=
  C17_halts ⟨hr, fun i hi => C07_sensible (C22_producible h i hi) (hs i hi), hd⟩
    ⟨ha, hg, fun i hi => C17_writable (C22_producible h i hi)⟩ hk hh

set_option maxRecDepth 100000 in
/-- The hypotheses of `C07_text` and `C17_text` are met by a program with jumps and memory accesses that halts. -/
example : ∃ u : Unit', assemble exStod ".text MOV R0, 3 ADD R1, R0 LOOP R0, 1 MOV [R1 + 2], R1 PUTNUM R1 HALT .data 4 5".toList = .ok u ∧
    (∀ i ∈ u.program, i.Sensible Sample.cfg) ∧ u.data = [4, 5] ∧
    ∃ s, runs Sample.cfg u.program 10 (start Sample.cfg u.data []) s ∧ s.halted = true := by
  refine ⟨⟨[.mov (.val (.reg (.gp 0))) (.imm 3), .bin .add false (.gp 1) (.gp 1) (.val (.reg (.gp 0))), .loop (.gp 0) (.imm 1),
    .mov (.mem (.regImm (.gp 1) 2)) (.val (.reg (.gp 1))), .putnum (.gp 1), .halt], [4, 5]⟩, by decide +kernel, ?_, rfl, ?_⟩
  · intro i hi
    simp only [List.mem_cons, List.not_mem_nil, or_false] at hi
    rcases hi with rfl | rfl | rfl | rfl | rfl | rfl <;>
      exact ⟨by decide, by simp [Instr.overwrites], by simp [Instr.overwrites], by simp⟩
  · exact ⟨_, ⟨rfl, _, rfl, rfl, _, rfl, rfl, _, rfl, rfl, _, rfl, rfl, _, rfl,
    rfl, _, rfl, rfl, _, rfl, rfl, _, rfl, rfl, _, rfl, rfl, _, rfl, rfl⟩, rfl⟩

/-- What is left of a run: whether it halted, and the output. -/
def Cpu.outcome (r : Res Cpu) : Res (Bool × List Out) := r.map fun c => (c.halted, c.out)

set_option maxRecDepth 100000 in
/-- The assembler accepts IP as a destination (`ProgramBuilder` rejects it), but writing to it is not a jump: this program
goes on with the next instruction and prints 7. -/
theorem C07_move_to_ip :
    assemble exStod ".text MOV IP, 3\nMOV R0, 7\nPUTNUM R0\nHALT\n".toList =
      .ok ⟨[.mov (.val (.reg .pc)) (.imm 3), .mov (.val (.reg (.gp 0))) (.imm 7), .putnum (.gp 0), .halt], []⟩ ∧
    Cpu.outcome (Cpu.run Sample.cfg 40 (Cpu.init Sample.cfg
      [.mov (.val (.reg .pc)) (.imm 3), .mov (.val (.reg (.gp 0))) (.imm 7), .putnum (.gp 0), .halt] [] [])) =
      .ok (true, [.num 7]) := by
  refine ⟨by decide +kernel, by decide +kernel⟩

set_option maxRecDepth 100000 in
/-- The other instructions the assembler accepts and the machine cannot execute: `POP SP` fails an assertion, a number as a
destination and a register that does not exist throw an exception. -/
theorem C07_not_sensible :
    assemble exStod ".text POP SP MOV 0.5, R0 MOV R7, 1".toList =
      .ok ⟨[.pop .sp, .mov (.fimm 0x3FE0000000000000) (.val (.reg (.gp 0))), .mov (.val (.reg (.gp 7))) (.imm 1)], []⟩ ∧
    Cpu.outcome (Cpu.run Sample.cfg 40 (Cpu.init Sample.cfg [.pop .sp] [] [])) = .error .abort ∧
    Cpu.outcome (Cpu.run Sample.cfg 40 (Cpu.init Sample.cfg [.mov (.fimm 0x3FE0000000000000) (.val (.reg (.gp 0)))] [] [])) =
      .error (.exn .runtimeError) ∧
    Cpu.outcome (Cpu.run Sample.cfg 40 (Cpu.init Sample.cfg [.mov (.val (.reg (.gp 7))) (.imm 1)] [] [])) =
      .error (.exn .executionError) := by
  refine ⟨by decide +kernel, by decide +kernel, by decide +kernel, by decide +kernel⟩

end T86
