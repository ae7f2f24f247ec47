import Verif.Props.Stack
import Verif.Props.Stepping
import Verif.Lemmas.Return

/-! # PUSH and POP, CALL and RET, CMP and jumps on the machine (C16, C01)

The theorems of `Props/Stack` are about the sequential machine. Here the same is said of the pipelined machine, as the debugger shows it after
two single steps. -/

set_option linter.unusedSimpArgs false
set_option linter.unusedVariables false
set_option maxRecDepth 100000

namespace T86
open Dbg Str Native Isa

section
variable {h : Host} {c : Client} {Tx : Str → Instr → Prop} {prog P : List Instr} {data : List Word} {inp : List (BitVec 8)} {n n1 n2 : Native}
  {e1 e2 : Event}

/-- Two single steps. -/
theorem two_steps (ht : Texts h Tx) (hs : prog.length < 2 ^ 63) (hp : ∀ i ∈ prog, Plain h i) (hset : Setup h.cfg prog data)
    (hx : Careful h c Tx prog data inp P n) (h1 : singleStep h c n = (.ok e1, n1)) (h2 : singleStep h c n1 = (.ok e2, n2)) :
    ∃ s s1 s2, Native.Shows h n s ∧ Native.Shows h n2 s2 ∧ s.halted = false ∧ s1.halted = false ∧
      (instrAt P s.pc ≠ .bkpt → step h.cfg P s = .ok s1) ∧ (instrAt P s1.pc ≠ .bkpt → step h.cfg P s1 = .ok s2) := by
  obtain ⟨hf, d, hv⟩ := careful_view ht hs hp hset hx
  obtain ⟨d1, a1, a2, _, _, _, _, ⟨why, a3, _⟩, _⟩ := singleStep_view ht hf hv h1
  have hf1 := singleStep_fine ht _ _ _ hf h1
  obtain ⟨d2, b1, b2, b3, b4, _, _, _, why', b5⟩ := singleStep_view ht hf1 a2 h2
  have hd : n.link.dead = false := by
    unfold singleStep at h1
    rw [singleStepLoop_succ] at h1
    obtain ⟨ip, n1, g1, _⟩ := Job.bind_ok h1
    exact (getIP_view hv g1).2.2.1
  exact ⟨d.state, d1.state, d2.state, hv.shows a3 hd, b2.shows b5 b4, a1.running, b1.running, fun hb => (Ran.one a1 hb).1,
    fun hb => (Ran.one b1 hb).1⟩

/-- C16 on the machine. Two single steps over PUSH and POP: the debugger shows the value in the register and everything else, but for the
cell below SP, as before. -/
theorem C16_push_pop_stepped (ht : Texts h Tx) (hs : prog.length < 2 ^ 63) (hp : ∀ i ∈ prog, Plain h i) (hset : Setup h.cfg prog data)
    (hx : Careful h c Tx prog data inp P n) (h1 : singleStep h c n = (.ok e1, n1)) (h2 : singleStep h c n1 = (.ok e2, n2)) :
    ∃ s s2, Native.Shows h n s ∧ Native.Shows h n2 s2 ∧ ∀ v r x, r ≠ .sp → instrAt P s.pc = .push v → instrAt P (s.pc + 1) = .pop r →
      s.operand v = .ok x → (s.mem (s.reg (.int .sp) - 1)).isSome = true →
      s2.pc = s.pc + 2 ∧ s2.reg (.int r) = x ∧ (∀ r', r' ≠ .int r → s2.reg r' = s.reg r') ∧
      (∀ a, a ≠ s.reg (.int .sp) - 1 → s2.mem a = s.mem a) ∧ s2.out = s.out ∧ s2.inp = s.inp := by
  obtain ⟨s, s1, s2, g1, g2, g3, g4, g5, g6⟩ := two_steps ht hs hp hset hx h1 h2
  refine ⟨s, s2, g1, g2, fun v r x hr q1 q2 q3 q4 => ?_⟩
  obtain ⟨t2, ⟨_, t1, k1, _, t2', k2, k3⟩, k4, k5, k6, k7, k8⟩ := C16_push_pop (cfg := h.cfg) P s v r hr x q3 q4 g3 q1 q2
  obtain ⟨t, j1, j2, _⟩ := C16_push (cfg := h.cfg) s v x q3 q4
  have k3 : t2 = t2' := k3
  subst k3
  have := g5 (by rw [q1]; simp)
  rw [k1] at this
  cases this
  have hpc : s1.pc = s.pc + 1 := by
    unfold step at k1
    rw [q1, j1] at k1
    cases k1
    exact j2
  have := g6 (by rw [hpc, q2]; simp)
  rw [k2] at this
  cases this
  exact ⟨k4, k5, k6, k7, k8⟩

/-- C16 on the machine. Two single steps over CALL and the RET it leads to. -/
theorem C16_call_ret_stepped (ht : Texts h Tx) (hs : prog.length < 2 ^ 63) (hp : ∀ i ∈ prog, Plain h i) (hset : Setup h.cfg prog data)
    (hx : Careful h c Tx prog data inp P n) (h1 : singleStep h c n = (.ok e1, n1)) (h2 : singleStep h c n1 = (.ok e2, n2)) :
    ∃ s s2, Native.Shows h n s ∧ Native.Shows h n2 s2 ∧ ∀ v t, instrAt P s.pc = .call v → s.operand v = .ok t → instrAt P t = .ret →
      (s.mem (s.reg (.int .sp) - 1)).isSome = true →
      s2.pc = s.pc + 1 ∧ s2.reg = s.reg ∧ (∀ a, a ≠ s.reg (.int .sp) - 1 → s2.mem a = s.mem a) ∧ s2.out = s.out ∧ s2.inp = s.inp := by
  obtain ⟨s, s1, s2, g1, g2, g3, g4, g5, g6⟩ := two_steps ht hs hp hset hx h1 h2
  refine ⟨s, s2, g1, g2, fun v t q1 q3 q2 q4 => ?_⟩
  obtain ⟨t2, ⟨_, t1, k1, _, t2', k2, k3⟩, k4⟩ := C16_call_ret (cfg := h.cfg) P s v t q3 q4 g3 q1 q2
  obtain ⟨u, j1, j2, _⟩ := C16_call (cfg := h.cfg) s v t q3 q4
  have k3 : t2 = t2' := k3
  subst k3
  have := g5 (by rw [q1]; simp)
  rw [k1] at this
  cases this
  have hpc : s1.pc = t := by
    unfold step at k1
    rw [q1, j1] at k1
    cases k1
    exact j2
  have := g6 (by rw [hpc, q2]; simp)
  rw [k2] at this
  cases this
  exact k4

/-- C01 and C02 on the machine. Two single steps over CMP and a conditional jump. -/
theorem C01_compare_and_jump_stepped (ht : Texts h Tx) (hs : prog.length < 2 ^ 63) (hp : ∀ i ∈ prog, Plain h i) (hset : Setup h.cfg prog data)
    (hx : Careful h c Tx prog data inp P n) (h1 : singleStep h c n = (.ok e1, n1)) (h2 : singleStep h c n1 = (.ok e2, n2)) :
    ∃ s s2, Native.Shows h n s ∧ Native.Shows h n2 s2 ∧ ∀ r v y (cc : Cond) d, r ≠ .pc → s.operand v = .ok y → cc.compares = true →
      instrAt P s.pc = .cmp r v → instrAt P (s.pc + 1) = .jcc cc (.imm d) →
      (cc.says (s.reg (.int r)) y → s2.pc = d) ∧ (¬ cc.says (s.reg (.int r)) y → s2.pc = s.pc + 2) ∧
      (∀ r', r' ≠ .int .flags → s2.reg r' = s.reg r') ∧ s2.mem = s.mem := by
  obtain ⟨s, s1, s2, g1, g2, g3, g4, g5, g6⟩ := two_steps ht hs hp hset hx h1 h2
  refine ⟨s, s2, g1, g2, fun r v y cc d hr hy hcc q1 q2 => ?_⟩
  have k1 := g5 (by rw [q1]; simp)
  have hpc : s1.pc = s.pc + 1 := by
    unfold step at k1
    rw [q1] at k1
    change (s.operand v >>= fun y => Alu.subtract h.cfg.mode (s.get (.int r)) y >>= _) = _ at k1
    rw [hy] at k1
    change (Alu.subtract h.cfg.mode (s.get (.int r)) y >>= _) = _ at k1
    cases hz : Alu.subtract h.cfg.mode (s.get (.int r)) y with
    | error f => rw [hz] at k1; cases k1
    | ok z => rw [hz] at k1; cases k1; rfl
  have k2 := g6 (by rw [hpc, q2]; simp)
  exact C01_compare_and_jump (cfg := h.cfg) P s s2 r hr v y hy cc hcc d q1 q2 ⟨g3, s1, k1, g4, s2, k2, rfl⟩

end

/-- A program with PUSH and POP, CMP and a jump that is taken, CALL and RET. -/
def Sample.pairs : List Instr :=
  [.push (.imm 7), .pop (.gp 2), .cmp (.gp 2) (.imm 7), .jcc .je (.imm 5), .halt, .call (.imm 7), .halt, .ret]

/-- Non-vacuity: the six steps of the sample program come back; the value is in R2, the jump is taken, and the call returns. -/
example :
    (∀ i ∈ Sample.pairs, Plain Sample.host i) ∧ Setup Sample.host.cfg Sample.pairs [] ∧
    Careful Sample.host Sample.client (fun s i => s = i.print Sample.host.ftos ∧ Plain Sample.host i) Sample.pairs [] [] Sample.pairs
      (Sample.after (Sample.started Sample.pairs) []) ∧
    Careful Sample.host Sample.client (fun s i => s = i.print Sample.host.ftos ∧ Plain Sample.host i) Sample.pairs [] [] Sample.pairs
      (Sample.after (Sample.started Sample.pairs) [.step, .step]) ∧
    Careful Sample.host Sample.client (fun s i => s = i.print Sample.host.ftos ∧ Plain Sample.host i) Sample.pairs [] [] Sample.pairs
      (Sample.after (Sample.started Sample.pairs) [.step, .step, .step, .step]) ∧
    (singleStep Sample.host Sample.client (Sample.after (Sample.started Sample.pairs) [.step, .step, .step, .step, .step])).1 = .ok .singlestep ∧
    (getIP Sample.host (Sample.after (Sample.started Sample.pairs) [.step, .step, .step, .step])).1 = .ok 5 ∧
    (getIP Sample.host (Sample.after (Sample.started Sample.pairs) [.step, .step, .step, .step, .step, .step])).1 = .ok 6 ∧
    (getRegister Sample.host "R2".toList (Sample.after (Sample.started Sample.pairs) [.step, .step])).1 = .ok 7 := by
  refine ⟨?_, ⟨by decide, by decide, by decide⟩, ?_, ?_, ?_, by decide +kernel, by decide +kernel, by decide +kernel, by decide +kernel⟩
  · intro i hi
    simp only [Sample.pairs, List.mem_cons, List.not_mem_nil, or_false] at hi
    rcases hi with rfl | rfl | rfl | rfl | rfl | rfl | rfl | rfl <;>
      simp [Plain, Instr.Writable, Instr.Shape, MovShape, Operand.isImmReg, Operand.isMem, Instr.shown, Operand.Named,
        RegExpr.Named, Reg.Named, Operand.Legible, Word.Literal]
  all_goals exact Sample.careful (Sample.starts (by decide +kernel)) (by decide) (by decide +kernel)

end T86
