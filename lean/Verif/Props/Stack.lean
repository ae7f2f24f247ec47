import Verif.Spec.Session
import Verif.Props.Alu
import Verif.Props.Sample

/-! # PUSH/POP, CALL/RET, and compare-and-jump on the sequential machine (C16, C01, C02)

The processor refines the sequential machine (`C07_refines`, `C10_single_step`), so these hold of it. -/

set_option linter.unusedSimpArgs false
set_option linter.unusedVariables false

namespace T86
open Isa

section
variable {cfg : Cfg}

theorem store_ok {s : State} {a v : Word} (h : (s.mem a).isSome = true) :
    s.store a v = .ok { s with mem := fun a' => if a' = a then some v else s.mem a' } := by
  unfold State.store
  obtain ⟨w, hw⟩ := Option.isSome_iff_exists.1 h
  rw [hw]

/-- C16. PUSH of a value when the cell below SP exists. -/
theorem C16_push (s : State) (v : Operand) (x : Word) (hx : s.operand v = .ok x)
    (hc : (s.mem (s.reg (.int .sp) - 1)).isSome = true) :
    ∃ s1, exec cfg s (.push v) = .ok s1 ∧ s1.pc = s.pc + 1 ∧ s1.reg (.int .sp) = s.reg (.int .sp) - 1 ∧
      s1.mem (s.reg (.int .sp) - 1) = some x ∧
      (∀ r, r ≠ .int .sp → s1.reg r = s.reg r) ∧ (∀ a, a ≠ s.reg (.int .sp) - 1 → s1.mem a = s.mem a) ∧
      s1.out = s.out ∧ s1.inp = s.inp ∧ s1.halted = s.halted := by
  refine ⟨{ ({ s with mem := fun a' => if a' = s.reg (.int .sp) - 1 then some x else s.mem a' } : State).set (.int .sp)
    (s.reg (.int .sp) - 1) with pc := s.pc + 1 }, ?_, rfl, ?_, ?_, ?_, ?_, rfl, rfl, rfl⟩
  · change (s.operand v >>= fun x => s.store (s.get (.int .sp) - 1) x >>= _) = _
    rw [hx]
    change (s.store (s.reg (.int .sp) - 1) x >>= _) = _
    rw [store_ok hc]
    rfl
  · simp [State.set]
  · simp [State.set]
  · intro r hr; simp [State.set, hr]
  · intro a ha; exact if_neg ha

/-- C16. POP after any code that leaves SP and the pushed cell as PUSH left them: the register has the pushed value, SP is
as before the PUSH. -/
theorem C16_pop (s t : State) (r : Reg) (hr : r ≠ .sp) (x : Word)
    (hsp : t.reg (.int .sp) = s.reg (.int .sp) - 1) (hcell : t.mem (s.reg (.int .sp) - 1) = some x) :
    ∃ t1, exec cfg t (.pop r) = .ok t1 ∧ t1.pc = t.pc + 1 ∧ t1.reg (.int r) = x ∧ t1.reg (.int .sp) = s.reg (.int .sp) ∧
      (∀ r', r' ≠ .int .sp → r' ≠ .int r → t1.reg r' = t.reg r') ∧ t1.mem = t.mem ∧
      t1.out = t.out ∧ t1.inp = t.inp ∧ t1.halted = t.halted := by
  have hl : t.load (t.get (.int .sp)) = .ok x := by
    change (match t.mem (t.reg (.int .sp)) with | some v => _ | none => _) = _
    rw [hsp, hcell]
  refine ⟨(((t.set (.int r) x).set (.int .sp) (t.get (.int .sp) + 1)).next), ?_, rfl, ?_, ?_, ?_, rfl, rfl, rfl, rfl⟩
  · change (t.load (t.get (.int .sp)) >>= _) = _
    rw [hl]
    rfl
  · simp [State.set, State.next, hr]
  · simp [State.set, State.next, State.get, hsp, BitVec.sub_add_cancel]
  · intro r' h1 h2; simp [State.set, State.next, h1, h2]

/-- C16, float registers: FPUSH does what PUSH does. -/
theorem C16_fpush (s : State) (v : Operand) : exec cfg s (.fpush v) = exec cfg s (.push v) := rfl

/-- C16, float registers. -/
theorem C16_fpop (s t : State) (f : Nat) (x : Word)
    (hsp : t.reg (.int .sp) = s.reg (.int .sp) - 1) (hcell : t.mem (s.reg (.int .sp) - 1) = some x) :
    ∃ t1, exec cfg t (.fpop f) = .ok t1 ∧ t1.pc = t.pc + 1 ∧ t1.reg (.flt f) = x ∧ t1.reg (.int .sp) = s.reg (.int .sp) ∧
      (∀ r', r' ≠ .int .sp → r' ≠ .flt f → t1.reg r' = t.reg r') ∧ t1.mem = t.mem ∧
      t1.out = t.out ∧ t1.inp = t.inp ∧ t1.halted = t.halted := by
  have hl : t.load (t.get (.int .sp)) = .ok x := by
    change (match t.mem (t.reg (.int .sp)) with | some v => _ | none => _) = _
    rw [hsp, hcell]
  refine ⟨(((t.set (.flt f) x).set (.int .sp) (t.get (.int .sp) + 1)).next), ?_, rfl, ?_, ?_, ?_, rfl, rfl, rfl, rfl⟩
  · change (t.load (t.get (.int .sp)) >>= _) = _
    rw [hl]
    rfl
  · simp [State.set, State.next]
  · simp [State.set, State.next, State.get, hsp, BitVec.sub_add_cancel]
  · intro r' h1 h2; simp [State.set, State.next, h1, h2]

/-- C16. PUSH directly followed by POP: the value is in the register, everything else but the stack cell is as before. -/
theorem C16_push_pop (prog : List Instr) (s : State) (v : Operand) (r : Reg) (hr : r ≠ .sp) (x : Word) (hx : s.operand v = .ok x)
    (hc : (s.mem (s.reg (.int .sp) - 1)).isSome = true) (hrun : s.halted = false)
    (h1 : instrAt prog s.pc = .push v) (h2 : instrAt prog (s.pc + 1) = .pop r) :
    ∃ s2, runs cfg prog 2 s s2 ∧ s2.pc = s.pc + 2 ∧ s2.reg (.int r) = x ∧ (∀ r', r' ≠ .int r → s2.reg r' = s.reg r') ∧
      (∀ a, a ≠ s.reg (.int .sp) - 1 → s2.mem a = s.mem a) ∧ s2.out = s.out ∧ s2.inp = s.inp := by
  obtain ⟨s1, e1, p1, p2, p3, p4, p5, p6, p7, p8⟩ := C16_push (cfg := cfg) s v x hx hc
  obtain ⟨s2, e2, q1, q2, q3, q4, q5, q6, q7, q8⟩ := C16_pop (cfg := cfg) s s1 r hr x p2 p3
  refine ⟨s2, ⟨hrun, s1, by unfold step; rw [h1]; exact e1, p8.trans hrun, s2, by unfold step; rw [p1, h2]; exact e2, rfl⟩, ?_, q2, ?_, ?_,
    q6.trans p6, q7.trans p7⟩
  · rw [q1, p1, BitVec.add_assoc]; rfl
  · intro r' h
    by_cases hs : r' = .int .sp
    · rw [hs, q3]
    · rw [q4 r' hs h, p4 r' hs]
  · intro a ha
    rw [q5, p5 a ha]

/-- C16. CALL when the cell below SP exists. -/
theorem C16_call (s : State) (d : Operand) (t : Word) (ht : s.operand d = .ok t)
    (hc : (s.mem (s.reg (.int .sp) - 1)).isSome = true) :
    ∃ s1, exec cfg s (.call d) = .ok s1 ∧ s1.pc = t ∧ s1.reg (.int .sp) = s.reg (.int .sp) - 1 ∧
      s1.mem (s.reg (.int .sp) - 1) = some (s.pc + 1) ∧
      (∀ r, r ≠ .int .sp → s1.reg r = s.reg r) ∧ (∀ a, a ≠ s.reg (.int .sp) - 1 → s1.mem a = s.mem a) ∧
      s1.out = s.out ∧ s1.inp = s.inp ∧ s1.halted = s.halted := by
  refine ⟨{ ({ s with mem := fun a' => if a' = s.reg (.int .sp) - 1 then some (s.pc + 1) else s.mem a' } : State).set (.int .sp)
    (s.reg (.int .sp) - 1) with pc := t }, ?_, rfl, ?_, ?_, ?_, ?_, rfl, rfl, rfl⟩
  · change (s.operand d >>= fun x => s.store (s.get (.int .sp) - 1) (s.pc + 1) >>= _) = _
    rw [ht]
    change (s.store (s.reg (.int .sp) - 1) (s.pc + 1) >>= _) = _
    rw [store_ok hc]
    rfl
  · simp [State.set]
  · simp [State.set]
  · intro r hr; simp [State.set, hr]
  · intro a ha; exact if_neg ha

/-- C16. RET after any code that leaves SP and the return cell as CALL left them: execution resumes after the CALL, SP is
as before it, nothing else changes. -/
theorem C16_ret (s t : State) (hsp : t.reg (.int .sp) = s.reg (.int .sp) - 1)
    (hcell : t.mem (s.reg (.int .sp) - 1) = some (s.pc + 1)) :
    ∃ t1, exec cfg t .ret = .ok t1 ∧ t1.pc = s.pc + 1 ∧ t1.reg (.int .sp) = s.reg (.int .sp) ∧
      (∀ r, r ≠ .int .sp → t1.reg r = t.reg r) ∧ t1.mem = t.mem ∧ t1.out = t.out ∧ t1.inp = t.inp ∧ t1.halted = t.halted := by
  have hl : t.load (t.get (.int .sp)) = .ok (s.pc + 1) := by
    change (match t.mem (t.reg (.int .sp)) with | some v => _ | none => _) = _
    rw [hsp, hcell]
  refine ⟨{ t.set (.int .sp) (t.get (.int .sp) + 1) with pc := s.pc + 1 }, ?_, rfl, ?_, ?_, rfl, rfl, rfl, rfl⟩
  · change (t.load (t.get (.int .sp)) >>= _) = _
    rw [hl]
    rfl
  · simp [State.set, State.get, hsp, BitVec.sub_add_cancel]
  · intro r h1; simp [State.set, h1]

/-- C16. CALL of a procedure that returns immediately. -/
theorem C16_call_ret (prog : List Instr) (s : State) (d : Operand) (t : Word) (ht : s.operand d = .ok t)
    (hc : (s.mem (s.reg (.int .sp) - 1)).isSome = true) (hrun : s.halted = false)
    (h1 : instrAt prog s.pc = .call d) (h2 : instrAt prog t = .ret) :
    ∃ s2, runs cfg prog 2 s s2 ∧ s2.pc = s.pc + 1 ∧ s2.reg = s.reg ∧
      (∀ a, a ≠ s.reg (.int .sp) - 1 → s2.mem a = s.mem a) ∧ s2.out = s.out ∧ s2.inp = s.inp := by
  obtain ⟨s1, e1, p1, p2, p3, p4, p5, p6, p7, p8⟩ := C16_call (cfg := cfg) s d t ht hc
  obtain ⟨s2, e2, q1, q3, q4, q5, q6, q7, q8⟩ := C16_ret (cfg := cfg) s s1 p2 p3
  refine ⟨s2, ⟨hrun, s1, by unfold step; rw [h1]; exact e1, p8.trans hrun, s2, by unfold step; rw [p1, h2]; exact e2, rfl⟩, q1, ?_, ?_,
    q6.trans p6, q7.trans p7⟩
  · funext r
    by_cases hs : r = .int .sp
    · rw [hs, q3]
    · rw [q4 r hs, p4 r hs]
  · intro a ha
    rw [q5, p5 a ha]

/-- Non-vacuity of C16, on the pipelined processor: a call of a procedure that pushes and pops, seen from the debugger
with STEP. SP goes 16, 15, 14, 15, 16 and execution continues after the CALL. -/
example :
    ((Vm.start Sample.cfg [.call (.imm 3), .halt, .nop, .push (.imm 7), .pop (.gp 2), .ret] [] []).1.play Sample.cfg 8 1024
      (((List.replicate 4 (.cmd .step :: List.replicate 40 .tick ++ [.cmd .peekRegs])).flatten))).map (·.2) =
    .ok [.ok, .stopped, .regs [(.pc, 3), (.bp, 16), (.sp, 15), (.gp 0, 0), (.gp 1, 0), (.gp 2, 0)],
      .ok, .stopped, .regs [(.pc, 4), (.bp, 16), (.sp, 14), (.gp 0, 0), (.gp 1, 0), (.gp 2, 0)],
      .ok, .stopped, .regs [(.pc, 5), (.bp, 16), (.sp, 15), (.gp 0, 0), (.gp 1, 0), (.gp 2, 7)],
      .ok, .stopped, .regs [(.pc, 1), (.bp, 16), (.sp, 16), (.gp 0, 0), (.gp 1, 0), (.gp 2, 7)]] := by decide +kernel

/-! ## Compare and jump -/

/-- What a condition says about two values. -/
def Cond.says (c : Cond) (x y : Word) : Prop :=
  match c with
  | .jl => x.toInt < y.toInt
  | .jle => x.toInt ≤ y.toInt
  | .jg => x.toInt > y.toInt
  | .jge => x.toInt ≥ y.toInt
  | .je => x = y
  | .jz => x = y
  | .jne => x ≠ y
  | .jnz => x ≠ y
  | .ja => x.toNat > y.toNat
  | .jae => x.toNat ≥ y.toNat
  | .jb => x.toNat < y.toNat
  | .jbe => x.toNat ≤ y.toNat
  | _ => True

/-- The conditions that compare. -/
def Cond.compares (c : Cond) : Bool :=
  match c with
  | .jl | .jle | .jg | .jge | .je | .jz | .jne | .jnz | .ja | .jae | .jb | .jbe => true
  | _ => false

/-- C01 and C02 for the machine: CMP r, v followed by a conditional jump to `d` goes to `d` exactly if the condition holds
of the two values, and to the following instruction otherwise; registers other than FLAGS and the memory stay. -/
theorem C01_compare_and_jump (prog : List Instr) (s s2 : State) (r : Reg) (hr : r ≠ .pc) (v : Operand) (y : Word)
    (hy : s.operand v = .ok y) (c : Cond) (hcmp : c.compares = true) (d : Word)
    (h1 : instrAt prog s.pc = .cmp r v) (h2 : instrAt prog (s.pc + 1) = .jcc c (.imm d)) (h : runs cfg prog 2 s s2) :
    (c.says (s.reg (.int r)) y → s2.pc = d) ∧ (¬ c.says (s.reg (.int r)) y → s2.pc = s.pc + 2) ∧
    (∀ r', r' ≠ .int .flags → s2.reg r' = s.reg r') ∧ s2.mem = s.mem := by
  obtain ⟨_, s1, e1, _, s2', e2, h⟩ := h
  have h : s2 = s2' := h
  subst h
  have hg : s.get (.int r) = s.reg (.int r) := by unfold State.get; split <;> first | rfl | (rename_i h; exact absurd (LReg.int.inj h) hr)
  unfold step at e1 e2
  rw [h1] at e1
  change (s.operand v >>= fun y => Alu.subtract cfg.mode (s.get (.int r)) y >>= _) = _ at e1
  rw [hy, hg] at e1
  change (Alu.subtract cfg.mode (s.reg (.int r)) y >>= _) = _ at e1
  cases hz : Alu.subtract cfg.mode (s.reg (.int r)) y with
  | error f => rw [hz] at e1; cases e1
  | ok z =>
    rw [hz] at e1
    cases e1
    rw [show (s.setFlags z.flags).next.pc = s.pc + 1 from rfl, h2] at e2
    have hf : (s.setFlags z.flags).next.get (.int .flags) = Alu.flagsToWord z.flags := by simp [State.get, State.setFlags, State.set, State.next]
    change Except.ok (if c.taken ((s.setFlags z.flags).next.get (.int .flags)) then _ else _) = _ at e2
    rw [hf] at e2
    obtain ⟨a1, a2, a3, a4, a5, a6, a7, a8⟩ := C01_signed_jumps cfg.mode _ _ z hz
    obtain ⟨b1, b2, b3, b4⟩ := C02_unsigned_jumps cfg.mode _ _ z hz
    have key : c.taken (Alu.flagsToWord z.flags) = true ↔ c.says (s.reg (.int r)) y := by
      cases c <;> first | assumption | cases hcmp
    injection e2 with e2
    refine ⟨?_, ?_, ?_, ?_⟩
    · intro hc
      rw [← e2, if_pos (key.2 hc)]
    · intro hc
      rw [← e2, if_neg (fun h => hc (key.1 h))]
      change s.pc + 1 + 1 = _
      rw [BitVec.add_assoc]
      rfl
    · intro r' hr'
      rw [← e2]
      split <;> simp [State.setFlags, State.set, State.next, hr']
    · rw [← e2]
      split <;> rfl

/-- Non-vacuity: -1 compared with 1 is less (signed), and above (unsigned). -/
example : ∃ s2, runs Sample.cfg [.cmp (.gp 0) (.imm 1), .jcc .jl (.imm 5)] 2
    { start Sample.cfg [] [] with reg := fun r => if r = .int (.gp 0) then -1 else 0 } s2 ∧ s2.pc = 5 :=
  ⟨_, ⟨rfl, _, rfl, rfl, _, rfl, rfl⟩, rfl⟩

end
end T86
