import Verif.Lemmas.Live
import Verif.Spec.Live
import Verif.Props.Pipeline
import Verif.Props.Asm

/-! # C17: the pipeline never deadlocks

The machine needs an ALU, a memory gate and a place in the reservation station, and the instructions must not both read
and write memory (`Instr.separate`), which no instruction of the assembly language does (`C17_writable`). -/

set_option maxRecDepth 100000

namespace T86
open Isa

variable {cfg : Cfg} {prog : List Instr} {data : List Word} {inp : List (BitVec 8)}

/-- Instructions of the assembly language do not both read and write memory. -/
theorem C17_writable {i : Instr} (h : i.Writable) : i.separate = true := by
  obtain ⟨h, _⟩ := h
  have h1 : ∀ {v : Operand}, v.isImmReg → v.inMemory = false := by
    intro v hv; cases v <;> first | rfl | cases hv
  have h2 : ∀ {v : Operand}, v.isFloatImmReg → v.inMemory = false := by
    intro v hv; cases v <;> first | rfl | cases hv
  have h3 : ∀ {v : Operand}, (v.isImmReg ∨ ∃ f, v = .freg f) → v.inMemory = false := by
    rintro v (hv | ⟨f, rfl⟩)
    · exact h1 hv
    · rfl
  cases i with
  | mov d v =>
    cases d with
    | memImm a => simp only [Instr.separate, h3 h]; rfl
    | mem e => simp only [Instr.separate, h3 (show v.isImmReg ∨ ∃ f, v = .freg f from h)]; rfl
    | _ => rfl
  | push v => simp only [Instr.separate, h1 h]; rfl
  | fpush v => simp only [Instr.separate, h2 h]; rfl
  | call v => simp only [Instr.separate, h1 h]; rfl
  | _ => rfl

theorem memCount_regs (l : List Reg) : memCount (l.map Operand.ofReg) = 0 := by
  unfold memCount
  rw [List.countP_eq_zero]
  intro o ho
  rw [List.mem_map] at ho
  obtain ⟨r, _, rfl⟩ := ho
  simp [Operand.ofReg, Operand.readsMem]

theorem readsMem_eq (o : Operand) : o.readsMem = o.inMemory := by cases o <;> rfl

theorem unblocked {i : Instr} (hs : i.separate = true) : Unblocked i := by
  have key : ∀ {v : Operand} {l : List Operand}, memCount l = 0 → memCount (v :: l) ≤ 1 := by
    intro v l h
    rw [memCount_cons, h]; split <;> omega
  have key0 : ∀ {v : Operand} {l : List Operand}, memCount l = 0 → (!v.inMemory) = true → memCount (v :: l) = 0 := by
    intro v l h hv
    rw [memCount_cons, h, readsMem_eq, if_neg (by simpa using hv)]
  have key1 : ∀ {r : Reg} {v : Operand}, memCount [.ofReg r, v] ≤ 1 := by
    intro r v
    rw [memCount_cons, if_neg (by simp [Operand.ofReg, Operand.readsMem])]
    exact key rfl
  have key2 : ∀ {f : Nat} {v : Operand}, memCount [.freg f, v] ≤ 1 := by
    intro f v
    rw [memCount_cons, if_neg (by simp [Operand.readsMem])]
    exact key rfl
  have nost : ∀ {P : Prop}, (none : Option (Option Word)) ≠ none → P := fun h => absurd rfl h
  cases i with
  | mov d v =>
    cases d with
    | val e =>
      cases e with
      | reg r => exact ⟨key rfl, fun h => nost h⟩
      | _ => exact ⟨Nat.zero_le _, fun _ => rfl⟩
    | freg f => exact ⟨key rfl, fun h => nost h⟩
    | memImm a => exact ⟨key rfl, fun _ => key0 rfl hs⟩
    | mem e => exact ⟨key (memCount_regs _), fun _ => key0 (memCount_regs _) hs⟩
    | _ => exact ⟨Nat.zero_le _, fun _ => rfl⟩
  | lea d m =>
    cases m with
    | mem e =>
      have : memCount (opsOf (.lea d (.mem e))) = 0 := by
        cases e <;> rfl
      exact ⟨by omega, fun _ => this⟩
    | _ => exact ⟨Nat.zero_le _, fun _ => rfl⟩
  | bin o b d r v => exact ⟨key1, fun h => nost h⟩
  | fbin o f v => exact ⟨key2, fun h => nost h⟩
  | cmp r v => exact ⟨key1, fun h => nost h⟩
  | fcmp f v => exact ⟨key2, fun h => nost h⟩
  | jmp a => exact ⟨key rfl, fun h => nost h⟩
  | jcc c a => exact ⟨key rfl, fun h => nost h⟩
  | loop r a => exact ⟨key1, fun h => nost h⟩
  | call a => exact ⟨key rfl, fun _ => key0 rfl hs⟩
  | push v => exact ⟨key rfl, fun _ => key0 rfl hs⟩
  | fpush v => exact ⟨key rfl, fun _ => key0 rfl hs⟩
  | ret => exact ⟨Nat.le_refl _, fun h => nost h⟩
  | pop r => exact ⟨Nat.le_refl _, fun h => nost h⟩
  | fpop r => exact ⟨Nat.le_refl _, fun h => nost h⟩
  | _ => exact ⟨Nat.zero_le _, fun _ => rfl⟩

/-- The machine has an ALU and a memory gate, and the program can run without waiting for itself. -/
structure Free (cfg : Cfg) (prog : List Instr) : Prop where
  alus : 0 < cfg.alus
  gates : 0 < cfg.gates
  separate : ∀ i ∈ prog, i.separate = true

theorem run_add (n m : Nat) (c : Cpu) : Cpu.run cfg (n + m) c = (Cpu.run cfg n c >>= Cpu.run cfg m) := by
  induction n generalizing c with
  | zero => rw [Nat.zero_add]; rfl
  | succ n ih =>
    rw [Nat.add_right_comm]
    unfold Cpu.run
    by_cases hh : c.halted = true
    · rw [if_pos hh, if_pos hh, ok_bind]
      cases m with
      | zero => rfl
      | succ m => unfold Cpu.run; rw [if_pos hh]
    · rw [if_neg hh, if_neg hh]
      cases Cpu.tick cfg c with
      | error f => rfl
      | ok c1 => exact ih c1

theorem live_run : ∀ (n : Nat) {c c' : Cpu} {S : State}, Inv cfg c S → Live cfg c → (S.halted = false → c.stepped = false) →
    (∀ i ∈ c.prog, Unblocked i) → 0 < cfg.alus → 0 < cfg.gates → 0 < cfg.rsMax → Cpu.run cfg n c = .ok c' → Live cfg c'
  | 0, c, c', S, hi, hl, hs, hu, ha, hg, hr, h => by cases h; exact hl
  | n + 1, c, c', S, hi, hl, hs, hu, ha, hg, hr, h => by
    unfold Cpu.run at h
    rw [hi.halted] at h
    by_cases hh : S.halted = true
    · rw [if_pos hh] at h; cases h; exact hl
    · rw [if_neg hh, bind_ok_iff] at h
      obtain ⟨c1, h1, h2⟩ := h
      simp only [Bool.not_eq_true] at hh
      have hl1 := (tick_stage hi hl hh (hs hh) hu ha hg hr h1).1
      have tk := tick_sat hi hh (hs hh)
      rw [h1] at tk
      obtain ⟨S1, r1⟩ := tick_run tk
      exact live_run n r1.inv hl1 r1.run (by rw [r1.prog]; exact hu) ha hg hr h2

/-- C17. Whatever the state of the pipeline, within 24 ticks an instruction retires, unless the machine stops with an
error (`C07_errors` says which errors there are). -/
theorem C17_retires (hs : Setup cfg prog data) (hf : Free cfg prog) {n : Nat} {c : Cpu}
    (h : Cpu.run cfg n (Cpu.init cfg prog data inp) = .ok c) (hh : c.halted = false) :
    ∃ t, t ≤ 24 ∧ ((∃ f, Cpu.run cfg (n + t) (Cpu.init cfg prog data inp) = .error f) ∨
      ∃ c', Cpu.run cfg (n + t) (Cpu.init cfg prog data inp) = .ok c' ∧ c.retired < c'.retired) := by
  have hu : ∀ i ∈ prog, Unblocked i := fun i hi => unblocked (hf.separate i hi)
  have r := run_init (inp := inp) hs n
  rw [h] at r
  obtain ⟨s, r⟩ := r
  have hl : Live cfg c := live_run n (inv_init hs.station hs.wf hs.data) live_init (fun _ => rfl) hu hf.alus hf.gates hs.station h
  have hhs : s.halted = false := r.inv.halted.symm.trans hh
  obtain ⟨j, j1, j2, _⟩ := stage_any r.inv hl hf.alus
  obtain ⟨t, t1, t2⟩ := ticks_stage hf.alus hf.gates hs.station j r.inv hl hhs (r.run hhs) (by rw [r.prog]; exact hu) j2
  refine ⟨t, by omega, ?_⟩
  rw [run_add, h]
  exact t2

/-- C17. The processor gets through any number of instructions: after at most 24 ticks per instruction it has retired `k`
instructions, or it has halted or stopped with an error. -/
theorem C17_progress (hs : Setup cfg prog data) (hf : Free cfg prog) (k : Nat) :
    ∃ t, t ≤ 24 * k ∧ ((∃ f, Cpu.run cfg t (Cpu.init cfg prog data inp) = .error f) ∨
      ∃ c, Cpu.run cfg t (Cpu.init cfg prog data inp) = .ok c ∧ (c.halted = true ∨ k ≤ c.retired)) := by
  induction k with
  | zero => exact ⟨0, by omega, Or.inr ⟨_, rfl, Or.inr (Nat.zero_le _)⟩⟩
  | succ k ih =>
    obtain ⟨t, t1, ⟨f, hf'⟩ | ⟨c, hc, hk⟩⟩ := ih
    · exact ⟨t, by omega, Or.inl ⟨f, hf'⟩⟩
    · cases hh : c.halted with
      | true => exact ⟨t, by omega, Or.inr ⟨c, hc, Or.inl hh⟩⟩
      | false =>
        rw [hh] at hk
        obtain ⟨t', h1, h2⟩ := C17_retires hs hf hc hh
        refine ⟨t + t', by omega, h2.imp id ?_⟩
        rintro ⟨c', h3, h4⟩
        exact ⟨c', h3, Or.inr (by
          rcases hk with hk | hk
          · cases hk
          · omega)⟩

theorem runs_halted {k l : Nat} {s t u : State} (h : runs cfg prog k s t) (hh : t.halted = true) (h' : runs cfg prog l s u) :
    l ≤ k := by
  by_contra hlt
  obtain ⟨d, rfl⟩ : ∃ d, l = k + (d + 1) := ⟨l - k - 1, by omega⟩
  have := runs_unique h h'
  rw [this.1] at hh
  cases hh

/-- C17. A program that halts on the sequential machine, after `k` instructions in the state `s`, halts on the processor,
too, after at most 24 ticks per instruction and in the same state; the only way out is undefined behaviour of the C++, for
machines or programs that leave room for it. -/
theorem C17_halts (hs : Setup cfg prog data) (hf : Free cfg prog) {k : Nat} {s : State}
    (h : runs cfg prog k (start cfg data inp) s) (hh : s.halted = true) :
    ∃ t, t ≤ 24 * k ∧ ((∃ c, Cpu.run cfg t (Cpu.init cfg prog data inp) = .ok c ∧ c.halted = true ∧ Shows cfg c s) ∨
      (Cpu.run cfg t (Cpu.init cfg prog data inp) = .error .ub ∧ UbPossible cfg prog)) := by
  obtain ⟨t, t1, ⟨f, hf'⟩ | ⟨c, hc, hk⟩⟩ := C17_progress (inp := inp) hs hf k
  · refine ⟨t, t1, Or.inr ?_⟩
    rcases C07_errors hs hf' with ⟨rfl, h2⟩ | ⟨_, k', s', g1, g2, g3⟩
    · exact ⟨hf', h2⟩
    · exfalso
      have hle := runs_halted h hh g1
      obtain ⟨d, rfl⟩ : ∃ d, k = k' + d := ⟨k - k', by omega⟩
      have := runs_unique g1 h
      cases d with
      | zero =>
        have this : s = s' := this
        rw [this, g2] at hh; cases hh
      | succ d =>
        obtain ⟨_, w, h1, _⟩ := this
        rw [h1] at g3; cases g3
  · refine ⟨t, t1, Or.inl ⟨c, hc, ?_⟩⟩
    obtain ⟨s', r1, _, _, _, r2⟩ := C07_refines hs hc
    have hle := runs_halted h hh r1
    have hhalt : c.halted = true := by
      rcases hk with hk | hk
      · exact hk
      · have : c.retired = k := by omega
        rw [this] at r1
        rw [r2, runs_det r1 h]; exact hh
    refine ⟨hhalt, ?_⟩
    obtain ⟨s'', q1, q2, _⟩ := C07_halted hs hc hhalt
    have hs'' : s''.halted = true := by
      rw [runs_det q1 r1, ← r2]; exact hhalt
    have hge := runs_halted q1 hs'' h
    have : c.retired = k := by omega
    rw [this] at q1
    rw [runs_det h q1]; exact q2

/-- C17. For wrapping arithmetic and programs of instructions that are always defined there is no way out: the program
halts. -/
theorem C17_halts_defined (hs : Setup cfg prog data) (hf : Free cfg prog) (hm : cfg.mode = .wrap) (hr : ∀ i ∈ prog, i.risky = false)
    {k : Nat} {s : State} (h : runs cfg prog k (start cfg data inp) s) (hh : s.halted = true) :
    ∃ t c, t ≤ 24 * k ∧ Cpu.run cfg t (Cpu.init cfg prog data inp) = .ok c ∧ c.halted = true ∧ Shows cfg c s := by
  obtain ⟨t, t1, ⟨c, h1, h2, h3⟩ | ⟨_, hu | ⟨i, hi, hu⟩⟩⟩ := C17_halts (inp := inp) hs hf h hh
  · exact ⟨t, c, t1, h1, h2, h3⟩
  · rw [hm] at hu; cases hu
  · rw [hr i hi] at hu; cases hu

/-- Non-vacuity of C17: the sample program meets the hypotheses, and halts after 11 instructions, well within the bound
(at tick 42, see C07); after 12 ticks it is in the middle of its work. -/
example : Free Sample.cfg Sample.prog ∧
    (∃ s, runs Sample.cfg Sample.prog 11 (start Sample.cfg [] []) s ∧ s.halted = true) ∧
    (Cpu.run Sample.cfg 12 (Cpu.init Sample.cfg Sample.prog [] [])).map (fun c => (c.halted, c.retired, c.entries.length)) =
      .ok (false, 2, 2) := by
  refine ⟨⟨by decide, by decide, by decide⟩, ?_, by decide +kernel⟩
  exact ⟨_, ⟨rfl, _, rfl, rfl, _, rfl, rfl, _, rfl, rfl, _, rfl, rfl, _, rfl, rfl, _, rfl, rfl, _, rfl, rfl, _, rfl, rfl, _, rfl,
    rfl, _, rfl, rfl, _, rfl, rfl⟩, rfl⟩

/-- A store of the cell it reads. -/
def selfCopy : List Instr := [.mov (.memImm 5) (.memImm 5), .halt]

/-- Why C17 asks for instructions that do not both read and write memory: copying a cell onto itself takes one
instruction on the sequential machine, but the processor would wait for ever, for its own write. (The public constructors
of the C++ classes do not admit such an instruction, src/t86/instruction.h:388-470,608-634,641-667,941-968; the type
`Instr` does.) -/
theorem C17_self_copy :
    Setup Sample.cfg selfCopy [] ∧ (∃ s, runs Sample.cfg selfCopy 2 (start Sample.cfg [] []) s ∧ s.halted = true) ∧
    ∀ n, ∃ c, Cpu.run Sample.cfg n (Cpu.init Sample.cfg selfCopy [] []) = .ok c ∧ c.halted = false := by
  refine ⟨⟨by decide, by decide, by decide⟩, ⟨_, ⟨rfl, _, rfl, rfl, _, rfl, rfl⟩, rfl⟩, ?_⟩
  have h0 : ∃ c, Cpu.run Sample.cfg 20 (Cpu.init Sample.cfg selfCopy [] []) = .ok c ∧ c.halted = false ∧ Cpu.tick Sample.cfg c = .ok c := by
    refine ⟨_, rfl, ?_⟩
    decide +kernel
  obtain ⟨c, h1, h2, h3⟩ := h0
  have h4 : ∀ m, Cpu.run Sample.cfg m c = .ok c := by
    intro m
    induction m with
    | zero => rfl
    | succ m ih => unfold Cpu.run; rw [if_neg (by rw [h2]; simp), h3]; exact ih
  intro n
  by_cases hn : 20 ≤ n
  · obtain ⟨m, rfl⟩ : ∃ m, n = 20 + m := ⟨n - 20, by omega⟩
    exact ⟨c, by rw [run_add, h1]; exact h4 m, h2⟩
  · obtain ⟨m, hm⟩ : ∃ m, 20 = n + m := ⟨20 - n, by omega⟩
    rw [hm, run_add, bind_ok_iff] at h1
    obtain ⟨c', h5, h6⟩ := h1
    refine ⟨c', h5, ?_⟩
    cases hh : c'.halted with
    | false => rfl
    | true =>
      have : Cpu.run Sample.cfg m c' = .ok c' := by
        cases m with
        | zero => rfl
        | succ m => unfold Cpu.run; rw [if_pos hh]
      rw [this] at h6
      cases h6
      rw [hh] at h2; cases h2

end T86
