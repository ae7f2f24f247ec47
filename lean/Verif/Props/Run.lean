import Verif.Lemmas.Run2
import Verif.Props.Info

/-! # Properties of the command `t86-cli FILE`: C67

The specification: `Asm.FileSyn` (Spec/Info) says which instructions and data a text consists of, `Isa.start` and `Isa.step`
(Spec/Isa) say what they do one after the other. -/

set_option maxRecDepth 100000

namespace T86
open Isa Dbg Str Asm

variable {stod : Str → Except Err Word} {mode : Mode} {fo : FloatOps} {o : Run.Options} {inp : List (BitVec 8)}

/-- A program that fits the machine: its registers exist, and its data fits the memory. -/
def Run.Fits (o : Run.Options) (mode : Mode) (fo : FloatOps) (prog : List Instr) (data : List Word) : Prop :=
  (∀ i ∈ prog, i.wf (o.cfg mode fo) = true) ∧ data.length ≤ o.memory

theorem Run.Fits.setup {prog : List Instr} {data : List Word} (h : Run.Fits o mode fo prog data) :
    Setup (o.cfg mode fo) prog data := ⟨by change 0 < 2; decide, h.1, h.2⟩

theorem Run.main_eq {text : Str} {u : Unit'} (ha : assemble stod text = .ok u) (hd : u.data.length ≤ o.memory) (n : Nat) :
    Run.main stod mode fo o (some text) inp n = Run.loop (o.cfg mode fo) n (Cpu.init (o.cfg mode fo) u.program u.data inp) := by
  obtain ⟨p, hl⟩ := Pars.lex_of_start ha
  unfold Run.main
  dsimp only
  rw [hl]
  dsimp only
  rw [ha]
  dsimp only
  have := C24_load (o.cfg mode fo) u.program u.data inp
  change loadData (List.replicate o.memory 0) 0 u.data = _ at this
  rw [if_pos (show u.data.length ≤ (o.cfg mode fo).ramSize from hd)] at this
  rw [this]

/-- Any run of the sequential machine is a part of one that has come to an error. -/
theorem Run.runs_error {cfg : Cfg} {prog : List Instr} {k l : Nat} {s t u : State} {f : Fault} (h : runs cfg prog k s t)
    (he : step cfg prog t = .error f) (h' : runs cfg prog l s u) : ∃ d, k = l + d ∧ runs cfg prog d u t := by
  induction l generalizing k s with
  | zero => cases h'; exact ⟨k, by omega, h⟩
  | succ l ih =>
    obtain ⟨_, w', h1', h2'⟩ := h'
    cases k with
    | zero => cases h; rw [h1'] at he; cases he
    | succ k =>
      obtain ⟨_, w, h1, h2⟩ := h
      rw [h1'] at h1
      cases h1
      obtain ⟨d, hd, hr⟩ := ih h2 h2'
      exact ⟨d, by omega, hr⟩

/-- C67. Of a file that assembles to a program that fits the machine, at any time: what has been printed is what the sequential
machine prints with some number of instructions of the program. The process ends only when that machine has come to a halt, and
then has printed all it prints; or when an instruction of it accesses memory that does not exist, and then has printed all that
is printed before. It is never aborted, and undefined behaviour needs a program that leaves room for it. -/
theorem C67_prints {text : Str} {u : Unit'} (ha : assemble stod text = .ok u) (hf : Run.Fits o mode fo u.program u.data) (n : Nat) :
    match Run.main stod mode fo o (some text) inp n with
    | .running out => ∃ k s, runs (o.cfg mode fo) u.program k (start (o.cfg mode fo) u.data inp) s ∧ s.halted = false ∧ out = s.out
    | .exited status out => status = 0 ∧
        ∃ k s, runs (o.cfg mode fo) u.program k (start (o.cfg mode fo) u.data inp) s ∧ s.halted = true ∧ out = s.out
    | .failed out => ∃ k s, runs (o.cfg mode fo) u.program k (start (o.cfg mode fo) u.data inp) s ∧ s.halted = false ∧
        step (o.cfg mode fo) u.program s = .error (.exn .outOfRange) ∧ out = s.out
    | .aborted => False
    | .undefined => UbPossible (o.cfg mode fo) u.program := by
  rw [Run.main_eq ha hf.2]
  have hs := hf.setup
  have hc := Run.loop_cases (cfg := o.cfg mode fo) n (c := Cpu.init (o.cfg mode fo) u.program u.data inp) rfl
  generalize Run.loop (o.cfg mode fo) n (Cpu.init (o.cfg mode fo) u.program u.data inp) = x at hc ⊢
  cases x
  · obtain ⟨h0, m, c, h1, h2, rfl⟩ := hc
    obtain ⟨s, r1, _, r2, _, r3⟩ := C07_refines hs h1
    exact ⟨h0, _, s, r1, r3 ▸ h2, r2⟩
  · obtain ⟨m, c, e, h1, h2, rfl, h3⟩ := hc
    have hi := run_init (inp := inp) hs m
    rw [h1] at hi
    obtain ⟨s1, r⟩ := hi
    obtain ⟨k, s, q1, q2, q3, q4⟩ := Run.tickOut_exn r.inv (r.inv.halted ▸ h2) h3
    rw [r.prog] at q1 q3
    obtain ⟨l, _, hl⟩ := r.runs
    exact ⟨_, s, runs_append hl q1, q2, q3, q4⟩
  · obtain ⟨c, h1, h2, rfl⟩ := hc
    obtain ⟨s, r1, _, r2, _, r3⟩ := C07_refines hs h1
    exact ⟨_, s, r1, r3 ▸ h2, r2⟩
  · obtain ⟨m, h1 | ⟨c, h1, h2⟩⟩ := hc
    · rcases C07_errors hs h1 with ⟨h4, _⟩ | ⟨h4, _⟩ <;> cases h4
    · have := Run.intr_le hs h1
      omega
  · obtain ⟨m, h1⟩ := hc
    rcases C07_errors hs h1 with ⟨_, h4⟩ | ⟨h4, _⟩
    · exact h4
    · cases h4

/-- C67. A program that halts, after `k` instructions, is run to its end: after at most 24 ticks for each of them the process has
ended with exit status 0, having printed exactly what the instructions print; unless the program leaves room for undefined
behaviour. -/
theorem C67_ends {text : Str} {u : Unit'} (ha : assemble stod text = .ok u) (hf : Run.Fits o mode fo u.program u.data)
    {k : Nat} {s : State} (hr : runs (o.cfg mode fo) u.program k (start (o.cfg mode fo) u.data inp) s) (hh : s.halted = true)
    {n : Nat} (hn : 24 * k ≤ n) :
    Run.main stod mode fo o (some text) inp n = .exited 0 s.out ∨
      (Run.main stod mode fo o (some text) inp n = .undefined ∧ UbPossible (o.cfg mode fo) u.program) := by
  have hs := hf.setup
  have hfree : Free (o.cfg mode fo) u.program :=
    ⟨by change 0 < 1; decide, by change 0 < 4; decide, fun i hi => C17_writable (C22_producible ha i hi)⟩
  obtain ⟨t, ht, ⟨c, h1, h2, h3⟩ | ⟨h1, h2⟩⟩ := C17_halts hs hfree hr hh
  · refine Or.inl ?_
    rw [Run.main_eq ha hf.2, ← h3.out]
    exact Run.loop_halts t rfl (fun m d hd => Run.intr_le hs hd) h1 h2 n (by omega)
  · refine Or.inr ⟨?_, h2⟩
    rw [Run.main_eq ha hf.2]
    exact Run.loop_ub t rfl (fun m d hd => Run.intr_le hs hd) h1 n (by omega)

/-- C67. A program that accesses memory that does not exist, after `k` instructions, is ended after at most 24 ticks for each
instruction, having printed exactly what the instructions before print. -/
theorem C67_fails {text : Str} {u : Unit'} (ha : assemble stod text = .ok u) (hf : Run.Fits o mode fo u.program u.data)
    {k : Nat} {s : State} (hr : runs (o.cfg mode fo) u.program k (start (o.cfg mode fo) u.data inp) s) (hh : s.halted = false)
    (he : step (o.cfg mode fo) u.program s = .error (.exn .outOfRange)) {n : Nat} (hn : 24 * (k + 1) ≤ n) :
    Run.main stod mode fo o (some text) inp n = .failed s.out ∨
      (Run.main stod mode fo o (some text) inp n = .undefined ∧ UbPossible (o.cfg mode fo) u.program) := by
  have hs := hf.setup
  have hfree : Free (o.cfg mode fo) u.program :=
    ⟨by change 0 < 1; decide, by change 0 < 4; decide, fun i hi => C17_writable (C22_producible ha i hi)⟩
  obtain ⟨t, ht, h1⟩ := C17_progress (inp := inp) hs hfree (k + 1)
  have hp := C67_prints (inp := inp) ha hf n
  have herr : ∃ f, Cpu.run (o.cfg mode fo) t (Cpu.init (o.cfg mode fo) u.program u.data inp) = .error f := by
    rcases h1 with h1 | ⟨c, h1, h2⟩
    · exact h1
    · exfalso
      obtain ⟨s1, r1, _, _, _, r3⟩ := C07_refines hs h1
      obtain ⟨d, hd, hr'⟩ := Run.runs_error hr he r1
      rcases h2 with h2 | h2
      · rw [r3] at h2
        cases d with
        | zero =>
          cases hr'
          rw [h2] at hh
          cases hh
        | succ d => rw [hr'.1] at h2; cases h2
      · omega
  have hmain := Run.main_eq (mode := mode) (fo := fo) (o := o) (inp := inp) ha hf.2 n
  cases hx : Run.main stod mode fo o (some text) inp n with
  | exited status out =>
    rw [hx] at hp
    obtain ⟨_, l, s1, r1, r2, _⟩ := hp
    obtain ⟨d, hd, hr'⟩ := Run.runs_error hr he r1
    exfalso
    cases d with
    | zero =>
      cases hr'
      rw [r2] at hh
      cases hh
    | succ d => rw [hr'.1] at r2; cases r2
  | failed out =>
    rw [hx] at hp
    obtain ⟨l, s1, r1, r2, r3, rfl⟩ := hp
    obtain ⟨d, hd, hr'⟩ := Run.runs_error hr he r1
    cases d with
    | zero => cases hr'; exact Or.inl rfl
    | succ d => obtain ⟨_, w, h2, _⟩ := hr'; rw [h2] at r3; cases r3
  | running out =>
    exfalso
    rw [hx] at hmain
    have hc := Run.loop_cases (cfg := o.cfg mode fo) n (c := Cpu.init (o.cfg mode fo) u.program u.data inp) rfl
    rw [← hmain] at hc
    obtain ⟨c, h2, _⟩ := hc
    obtain ⟨f, h3⟩ := herr
    obtain ⟨d, rfl⟩ : ∃ d, n = t + d := ⟨n - t, by omega⟩
    rw [run_add, h3] at h2
    cases h2
  | aborted => rw [hx] at hp; exact hp.elim
  | undefined => rw [hx] at hp; exact Or.inr ⟨rfl, hp⟩

/-- C67. The same in terms of the text: a file with any text and data sections, in any layout, with or without debugging
information, is run as the sequential machine runs its instructions on its data. -/
theorem C67_file {l : List Part} {src : Option Str} {text : Str} (h : FileSyn stod l src text) (hne : l ≠ [] ∨ src ≠ none)
    (ht : ∀ p, Part.code (.text p) ∈ l → ∀ x ∈ p, x.2.Writable ∧ ∀ a, Operand.memImm a ∈ x.2.shown → a.toNat < 2 ^ 31)
    (hd : ∀ d, Part.code (.data d) ∈ l → ∀ x ∈ d, x.Bytes)
    (hf : Run.Fits o mode fo (l.map Part.instrs).flatten (l.map Part.cells).flatten)
    (hu : ¬ UbPossible (o.cfg mode fo) (l.map Part.instrs).flatten) {k : Nat} {s : State}
    (hr : runs (o.cfg mode fo) (l.map Part.instrs).flatten k (start (o.cfg mode fo) (l.map Part.cells).flatten inp) s)
    (hh : s.halted = true) {n : Nat} (hn : 24 * k ≤ n) :
    Run.main stod mode fo o (some text) inp n = .exited 0 s.out := by
  have ha := C51_assemble h hne ht hd
  rcases C67_ends ha hf hr hh hn with h1 | ⟨_, h1⟩
  · exact h1
  · exact absurd h1 hu

/-- C67. A file that is not a program, but begins with a token, is refused with exit status 2, and nothing is run or printed. -/
theorem C67_refused_partial {text : Str} (hl : ∃ p, Lexer.lex stod false text = .ok p) (ha : assemble stod text = .error .parser)
    (n : Nat) : Run.main stod mode fo o (some text) inp n = .exited 2 [] := by
  obtain ⟨p, hl⟩ := hl
  unfold Run.main
  dsimp only
  rw [hl]
  dsimp only
  rw [ha]

/-- A run ends by itself with exit status 0 or does not end by itself. -/
theorem Run.loop_status {cfg : Cfg} : ∀ (n : Nat) (c : Cpu), (Run.loop cfg n c).status = none ∨ (Run.loop cfg n c).status = some 0
  | 0, _ => Or.inl rfl
  | n + 1, c => by
    unfold Run.loop
    split
    · exact Or.inl rfl
    · exact Or.inl rfl
    · exact Or.inr rfl
    · split
      · exact Or.inr rfl
      · split
        · exact Run.loop_status n _
        · exact Or.inl rfl

/-- C67. The exit status tells exactly three cases apart, whatever the file, the options and the input, and whenever one looks: 3
is a file that cannot be opened, 2 a file that begins with a token and is not a program, and 0 a program, no matter whether it
came to its end or failed (see `C67_failure_is_silent`). There is no other exit status. -/
theorem C67_status (file : Option Str) (n k : Nat) (h : (Run.main stod mode fo o file inp n).status = some k) :
    k = 3 ∧ file = none ∨
    k = 2 ∧ (∃ text, file = some text ∧ (∃ p, Lexer.lex stod false text = .ok p) ∧ assemble stod text = .error .parser) ∨
    k = 0 ∧ ∃ text u, file = some text ∧ assemble stod text = .ok u := by
  unfold Run.main at h
  cases file with
  | none => cases h; exact Or.inl ⟨rfl, rfl⟩
  | some text =>
    dsimp only at h
    cases hl : Lexer.lex stod false text with
    | error e => rw [hl] at h; cases h
    | ok p =>
      rw [hl] at h
      dsimp only at h
      cases ha : assemble stod text with
      | error e =>
        rw [ha] at h
        cases e <;> first | cases h; done | (cases h; exact Or.inr (Or.inl ⟨rfl, text, rfl, ⟨p, hl⟩, ha⟩))
      | ok u =>
        rw [ha] at h
        dsimp only at h
        split at h
        · cases h
        · refine Or.inr (Or.inr ⟨?_, text, u, rfl, ha⟩)
          rcases Run.loop_status n (Cpu.init (o.cfg mode fo) u.program u.data inp) with e | e <;> rw [e] at h <;> cases h
          rfl

/-! ## Examples -/

/-- A file with text and data that prints a character and a number. -/
def exRunFile : Str := ".text 0 MOV R0, 65 # letter\n1 PUTCHAR R0\n2 MOV R1, [1]\n3 PUTNUM R1 HALT\n.data 7 -2".toList

/-- The program of `exRunFile`. -/
def exRunUnit : Unit' :=
  ⟨[.mov (.val (.reg (.gp 0))) (.imm 65), .putchar (.gp 0), .mov (.val (.reg (.gp 1))) (.memImm 1), .putnum (.gp 1), .halt],
    [7, -2]⟩

/-- The hypotheses of `C67_ends` are met by the example, which leaves no room for undefined behaviour. -/
example : assemble exStod exRunFile = .ok exRunUnit ∧ Run.Fits {} .wrap Sample.fo exRunUnit.program exRunUnit.data ∧
    (∃ s, runs (Run.Options.cfg {} .wrap Sample.fo) exRunUnit.program 5
      (start (Run.Options.cfg {} .wrap Sample.fo) exRunUnit.data []) s ∧ s.halted = true ∧ s.out = [.char 65, .num (-2)]) ∧
    ¬ UbPossible (Run.Options.cfg {} .wrap Sample.fo) exRunUnit.program := by
  refine ⟨by decide +kernel, ⟨by decide, by decide⟩, ?_, by unfold UbPossible; decide⟩
  exact ⟨_, ⟨rfl, _, rfl, rfl, _, rfl, rfl, _, rfl, rfl, _, rfl, rfl, _, rfl, rfl⟩, rfl, rfl⟩

/-- The hypotheses of `C67_file`, apart from the text (see the example of `FileSyn` in Props/Info), for a file with instructions,
debugging information and a source text. -/
example : let l : List Part := [.code (.text [(none, .halt)]), .info (.mk .scope [.id 7] [])]
    Run.Fits {} .wrap Sample.fo (l.map Part.instrs).flatten (l.map Part.cells).flatten ∧
    ¬ UbPossible (Run.Options.cfg {} .wrap Sample.fo) (l.map Part.instrs).flatten ∧
    ∃ s, runs (Run.Options.cfg {} .wrap Sample.fo) (l.map Part.instrs).flatten 1
      (start (Run.Options.cfg {} .wrap Sample.fo) (l.map Part.cells).flatten []) s ∧ s.halted = true := by
  refine ⟨⟨by decide, by decide⟩, by unfold UbPossible; decide, _, ⟨rfl, _, rfl, rfl⟩, rfl⟩

/-- What is seen of it early and late. -/
example : Run.main exStod .wrap Sample.fo {} (some exRunFile) [] 10 = .running [.char 65] ∧
    Run.main exStod .wrap Sample.fo {} (some exRunFile) [] 120 = .exited 0 [.char 65, .num (-2)] := by
  decide +kernel

/-- The hypotheses of `C67_fails` are met by a program that prints a letter and reads outside of the memory. -/
example : let u : Unit' := ⟨[.mov (.val (.reg (.gp 0))) (.imm 65), .putchar (.gp 0), .mov (.val (.reg (.gp 0))) (.memImm 5000), .halt], []⟩
    assemble exStod ".text MOV R0, 65 PUTCHAR R0 MOV R0, [5000] HALT".toList = .ok u ∧
    Run.Fits {} .wrap Sample.fo u.program u.data ∧
    ∃ s, runs (Run.Options.cfg {} .wrap Sample.fo) u.program 2 (start (Run.Options.cfg {} .wrap Sample.fo) u.data []) s ∧
      s.halted = false ∧ step (Run.Options.cfg {} .wrap Sample.fo) u.program s = .error (.exn .outOfRange) := by
  refine ⟨by decide +kernel, ⟨by decide, by decide⟩, _, ⟨rfl, _, rfl, rfl, _, rfl, rfl⟩, rfl, rfl⟩

/-- The exit status does not tell a program that failed from one that came to its end. -/
theorem C67_failure_is_silent :
    (Run.main exStod .wrap Sample.fo {} (some ".text MOV R0, 65 PUTCHAR R0 MOV R0, [5000] HALT".toList) [] 96).status = some 0 ∧
    Run.main exStod .wrap Sample.fo {} (some ".text MOV R0, 65 PUTCHAR R0 MOV R0, [5000] HALT".toList) [] 96 = .failed [.char 65] := by
  decide +kernel

/-- Why `C67_refused_partial` asks for an error of the parser: a number that is too long for an `int` ends the process by an
exception nobody catches, and so does data that does not fit the memory. Why it asks for a token at the beginning: the first
token is read outside the `try`, so that a file that begins with a character that no token begins with is not refused but ends
the process. -/
theorem C67_aborts :
    Run.main exStod .wrap Sample.fo {} (some "@ not a program".toList) [] 0 = .aborted ∧
    assemble exStod "@ not a program".toList = .error .parser ∧
    Run.main exStod .wrap Sample.fo {} (some ".text MOV R0, 99999999999 HALT".toList) [] 0 = .aborted ∧
    Run.main exStod .wrap Sample.fo { memory := 1 } (some ".text HALT .data 1 2".toList) [] 0 = .aborted := by
  decide +kernel

/-- Why `C67_ends` leaves room for undefined behaviour: two stores to one cell, one right after the other, make the processor use
a reference to an element of a vector that has changed meanwhile. -/
theorem C67_two_stores :
    Run.main exStod .wrap Sample.fo {} (some ".text MOV [5], 1 MOV [5], 2 HALT".toList) [] 40 = .undefined ∧
    ∃ u, assemble exStod ".text MOV [5], 1 MOV [5], 2 HALT".toList = .ok u ∧ Run.Fits {} .wrap Sample.fo u.program u.data ∧
      ∃ s, runs (Run.Options.cfg {} .wrap Sample.fo) u.program 3 (start (Run.Options.cfg {} .wrap Sample.fo) u.data []) s ∧
        s.halted = true ∧ s.mem 5 = some 2 := by
  refine ⟨by decide +kernel, ⟨[.mov (.memImm 5) (.imm 1), .mov (.memImm 5) (.imm 2), .halt], []⟩, by decide +kernel,
    ⟨by decide, by decide⟩, _, ⟨rfl, _, rfl, rfl, _, rfl, rfl, _, rfl, rfl⟩, rfl, rfl⟩

/-- Text that is not a program. -/
example : (∃ p, Lexer.lex exStod false ".text MOV R9, 1, HALT".toList = .ok p) ∧
    assemble exStod ".text MOV R9, 1, HALT".toList = .error .parser :=
  ⟨⟨(.dot, "text MOV R9, 1, HALT".toList), by decide +kernel⟩, by decide +kernel⟩

end T86
