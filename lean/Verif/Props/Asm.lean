import Verif.Lemmas.AsmProg

/-! # C22–C24: the assembly language

`stod` is the library function reading a floating point number and `ftos` the one printing it (`std::stod`, `std::to_string`);
the theorems hold for all such functions. -/

set_option linter.unusedSimpArgs false
set_option linter.unusedVariables false

namespace T86
open Dbg Str Asm

variable {stod : Str → Except Err Word} {ftos : Word → Str}

/-! ## C23: layout -/

/-- All tokens of a text, in order. -/
def tokens (stod : Str → Except Err Word) (ignore : Bool) : Nat → Str → Except Err (List Tok)
  | 0, _ => .error .diverge
  | n + 1, s =>
    match Lexer.lex stod ignore s with
    | .error e => .error e
    | .ok (.eof, _) => .ok []
    | .ok (t, r) => (tokens stod ignore n r).map (t :: ·)

theorem Spells.ne_eof {t : Tok} {w : Str} (h : Spells stod t w) : t ≠ .eof := by
  cases h with
  | symbol h => rintro rfl; cases h
  | _ => intro h; cases h

/-- Reading a text token by token yields exactly the tokens it consists of, whatever the blanks, line breaks and comments. -/
theorem C23_tokens (ignore : Bool) {ts : List Tok} {s : Str} (h : Layout stod ts s) {n : Nat} (hn : ts.length < n) :
    tokens stod ignore n s = .ok ts := by
  induction ts generalizing s n with
  | nil =>
    cases n with
    | zero => exact absurd hn (by simp)
    | succ n => simp only [tokens, Lexer.lex_nil ignore h]
  | cons t ts ih =>
    cases n with
    | zero => exact absurd hn (by simp)
    | succ n =>
      obtain ⟨rest, h1, h2⟩ := Lexer.lex_cons ignore h
      have ht : t ≠ .eof := by cases h with | cons hg hw hr hs => exact hw.ne_eof
      have := ih h2 (n := n) (by simp at hn; omega)
      simp only [tokens, h1]
      cases t with
      | eof => exact absurd rfl ht
      | _ => simp only [this]; rfl

/-- Two texts with the same tokens, however laid out, assemble to the same program, or fail with the same error. -/
theorem C23_layout (hst : ∀ w, stod w ≠ .error .diverge) {ts : List Tok} {s1 s2 : Str} (h1 : Layout stod ts s1)
    (h2 : Layout stod ts s2) : assemble stod s1 = assemble stod s2 := by
  have e1 := assemble_layout hst h1 (Nat.le_max_left (2 * s1.length + 2) (2 * s2.length + 2))
  have e2 := assemble_layout hst h2 (Nat.le_max_right (2 * s1.length + 2) (2 * s2.length + 2))
  rw [e1, e2]

/-- The same for the text of one instruction. -/
theorem C23_layout_instruction {ts : List Tok} {s1 s2 : Str} (h1 : Layout stod ts s1) (h2 : Layout stod ts s2) :
    oneInstruction.run stod s1 = oneInstruction.run stod s2 := by
  rw [Reader.run_layout all_oneInstruction h1, Reader.run_layout all_oneInstruction h2]

/-- Assembling a text always ends: with a program or an error. -/
theorem C23_terminates (hst : ∀ w, stod w ≠ .error .diverge) (s : Str) : assemble stod s ≠ .error .diverge :=
  assemble_terminates hst s

/-! ## C22: text of instructions -/

/-- Every instruction the assembler produces is one of the assembly language: each mnemonic with the operands it takes. -/
theorem C22_producible {text : Str} {u : Unit'} (h : assemble stod text = .ok u) : ∀ i ∈ u.program, i.Writable :=
  (all_parse _).run h

/-- An instruction read from a text is shown as a text that is read as the same instruction, if its bracketed addresses are
`int`s and its floating point numbers are printed exactly. -/
theorem C22_round_trip_partial {text : Str} {i : Instr} (h : oneInstruction.run stod text = .ok i)
    (hl : ∀ o ∈ i.shown, o.Legible stod ftos) : oneInstruction.run stod (i.print ftos) = .ok i := by
  have hw := all_oneInstruction.run h
  have hp := prints_instr hw hl [] [] (.nil (.gap .nil)) (by intro c r hc; cases hc)
  rw [List.append_nil, List.append_nil] at hp
  rw [Reader.run_layout all_oneInstruction hp]
  exact back_oneInstruction hw fun o ho => (hl o ho).short

/-- The same for the reader of the virtual machine, which does not look at what follows the instruction: writing back the text
shown for an instruction puts the same instruction in place. -/
theorem C22_poke_back_partial {text : Str} {i : Instr} (h : pokedInstruction.run stod text = .ok i)
    (hl : ∀ o ∈ i.shown, o.Legible stod ftos) : pokedInstruction.run stod (i.print ftos) = .ok i := by
  have hw := all_pokedInstruction.run h
  have hp := prints_instr hw hl [] [] (.nil (.gap .nil)) (by intro c r hc; cases hc)
  rw [List.append_nil, List.append_nil] at hp
  rw [Reader.run_layout all_pokedInstruction hp]
  exact (parses_instruction hw fun o ho => (hl o ho).short).start ⟨by simp, by simp, by simp⟩

theorem Layout.newline {ts : List Tok} {s : Str} (h : Layout stod ts s) : Layout stod ts ('\n' :: s) := by
  cases h with
  | nil h =>
    refine .nil ?_
    cases h with
    | gap h => exact .gap (.blank (by decide) h)
    | @comment g b h h' => exact .comment (g := '\n' :: g) (.blank (by decide) h) h'
  | @cons t ts g w rest hg hw hr hs => exact .cons (g := '\n' :: g) (.blank (by decide) hg) hw hr hs

theorem layout_listing : ∀ {p : List Instr}, (∀ i ∈ p, i.Writable) → (∀ i ∈ p, ∀ o ∈ i.shown, o.Legible stod ftos) →
    Layout stod (p.map Instr.toks).flatten (p.map fun i => i.print ftos ++ ['\n']).flatten
  | [], _, _ => .nil (.gap .nil)
  | i :: p, hw, hl => by
    have ih := layout_listing (p := p) (fun j hj => hw j (by simp [hj])) (fun j hj => hl j (by simp [hj]))
    rw [List.map_cons, List.map_cons, List.flatten_cons, List.flatten_cons, List.append_assoc]
    refine prints_instr (hw i (by simp)) (hl i (by simp)) _ _ ?_ ?_
    · exact ih.newline
    · intro c r hc
      cases hc
      exact Or.inr (Or.inr (Or.inr rfl))

/-- A whole program: what is shown for the instructions of an assembled program assembles to the same instructions. -/
theorem C22_program_partial (hst : ∀ w, stod w ≠ .error .diverge) {text : Str} {u : Unit'} (h : assemble stod text = .ok u)
    (hl : ∀ i ∈ u.program, ∀ o ∈ i.shown, o.Legible stod ftos) :
    assemble stod (listing ftos u.program) = .ok ⟨u.program, []⟩ := by
  have hw := C22_producible h
  have hp := layout_listing hw hl
  have hq : Layout stod ([Sect.text (u.program.map fun i => (none, i))].map Sect.toks).flatten (listing ftos u.program) := by
    have e : ([Sect.text (u.program.map fun i => (none, i))].map Sect.toks).flatten
        = .dot :: .id "text".toList :: (u.program.map Instr.toks).flatten := by
      simp only [List.map_cons, List.map_nil, List.flatten_cons, List.flatten_nil, List.append_nil, Sect.toks, List.map_map]
      rfl
    rw [e]
    refine .cons (g := []) (w := ".".toList) .nil (.symbol rfl) (rest := "text\n".toList ++ _) ?_ (by
      intro c r _ hg; exact hg)
    refine .cons (g := []) (w := "text".toList) .nil (.id (by decide) (by decide)) (rest := '\n' :: _) ?_ ?_
    · exact hp.newline
    · intro c r hc
      cases hc
      exact safe_grows _ (Or.inr (Or.inr (Or.inr rfl)))
  have := assemble_sections hst (by simp) (by
    intro x hx
    simp only [List.mem_singleton] at hx
    subst hx
    intro y hy
    simp only [List.mem_map] at hy
    obtain ⟨i, hi, rfl⟩ := hy
    exact ⟨hw i hi, fun o ho => (hl i hi o ho).short⟩) hq
  simpa [Sect.instrs, Sect.cells, List.map_map, Function.comp_def] using this

/-- The unrestricted claim fails: `ADD R0, [-5]` is accepted, but its text has an address the assembler rejects. -/
theorem C22_negative_address :
    ∃ i, oneInstruction.run stod "ADD R0, [-5]".toList = .ok i ∧
      i.print ftos = "ADD R0, [18446744073709551611]".toList ∧
      oneInstruction.run stod (i.print ftos) = .error .outOfRange :=
  ⟨.bin .add false (.gp 0) (.gp 0) (.memImm (BitVec.ofInt 64 (-5))), rfl, rfl, rfl⟩

/-! ## C24: data -/

/-- A program with any number of sections, in any order and layout, assembles to the instructions of its text sections in order
and the cells of its data sections in order. -/
theorem C24_sections (hst : ∀ w, stod w ≠ .error .diverge) {l : List Sect} {s : Str} (hne : l ≠ [])
    (ht : ∀ p, Sect.text p ∈ l → ∀ x ∈ p, x.2.Writable ∧ ∀ a, Operand.memImm a ∈ x.2.shown → a.toNat < 2 ^ 31)
    (hd : ∀ d, Sect.data d ∈ l → ∀ x ∈ d, x.Bytes) (h : Layout stod (l.map Sect.toks).flatten s) :
    assemble stod s = .ok ⟨(l.map Sect.instrs).flatten, (l.map Sect.cells).flatten⟩ := by
  refine assemble_sections hst hne (fun x hx => ?_) h
  cases x with
  | text p =>
    intro y hy
    refine ⟨(ht p hx y hy).1, fun o ho => ?_⟩
    cases o with
    | memImm a => exact (ht p hx y hy).2 a ho
    | _ => trivial
  | data d => exact hd d hx

theorem loadData_eq : ∀ (data mem : List Word) (i : Nat), i ≤ mem.length →
    loadData mem i data = if i + data.length ≤ mem.length then some (mem.take i ++ data ++ mem.drop (i + data.length)) else none
  | [], mem, i, h => by simp [loadData, h]
  | w :: data, mem, i, h => by
    unfold loadData
    by_cases hi : i < mem.length
    · rw [if_pos hi, loadData_eq data (mem.set i w) (i + 1) (by simp; omega)]
      have e1 : (mem.set i w).take (i + 1) = mem.take i ++ [w] := by
        rw [List.take_add_one, List.take_set_of_le (Nat.le_refl i)]
        simp [hi]
      have e2 : (mem.set i w).drop (i + 1 + data.length) = mem.drop (i + (w :: data).length) := by
        rw [List.drop_set_of_lt (by omega)]
        congr 1
        simp; omega
      rw [e1, e2]
      simp only [List.length_set, List.length_cons]
      by_cases hk : i + 1 + data.length ≤ mem.length
      · rw [if_pos hk, if_pos (by omega)]
        simp
      · rw [if_neg hk, if_neg (by omega)]
    · rw [if_neg hi, if_neg (by simp; omega)]

/-- Starting a program copies exactly its data to memory from address 0; the rest of the memory stays zero. Data that does not
fit is an error. -/
theorem C24_load (cfg : Cfg) (prog : List Instr) (data : List Word) (inp : List (BitVec 8)) :
    loadData (List.replicate cfg.ramSize 0) 0 data
      = if data.length ≤ cfg.ramSize then some (Cpu.init cfg prog data inp).ram.mem else none := by
  rw [loadData_eq _ _ _ (Nat.zero_le _)]
  simp only [Nat.zero_add, List.length_replicate, List.take_zero, List.nil_append]
  by_cases h : data.length ≤ cfg.ramSize
  · rw [if_pos h, if_pos h]
    simp [Cpu.init]
  · rw [if_neg h, if_neg h]

/-! ## Examples -/

deriving instance DecidableEq for Except

/-- A reader of floating point numbers that knows one number, and its printer. -/
def exStod (w : Str) : Except Err Word := if w = "0.5".toList then .ok 0x3FE0000000000000 else .error .invalid
/-- See `exStod`. -/
def exFtos (_ : Word) : Str := "0.5".toList

/-- A program with two text and two data sections. -/
def exProgram : Str := ".text 0 MOV R0, [R1 + 4 + R2 * 8] # load\n1 FADD F1, 0.5\n.data 3 -7 \"a\\n\"\n.text JGE -2 HALT\n.data \"\"\n".toList

example : assemble exStod exProgram = .ok ⟨[.mov (.val (.reg (.gp 0))) (.mem (.regImmRegScaled (.gp 1) 4 (.gp 2) 8)),
    .fbin .fadd 1 (.fimm 0x3FE0000000000000), .jcc .jge (.imm (-2)), .halt], [3, -7, 97, 10, 0, 0]⟩ := by decide +kernel

/-- The instructions of the example meet the hypothesis of `C22_program_partial`. -/
example : ∀ i ∈ [Instr.mov (.val (.reg (.gp 0))) (.mem (.regImmRegScaled (.gp 1) 4 (.gp 2) 8)),
    .fbin .fadd 1 (.fimm 0x3FE0000000000000), .jcc .jge (.imm (-2)), .halt], ∀ o ∈ i.shown, o.Legible exStod exFtos := by
  intro i hi o ho
  have hf : Spells exStod (.float 0x3FE0000000000000) (exFtos 0x3FE0000000000000) :=
    Spells.float (c := '0') (w := ".5".toList) (by decide) (by decide) (by decide) rfl
  simp only [List.mem_cons, List.not_mem_nil, or_false] at hi
  rcases hi with rfl | rfl | rfl | rfl <;> simp [Instr.shown] at ho
  · rcases ho with rfl | rfl <;> trivial
  · rcases ho with rfl | rfl
    · trivial
    · exact hf
  · subst ho; trivial

/-- Two layouts of the same three tokens. -/
example : Layout exStod [.id "MOV".toList, .id "R0".toList, .comma] "MOV R0,".toList ∧
    Layout exStod [.id "MOV".toList, .id "R0".toList, .comma] "# c\n MOV\n\tR0 ,#".toList := by
  refine ⟨?_, ?_⟩
  · refine .cons (g := []) (w := "MOV".toList) .nil (.id (by decide) (by decide)) (rest := " R0,".toList) ?_ ?_
    · refine .cons (g := [' ']) (w := "R0".toList) (.blank (by decide) .nil) (.id (by decide) (by decide)) (rest := ",".toList) ?_ ?_
      · exact .cons (g := []) (w := ",".toList) .nil (.symbol rfl) (rest := []) (.nil (.gap .nil)) (fun c r h => by cases h)
      · intro c r h; cases h; exact fun h => absurd ((Lexer.grows_id _ _).1 h) (by decide)
    · intro c r h; cases h; exact fun h => absurd ((Lexer.grows_id _ _).1 h) (by decide)
  · refine .cons (g := "# c\n ".toList) (w := "MOV".toList) (.comment (b := " c".toList) (g := [' ']) (by decide) (.blank (by decide) .nil))
      (.id (by decide) (by decide)) (rest := "\n\tR0 ,#".toList) ?_ ?_
    · refine .cons (g := "\n\t".toList) (w := "R0".toList) (.blank (by decide) (.blank (by decide) .nil)) (.id (by decide) (by decide))
        (rest := " ,#".toList) ?_ ?_
      · exact .cons (g := [' ']) (w := ",".toList) (.blank (by decide) .nil) (.symbol rfl) (rest := "#".toList)
          (.nil (.comment (g := []) (b := []) .nil (by decide))) (fun c r _ h => h)
      · intro c r h; cases h; exact fun h => absurd ((Lexer.grows_id _ _).1 h) (by decide)
    · intro c r h; cases h; exact fun h => absurd ((Lexer.grows_id _ _).1 h) (by decide)

/-- The hypotheses of `C24_sections` are met by a program with instructions, numbers and a string. -/
example : ∃ (l : List Sect) (s : Str), l ≠ [] ∧ Layout exStod (l.map Sect.toks).flatten s ∧
    (l.map Sect.cells).flatten = [3, -7, 97, 0] ∧ (l.map Sect.instrs).flatten = [.halt] := by
  refine ⟨[.text [(none, .halt)], .data [.num 3, .neg 7, .str "a".toList]], ".text HALT .data 3 -7\"a\"".toList, by simp, ?_, by decide, rfl⟩
  refine .cons (g := []) (w := ".".toList) .nil (.symbol rfl) (rest := "text HALT .data 3 -7\"a\"".toList) ?_ (fun c r _ h => h)
  refine .cons (g := []) (w := "text".toList) .nil (.id (by decide) (by decide)) (rest := " HALT .data 3 -7\"a\"".toList) ?_
    (by intro c r h; cases h; exact fun h => absurd ((Lexer.grows_id _ _).1 h) (by decide))
  refine .cons (g := [' ']) (w := "HALT".toList) (.blank (by decide) .nil) (.id (by decide) (by decide)) (rest := " .data 3 -7\"a\"".toList) ?_
    (by intro c r h; cases h; exact fun h => absurd ((Lexer.grows_id _ _).1 h) (by decide))
  refine .cons (g := [' ']) (w := ".".toList) (.blank (by decide) .nil) (.symbol rfl) (rest := "data 3 -7\"a\"".toList) ?_ (fun c r _ h => h)
  refine .cons (g := []) (w := "data".toList) .nil (.id (by decide) (by decide)) (rest := " 3 -7\"a\"".toList) ?_
    (by intro c r h; cases h; exact fun h => absurd ((Lexer.grows_id _ _).1 h) (by decide))
  refine .cons (g := [' ']) (w := "3".toList) (.blank (by decide) .nil) (.num (w := "3".toList) (by decide) (by decide) (by decide))
    (rest := " -7\"a\"".toList) ?_ (by intro c r h; cases h; exact fun h => absurd ((Lexer.grows_num _ _).1 h) (by decide))
  refine .cons (g := [' ']) (w := "-".toList) (.blank (by decide) .nil) (.symbol rfl) (rest := "7\"a\"".toList) ?_
    (by intro c r h; cases h; exact fun h => absurd ((Lexer.grows_minus _).1 h) (by decide))
  refine .cons (g := []) (w := "7".toList) .nil (.num (w := "7".toList) (by decide) (by decide) (by decide))
    (rest := "\"a\"".toList) ?_ (by intro c r h; cases h; exact fun h => absurd ((Lexer.grows_num _ _).1 h) (by decide))
  exact .cons (g := []) (w := "\"a\"".toList) .nil (.str (w := "a".toList) (.plain (by decide) (by decide) .nil)) (rest := [])
    (.nil (.gap .nil)) (fun c r h => by cases h)

/-- Data that fits and data that does not. -/
example : loadData [0, 0, 0] 0 [7, 8] = some [7, 8, 0] ∧ loadData [0] 0 [7, 8] = none := by decide

end T86
