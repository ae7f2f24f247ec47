import Verif.Lemmas.Lexer

/-! # What the assembler can produce -/

set_option linter.unusedSimpArgs false
set_option linter.unusedVariables false

namespace T86
open Dbg Str

namespace Pars

/-- The numbers in the parser's state are `int`s. -/
def StOk (s : PState) : Prop := s.tok.Valid ∧ s.num.natAbs < 2 ^ 31

/-- Every result has the property. -/
def Ok {α : Type} (Q : α → Prop) (x : Pars α) : Prop := ∀ s, StOk s → (x s).All fun r => Q r.1 ∧ StOk r.2

variable {α β : Type}

theorem Ok.bind {Q : α → Prop} {R : β → Prop} {x : Pars α} {f : α → Pars β} (h : Ok Q x) (hf : ∀ a, Q a → Ok R (f a)) :
    Ok R (x >>= f) := fun s hs => Reader.All.bind (h s hs) fun r hr => hf r.1 hr.1 r.2 hr.2

theorem Ok.pure {Q : α → Prop} {a : α} (h : Q a) : Ok Q (pure a) := fun _ hs => ⟨h, hs⟩

theorem Ok.throw {Q : α → Prop} {e : Err} : Ok Q (throw e) := fun _ _ => trivial

theorem Ok.mono {Q R : α → Prop} {x : Pars α} (h : Ok Q x) (hr : ∀ a, Q a → R a) : Ok R x :=
  fun s hs => (h s hs).mono fun r hq => ⟨hr r.1 hq.1, hq.2⟩

theorem advance_ok {s : PState} (hs : StOk s) {t : Tok} (ht : t.Valid) : StOk (advance s t) := by
  refine ⟨ht, ?_⟩
  unfold advance
  split
  · rename_i n
    have : n < 2 ^ 31 := ht
    simpa using this
  · exact hs.2

theorem Ok.next (i : Bool) : Ok (fun _ => True) (next i) := fun s hs t ht => ⟨trivial, advance_ok hs ht⟩

theorem Ok.tok : Ok Tok.Valid tok := fun s hs => ⟨hs.1, hs⟩

theorem Ok.lastNum : Ok (fun n : Int => n.natAbs < 2 ^ 31) lastNum := fun s hs => ⟨hs.2, hs⟩

theorem Ok.start {Q : α → Prop} {x : Pars α} (h : Ok Q x) : (start x).All Q := fun t ht =>
  Reader.All.bind (h _ (advance_ok (s := ⟨.eof, -1, []⟩) ⟨trivial, by decide⟩ ht)) fun r hr => hr.1

end Pars

namespace Asm
open Pars

/-- One token is looked at and the result has the property in each case. -/
local macro "look" : tactic => `(tactic| (refine Ok.bind Ok.tok fun t ht => ?_; split <;> try exact Ok.throw))

/-- One token is read. -/
local macro "step" : tactic => `(tactic| refine Ok.bind (Ok.next _) fun _ _ => ?_)

theorem literal_word {n : Int} (h : n.natAbs < 2 ^ 31) : Word.Literal (word n) := by
  unfold Word.Literal word
  rw [BitVec.toInt_ofInt]
  rw [Int.bmod_eq_of_le (by omega) (by omega)]
  exact h

theorem ok_atoi (s : Str) : Ok (fun n => n < 2 ^ 31) (atoi s) := by
  unfold atoi
  dsimp only
  split
  · rename_i h; exact Ok.pure h
  · exact Ok.throw

theorem ok_getRegister (s : Str) : Ok Reg.Named (getRegister s) := by
  unfold getRegister
  split
  · exact Ok.pure trivial
  · split
    · exact Ok.pure trivial
    · split
      · exact Ok.pure trivial
      · split
        · exact Ok.bind (ok_atoi _) fun n hn => Ok.pure hn
        · exact Ok.throw

theorem ok_getFloatRegister (s : Str) : Ok (fun n => n < 2 ^ 31) (getFloatRegister s) := by
  unfold getFloatRegister
  split
  · exact ok_atoi _
  · exact Ok.throw

theorem ok_register : Ok Reg.Named register := by
  unfold register
  look
  exact Ok.bind (ok_getRegister _) fun r hr => Ok.bind (Ok.next _) fun _ _ => Ok.pure hr

theorem ok_floatRegister : Ok (fun n => n < 2 ^ 31) floatRegister := by
  unfold floatRegister
  look
  exact Ok.bind (ok_getFloatRegister _) fun r hr => Ok.bind (Ok.next _) fun _ _ => Ok.pure hr

theorem ok_imm : Ok (fun n : Int => n.natAbs < 2 ^ 31) imm := by
  unfold imm
  look
  · exact Ok.bind Ok.lastNum fun n hn => Ok.bind (Ok.next _) fun _ _ => Ok.pure hn
  · step
    exact Ok.bind Ok.lastNum fun n hn => Ok.bind (Ok.next _) fun _ _ => Ok.pure (by simpa using hn)

theorem ok_floatImm : Ok (fun o => o.Named ∧ o.isFloatImmReg) floatImm := by
  unfold floatImm
  look
  step
  exact Ok.pure ⟨trivial, trivial⟩

theorem ok_floatImmOrRegister : Ok (fun o => o.Named ∧ o.isFloatImmReg) floatImmOrRegister := by
  unfold floatImmOrRegister
  look
  · exact Ok.bind ok_floatRegister fun f hf => Ok.pure ⟨hf, trivial⟩
  · exact ok_floatImm

theorem ok_regOperand : Ok (fun o => o.Named ∧ ∃ r, o = .val (.reg r)) regOperand := by
  unfold regOperand
  exact Ok.bind ok_register fun r hr => Ok.pure ⟨hr, r, rfl⟩

theorem ok_immOperand : Ok (fun o => o.Named ∧ ∃ w, o = .imm w) immOperand := by
  unfold immOperand
  exact Ok.bind ok_imm fun n hn => Ok.pure ⟨literal_word hn, _, rfl⟩

theorem ok_immOrRegister : Ok (fun o => o.Named ∧ o.isImmReg) immOrRegister := by
  unfold immOrRegister
  look
  · refine ok_regOperand.mono ?_
    rintro a ⟨h, r, rfl⟩; exact ⟨h, trivial⟩
  · refine ok_immOperand.mono ?_
    rintro a ⟨h, r, rfl⟩; exact ⟨h, trivial⟩
  · refine ok_immOperand.mono ?_
    rintro a ⟨h, r, rfl⟩; exact ⟨h, trivial⟩

theorem ok_immOrRegisterPlusImm : Ok (fun o => o.Named ∧ (o.isImmReg ∨ o.isRegPlusImm)) immOrRegisterPlusImm := by
  unfold immOrRegisterPlusImm
  look
  · refine ok_immOperand.mono ?_
    rintro a ⟨h, r, rfl⟩; exact ⟨h, Or.inl trivial⟩
  · refine ok_immOperand.mono ?_
    rintro a ⟨h, r, rfl⟩; exact ⟨h, Or.inl trivial⟩
  · refine Ok.bind ok_register fun r hr => ?_
    look
    · step
      exact Ok.bind ok_imm fun n hn => Ok.pure ⟨⟨hr, literal_word hn⟩, Or.inr trivial⟩
    · step
      exact Ok.bind ok_imm fun n hn => Ok.pure ⟨⟨hr, literal_word (by simpa using hn)⟩, Or.inr trivial⟩
    · exact Ok.pure ⟨hr, Or.inl trivial⟩

theorem ok_rbrack : Ok (fun _ => True) rbrack := by
  unfold rbrack
  look
  exact Ok.next _

theorem ok_comma : Ok (fun _ => True) comma := by
  unfold comma
  look
  exact Ok.next _

theorem ok_simpleMemory : Ok (fun o => o.Named ∧ o.isSimpleMem) simpleMemory := by
  unfold simpleMemory
  look
  step
  look
  · refine Ok.bind ok_register fun r hr => ?_
    look
    · step
      exact Ok.bind ok_imm fun n hn => Ok.bind ok_rbrack fun _ _ => Ok.pure ⟨⟨hr, literal_word hn⟩, trivial⟩
    · step
      exact Ok.bind ok_imm fun n hn => Ok.bind ok_rbrack fun _ _ =>
        Ok.pure ⟨⟨hr, literal_word (by simpa using hn)⟩, trivial⟩
    · exact Ok.bind ok_rbrack fun _ _ => Ok.pure ⟨hr, trivial⟩
  · exact Ok.bind ok_imm fun n hn => Ok.bind ok_rbrack fun _ _ => Ok.pure ⟨trivial, trivial⟩

theorem ok_immOrRegisterOrMemory : Ok (fun o => o.Named ∧ (o.isImmReg ∨ o.isSimpleMem)) immOrRegisterOrMemory := by
  unfold immOrRegisterOrMemory
  look
  · exact ok_immOrRegister.mono fun a h => ⟨h.1, Or.inl h.2⟩
  · exact ok_immOrRegister.mono fun a h => ⟨h.1, Or.inl h.2⟩
  · exact ok_immOrRegister.mono fun a h => ⟨h.1, Or.inl h.2⟩
  · exact ok_simpleMemory.mono fun a h => ⟨h.1, Or.inr h.2⟩

theorem ok_immOrRegisterPlusImmOrMemory :
    Ok (fun o => o.Named ∧ (o.isImmReg ∨ o.isRegPlusImm ∨ o.isSimpleMem)) immOrRegisterPlusImmOrMemory := by
  unfold immOrRegisterPlusImmOrMemory
  look
  · exact ok_immOrRegisterPlusImm.mono fun a h => ⟨h.1, h.2.elim Or.inl fun h => Or.inr (Or.inl h)⟩
  · exact ok_immOrRegisterPlusImm.mono fun a h => ⟨h.1, h.2.elim Or.inl fun h => Or.inr (Or.inl h)⟩
  · exact ok_immOrRegisterPlusImm.mono fun a h => ⟨h.1, h.2.elim Or.inl fun h => Or.inr (Or.inl h)⟩
  · exact ok_simpleMemory.mono fun a h => ⟨h.1, Or.inr (Or.inr h.2)⟩

theorem ok_innerReg (s : Str) : Ok Reg.Named (innerReg s) := by
  unfold innerReg
  exact Ok.bind (ok_getRegister _) fun r hr => Ok.bind (Ok.next _) fun _ _ => Ok.pure hr

/-- A memory operand that can be written. -/
def MemOk (o : Operand) : Prop := o.Named ∧ o.isMem

theorem ok_memoryOffset {r : Reg} {n : Int} (hr : r.Named) (hn : n.natAbs < 2 ^ 31) : Ok MemOk (memoryOffset r n) := by
  unfold memoryOffset
  look
  · step
    look
    refine Ok.bind (ok_innerReg _) fun r2 hr2 => ?_
    look
    · step
      exact Ok.bind ok_imm fun m hm => Ok.pure ⟨⟨hr, literal_word hn, hr2, literal_word hm⟩, trivial⟩
    · exact Ok.pure ⟨⟨hr, literal_word hn, hr2⟩, trivial⟩
  · exact Ok.pure ⟨⟨hr, literal_word hn⟩, trivial⟩

theorem ok_memoryReg {r r2 : Reg} (hr : r.Named) (hr2 : r2.Named) : Ok (fun o => ∀ x, o = some x → MemOk x) (memoryReg r r2) := by
  unfold memoryReg
  look
  · step
    refine Ok.bind Ok.tok fun t ht => ?_
    split
    · exact Ok.bind ok_imm fun m hm => Ok.pure (by rintro x h; cases h; exact ⟨⟨hr, hr2, literal_word hm⟩, trivial⟩)
    · exact Ok.pure (by simp)
  · exact Ok.pure (by rintro x h; cases h; exact ⟨⟨hr, hr2⟩, trivial⟩)

theorem ok_memoryPlus {r : Reg} (hr : r.Named) (b : Bool) : Ok (fun o => ∀ x, o = some x → MemOk x) (memoryPlus r b) := by
  unfold memoryPlus
  step
  have h : Ok (fun o => ∀ x, o = some x → MemOk x) (do
      let n ← imm
      let o ← memoryOffset r (if b then -n else n)
      return some o) := Ok.bind ok_imm fun n hn => Ok.bind (ok_memoryOffset hr (by cases b <;> simpa using hn)) fun o ho =>
        Ok.pure (by rintro x h; cases h; exact ho)
  look
  · exact h
  · exact h
  · exact Ok.bind (ok_innerReg _) fun r2 hr2 => ok_memoryReg hr hr2

theorem ok_memoryInner : Ok (fun o => ∀ x, o = some x → MemOk x) memoryInner := by
  unfold memoryInner
  look
  · exact Ok.bind Ok.lastNum fun n hn => Ok.bind (Ok.next _) fun _ _ =>
      Ok.pure (by rintro x h; cases h; exact ⟨trivial, trivial⟩)
  · exact Ok.bind Ok.lastNum fun n hn => Ok.bind (Ok.next _) fun _ _ =>
      Ok.pure (by rintro x h; cases h; exact ⟨trivial, trivial⟩)
  · refine Ok.bind (ok_innerReg _) fun r hr => ?_
    look
    · exact ok_memoryPlus hr _
    · exact ok_memoryPlus hr _
    · step
      refine Ok.bind Ok.tok fun t ht => ?_
      split
      · exact Ok.bind ok_imm fun m hm => Ok.pure (by rintro x h; cases h; exact ⟨⟨hr, literal_word hm⟩, trivial⟩)
      · exact Ok.throw
    · exact Ok.pure (by rintro x h; cases h; exact ⟨hr, trivial⟩)

theorem ok_memory : Ok MemOk memory := by
  unfold memory
  look
  step
  refine Ok.bind ok_memoryInner fun o ho => Ok.bind ok_rbrack fun _ _ => ?_
  cases o with
  | none => exact Ok.throw
  | some x => exact Ok.pure (ho x rfl)

/-- The operands `Operand` gives. -/
def AnyOk (o : Operand) : Prop := o.Named ∧ (o.isImmReg ∨ o.isMem ∨ o.isFloatImmReg)

theorem ok_operand : Ok AnyOk operand := by
  unfold operand
  have h1 : Ok AnyOk immOperand := ok_immOperand.mono (by rintro a ⟨h, r, rfl⟩; exact ⟨h, Or.inl trivial⟩)
  look
  · exact ok_memory.mono fun a h => ⟨h.1, Or.inr (Or.inl h.2)⟩
  · split
    · exact Ok.bind ok_floatRegister fun f hf => Ok.pure ⟨hf, Or.inr (Or.inr trivial)⟩
    · exact ok_regOperand.mono (by rintro a ⟨h, r, rfl⟩; exact ⟨h, Or.inl trivial⟩)
  · exact h1
  · exact h1
  · exact ok_floatImm.mono fun a h => ⟨h.1, Or.inr (Or.inr h.2)⟩

theorem movOk_shape {d v : Operand} (hd : AnyOk d) (hv : AnyOk v) (h : movOk d v = true) : MovShape d v := by
  obtain ⟨_, hd⟩ := hd
  obtain ⟨_, hv⟩ := hv
  cases d with
  | imm w => simp [movOk] at h
  | fimm w => cases v with
    | val e => cases e <;> simp_all [movOk, MovShape, Operand.isImmReg]
    | _ => simp_all [movOk, MovShape, Operand.isImmReg]
  | val e =>
    cases e <;> first
    | (simp [Operand.isImmReg, Operand.isMem, Operand.isFloatImmReg] at hd; done)
    | (cases v with
       | val e => cases e <;> simp_all [movOk, MovShape, Operand.isImmReg, Operand.isMem, Operand.isFloatImmReg]
       | _ => simp_all [movOk, MovShape, Operand.isImmReg, Operand.isMem, Operand.isFloatImmReg])
  | freg f => cases v with
    | val e => cases e <;> simp_all [movOk, MovShape, Operand.isImmReg, Operand.isFloatImmReg]
    | mem e => cases e <;> simp_all [movOk, MovShape, Operand.isImmReg, Operand.isFloatImmReg]
    | _ => simp_all [movOk, MovShape, Operand.isImmReg, Operand.isFloatImmReg]
  | memImm a => cases v with
    | val e => cases e <;> simp_all [movOk, MovShape, Operand.isImmReg]
    | _ => simp_all [movOk, MovShape, Operand.isImmReg]
  | mem e => cases v with
    | val e => cases e <;> simp_all [movOk, MovShape, Operand.isImmReg]
    | _ => simp_all [movOk, MovShape, Operand.isImmReg]

theorem ok_mov : Ok Instr.Writable mov := by
  unfold mov
  refine Ok.bind ok_operand fun d hd => Ok.bind ok_comma fun _ _ => Ok.bind ok_operand fun v hv => ?_
  split
  · rename_i h
    exact Ok.pure ⟨movOk_shape hd hv h, by simp [Instr.shown, hd.1, hv.1]⟩
  · exact Ok.throw

theorem ok_lea : Ok Instr.Writable lea := by
  unfold lea
  refine Ok.bind ok_register fun r hr => Ok.bind ok_comma fun _ _ => Ok.bind ok_memory fun m hm => ?_
  split
  · rename_i h
    refine Ok.pure ⟨?_, ?_⟩
    · obtain ⟨_, hm⟩ := hm
      cases m with
      | mem e => cases e <;> simp_all [leaOk, Instr.Shape]
      | _ => simp_all [leaOk, Operand.isMem]
    · simp only [Instr.shown, List.mem_cons, List.not_mem_nil, or_false]
      rintro o (rfl | rfl)
      · exact hr
      · exact hm.1
  · exact Ok.throw

theorem ok_binary {α β : Type} {P : α → Prop} {Q : β → Prop} {p : Pars α} {q : Pars β} {f : α → β → Instr} (hp : Ok P p)
    (hq : Ok Q q) (h : ∀ a b, P a → Q b → (f a b).Writable) : Ok Instr.Writable (binary p q f) :=
  Ok.bind hp fun a ha => Ok.bind ok_comma fun _ _ => Ok.bind hq fun b hb => Ok.pure (h a b ha hb)

theorem ok_unary {α : Type} {P : α → Prop} {p : Pars α} {f : α → Instr} (hp : Ok P p) (h : ∀ a, P a → (f a).Writable) :
    Ok Instr.Writable (unary p f) := Ok.bind hp fun a ha => Ok.pure (h a ha)

theorem binOp_ne_mod {n : Str} {op : BinOp} (h : binOp n = some op) : op ≠ .mod := by
  rintro rfl
  unfold binOp at h
  repeat' split at h
  all_goals cases h

theorem named2 {a b : Operand} (ha : a.Named) (hb : b.Named) : ∀ o ∈ [a, b], o.Named := by
  simp [ha, hb]

theorem ok_ite {α : Type} {Q : α → Prop} {c : Prop} [Decidable c] {x y : Pars α} (h1 : Ok Q x) (h2 : Ok Q y) :
    Ok Q (if c then x else y) := by
  by_cases h : c
  · rw [if_pos h]; exact h1
  · rw [if_neg h]; exact h2

theorem ok_body (n : Str) : Ok Instr.Writable (body n) := by
  unfold body
  refine ok_ite ok_mov (ok_ite ok_lea ?_)
  cases hop : binOp n with
  | some op =>
    exact ok_binary ok_register ok_immOrRegisterPlusImmOrMemory fun a b ha hb =>
      ⟨⟨binOp_ne_mod hop, rfl, rfl, hb.2⟩, named2 (a := _) ha (hb.1)⟩
  | none =>
  refine ok_ite (ok_binary ok_register ok_immOrRegisterOrMemory fun a b ha hb => ⟨hb.2, named2 (a := _) ha (hb.1)⟩) ?_
  refine ok_ite (ok_binary ok_register ok_immOrRegister fun a b ha hb => ⟨hb.2, named2 (a := _) ha (hb.1)⟩) ?_
  cases hop : fbinOp n with
  | some op =>
    exact ok_binary ok_floatRegister ok_floatImmOrRegister fun a b ha hb => ⟨hb.2, named2 (a := _) ha (hb.1)⟩
  | none =>
  refine ok_ite (ok_binary ok_floatRegister ok_floatImmOrRegister fun a b ha hb => ⟨hb.2, named2 (a := _) ha (hb.1)⟩) ?_
  refine ok_ite (ok_binary ok_floatRegister ok_register fun a b ha hb => ⟨trivial, named2 (a := _) ha (hb)⟩) ?_
  refine ok_ite (ok_binary ok_register ok_floatRegister fun a b ha hb => ⟨trivial, named2 (a := _) ha (hb)⟩) ?_
  cases hop : unOp n with
  | some op => exact ok_unary ok_register fun a ha => ⟨trivial, by simp [Instr.shown]; exact ha⟩
  | none =>
  refine ok_ite (ok_unary ok_immOrRegister fun a ha => ⟨ha.2, by simp [Instr.shown, ha.1]⟩) ?_
  cases hop : cond n with
  | some op => exact ok_unary ok_immOrRegisterOrMemory fun a ha => ⟨ha.2, by simp [Instr.shown, ha.1]⟩
  | none =>
  refine ok_ite (ok_unary ok_immOrRegister fun a ha => ⟨ha.2, by simp [Instr.shown, ha.1]⟩) ?_
  refine ok_ite (ok_unary ok_immOrRegister fun a ha => ⟨ha.2, by simp [Instr.shown, ha.1]⟩) ?_
  refine ok_ite (ok_unary ok_floatImmOrRegister fun a ha => ⟨ha.2, by simp [Instr.shown, ha.1]⟩) ?_
  refine ok_ite (ok_unary ok_register fun a ha => ⟨trivial, by simp [Instr.shown]; exact ha⟩) ?_
  refine ok_ite (ok_unary ok_floatRegister fun a ha => ⟨trivial, by simp [Instr.shown]; exact ha⟩) ?_
  refine ok_ite (ok_unary ok_register fun a ha => ⟨trivial, by simp [Instr.shown]; exact ha⟩) ?_
  refine ok_ite (ok_unary ok_register fun a ha => ⟨trivial, by simp [Instr.shown]; exact ha⟩) ?_
  refine ok_ite (ok_unary ok_register fun a ha => ⟨trivial, by simp [Instr.shown]; exact ha⟩) ?_
  iterate 5
    refine ok_ite (Ok.pure ⟨trivial, by simp [Instr.shown]⟩) ?_
  exact Ok.throw

theorem ok_named : Ok Instr.Writable named := by
  unfold named
  look
  step
  exact ok_body _

theorem ok_instruction : Ok Instr.Writable instruction := by
  unfold instruction
  refine Ok.bind Ok.tok fun t ht => ?_
  split
  · step
    exact ok_named
  · exact ok_named

theorem ok_checkEnd : Ok (fun _ => True) checkEnd := by
  unfold checkEnd
  look
  exact Ok.pure trivial

theorem all_oneInstruction : oneInstruction.All Instr.Writable :=
  Ok.start (Ok.bind ok_instruction fun i hi => Ok.bind ok_checkEnd fun _ _ => Ok.pure hi)

theorem all_pokedInstruction : pokedInstruction.All Instr.Writable := Ok.start ok_instruction

/-- Programs all whose instructions can be written. -/
def UnitOk (u : Unit') : Prop := ∀ i ∈ u.program, i.Writable

theorem ok_text : ∀ (fuel : Nat) (u : Unit'), UnitOk u → Ok UnitOk (text fuel u)
  | 0, u, _ => Ok.throw
  | fuel + 1, u, hu => by
    unfold text
    refine Ok.bind Ok.tok fun t ht => ?_
    split
    · refine Ok.bind ok_instruction fun i hi => ok_text fuel _ ?_
      intro j hj
      simp only [List.mem_append, List.mem_singleton] at hj
      rcases hj with hj | rfl
      · exact hu j hj
      · exact hi
    · exact Ok.pure hu

theorem ok_data : ∀ (fuel : Nat) (u : Unit'), UnitOk u → Ok UnitOk (data fuel u)
  | 0, u, _ => Ok.throw
  | fuel + 1, u, hu => by
    unfold data
    look
    · step
      exact ok_data fuel _ hu
    · exact Ok.bind ok_imm fun n hn => ok_data fuel _ hu
    · exact Ok.bind ok_imm fun n hn => ok_data fuel _ hu
    · exact Ok.pure hu

theorem ok_skipSection : ∀ (fuel : Nat), Ok (fun _ => True) (skipSection fuel)
  | 0 => Ok.throw
  | fuel + 1 => by
    unfold skipSection
    look
    · exact Ok.pure trivial
    · exact Ok.pure trivial
    · step
      exact ok_skipSection fuel

theorem ok_section (fuel : Nat) (u : Unit') (hu : UnitOk u) : Ok UnitOk (section' fuel u) := by
  unfold section'
  look
  step
  split
  · exact ok_text _ _ hu
  · split
    · exact ok_data _ _ hu
    · exact Ok.bind (ok_skipSection _) fun _ _ => Ok.pure hu

theorem ok_sections (n : Nat) : ∀ (fuel : Nat) (u : Unit'), UnitOk u → Ok UnitOk (sections n fuel u)
  | 0, u, _ => Ok.throw
  | fuel + 1, u, hu => by
    unfold sections
    look
    · step
      refine Ok.bind Ok.tok fun t ht => ?_
      split
      · exact Ok.pure hu
      · exact Ok.bind (ok_section _ _ hu) fun u hu => ok_sections n fuel u hu
    · exact Ok.bind ok_checkEnd fun _ _ => Ok.pure hu

theorem ok_parse (fuel : Nat) : Ok UnitOk (parse fuel) := by
  unfold parse
  look
  exact ok_sections _ _ _ (by intro i hi; simp at hi)

theorem all_parse (fuel : Nat) : (start (parse fuel)).All UnitOk := Ok.start (ok_parse fuel)

end Asm
end T86
