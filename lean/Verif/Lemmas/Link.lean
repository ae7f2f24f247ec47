import Verif.Lemmas.Frame
import Verif.Lemmas.Space
import Verif.Lemmas.AsmBack
import Verif.Model.Process

/-! One command and its answer. -/

set_option linter.unusedSimpArgs false
set_option linter.unusedVariables false

namespace T86
open Dbg Str

/-! ## Texts of instructions -/

/-- Without line breaks and quotes. -/
def Clean (s : Str) : Prop := ∀ c ∈ s, c ≠ '\n' ∧ c ≠ '"'

theorem Clean.append {s t : Str} (h : Clean s) (h' : Clean t) : Clean (s ++ t) := by
  intro c hc
  rcases List.mem_append.1 hc with hc | hc
  · exact h c hc
  · exact h' c hc

theorem Clean.cons {c : Char} {s : Str} (hc : c ≠ '\n' ∧ c ≠ '"') (h : Clean s) : Clean (c :: s) := by
  intro d hd
  rcases List.mem_cons.1 hd with rfl | hd
  · exact hc
  · exact h d hd

theorem clean_digits {s : Str} (h : ∀ c ∈ s, isDigit c = true) : Clean s := by
  intro c hc
  have := h c hc
  constructor <;> (rintro rfl; revert this; decide)

theorem clean_ofNat (n : Nat) : Clean (ofNat n) := clean_digits (ofNat_isDigit n)

theorem clean_ofInt (n : Int) : Clean (ofInt n) := by
  unfold ofInt
  split
  · exact .cons (by decide) (clean_ofNat _)
  · exact clean_ofNat _

theorem clean_lit {s : String} (h : s.toList.all (fun c => c ≠ '\n' ∧ c ≠ '"') = true) : Clean s.toList := by
  intro c hc
  have := List.all_eq_true.1 h c hc
  simpa using this

theorem clean_reg (r : Reg) : Clean r.print := by
  cases r with
  | gp i => exact .cons (by decide) (clean_ofNat i)
  | _ => exact clean_lit (by decide)

theorem clean_expr (e : RegExpr) : Clean e.print := by
  have hp : Clean " + ".toList := clean_lit (by decide)
  have ht : Clean " * ".toList := clean_lit (by decide)
  cases e with
  | reg r => exact clean_reg r
  | regImm r w => exact ((clean_reg r).append hp).append (clean_ofInt _)
  | regReg r s => exact ((clean_reg r).append hp).append (clean_reg s)
  | regScaled r w => exact ((clean_reg r).append ht).append (clean_ofInt _)
  | regImmReg r w s => exact ((((clean_reg r).append hp).append (clean_ofInt _)).append hp).append (clean_reg s)
  | regRegScaled r s w => exact ((((clean_reg r).append hp).append (clean_reg s)).append ht).append (clean_ofInt _)
  | regImmRegScaled r w s v =>
    exact ((((((clean_reg r).append hp).append (clean_ofInt _)).append hp).append (clean_reg s)).append ht).append (clean_ofInt _)

theorem clean_operand {stod : Str → Except Err Word} {ftos : Word → Str} {o : Operand} (h : o.Legible stod ftos) : Clean (o.print ftos) := by
  cases o with
  | imm w => exact clean_ofInt _
  | fimm w =>
    change Clean (ftos w)
    have h : Spells stod (.float w) (ftos w) := h
    generalize ftos w = s at h
    cases h with
    | symbol h => cases h
    | @float c w x h hw hd hx =>
      refine .cons ?_ ?_
      · constructor <;> (rintro rfl; revert h; decide)
      · intro d hd
        rcases hw d hd with h | rfl
        · constructor <;> (rintro rfl; revert h; decide)
        · decide
  | val e => exact clean_expr e
  | freg i => exact .cons (by decide) (clean_ofNat i)
  | memImm a => exact .append (.cons (by decide) (clean_ofNat _)) (clean_lit (by decide))
  | mem e => exact .append (.cons (by decide) (clean_expr _)) (clean_lit (by decide))

theorem clean_more {stod : Str → Except Err Word} {ftos : Word → Str} : ∀ {l : List Operand}, (∀ o ∈ l, o.Legible stod ftos) →
    Clean (printMore ftos l)
  | [], _ => by intro c hc; cases hc
  | o :: l, h => by
    rw [printMore]
    exact ((clean_lit (by decide)).append (clean_operand (h o (by simp)))).append (clean_more fun o' ho => h o' (by simp [ho]))

theorem clean_name (i : Instr) : Clean i.name ∧ i.name ≠ [] := by
  cases i with
  | bin op => cases op <;> exact ⟨clean_lit (by decide), List.cons_ne_nil _ _⟩
  | fbin op => cases op <;> exact ⟨clean_lit (by decide), List.cons_ne_nil _ _⟩
  | un op => cases op <;> exact ⟨clean_lit (by decide), List.cons_ne_nil _ _⟩
  | jcc c => cases c <;> exact ⟨clean_lit (by decide), List.cons_ne_nil _ _⟩
  | _ => exact ⟨clean_lit (by decide), List.cons_ne_nil _ _⟩

theorem clean_print {stod : Str → Except Err Word} {ftos : Word → Str} {i : Instr} (h : ∀ o ∈ i.shown, o.Legible stod ftos) :
    Clean (i.print ftos) ∧ i.print ftos ≠ [] := by
  obtain ⟨h1, h2⟩ := clean_name i
  unfold Instr.print
  split
  · exact ⟨h1, h2⟩
  · rename_i o l hs
    rw [hs] at h
    refine ⟨((h1.append (clean_lit (by decide))).append (clean_operand (h o (by simp)))).append
      (clean_more fun o' ho => h o' (by simp [ho])), ?_⟩
    simp [h2]

/-! ## Commands as text -/

theorem Reader.bind_bind {α β γ : Type} (x : Reader α) (f : α → Reader β) (g : β → Reader γ) :
    (x.bind f).bind g = x.bind fun a => (f a).bind g := by
  induction x with
  | pure a => rfl
  | fail e => rfl
  | next i k ih => simp only [Reader.bind, ih]
  | raw k ih => simp only [Reader.bind, ih]

theorem Reader.run_bind_imp {α β : Type} {stod : Str → Except Err Word} {b : β} (x : Reader α) {f g : α → Reader β}
    (hf : ∀ a s, (f a).run stod s = .ok b → (g a).run stod s = .ok b) {s : Str} (h : (x.bind f).run stod s = .ok b) :
    (x.bind g).run stod s = .ok b := by
  induction x generalizing s with
  | pure a => exact hf a s h
  | fail e => cases h
  | next i k ih =>
    simp only [Reader.bind, Reader.run] at h ⊢
    cases hl : Lexer.lex stod i s with
    | error e => rw [hl] at h; cases h
    | ok p => rw [hl] at h; exact ih _ h
  | raw k ih => exact ih _ h

/-- The machine's reader accepts what the debugger's reader accepts. -/
theorem poked_of_one {stod : Str → Except Err Word} {s : Str} {i : Instr} (h : Asm.oneInstruction.run stod s = .ok i) :
    Asm.pokedInstruction.run stod s = .ok i := by
  unfold Asm.pokedInstruction Pars.start
  unfold Asm.oneInstruction Pars.start at h
  simp only [Reader.run] at h ⊢
  cases hl : Lexer.lex stod false s with
  | error e => rw [hl] at h; cases h
  | ok p =>
    rw [hl] at h
    simp only at h ⊢
    change ((Reader.bind (Asm.instruction _) _).bind _).run stod _ = _ at h
    rw [Reader.bind_bind] at h
    refine Reader.run_bind_imp _ ?_ h
    rintro ⟨j, st⟩ s' hj
    change ((Reader.bind (Asm.checkEnd st) _).bind _).run stod _ = _ at hj
    unfold Asm.checkEnd at hj
    obtain ⟨t, n⟩ := st
    cases t <;> first | exact hj | cases hj

theorem no_instruction {stod : Str → Except Err Word} {i : Instr} : ¬ Asm.oneInstruction.run stod [] = .ok i := by
  intro h
  cases h

namespace Proto

theorem index_ofNat {n : Nat} (h : n < 2 ^ 63) : index (ofNat n) = .ok n := by
  have h1 := toSigned_ofInt (n : Int) (by omega) [] (by intro c t hc; cases hc)
  have h2 : ofInt (n : Int) = ofNat n := by unfold ofInt; rw [if_neg (by omega)]; rfl
  rw [h2, List.append_nil] at h1
  unfold index
  rw [h1]
  simp only
  rw [if_neg (by omega)]
  rfl

theorem index_large {n : Nat} (h : ¬ n < 2 ^ 63) : index (ofNat n) = .error .runtime := by
  have hd := ofNat_isDigit n
  obtain ⟨c, s, hc, hcd⟩ := ofNat_head n
  have ht : (ofNat n).takeWhile isDigit = ofNat n := takeWhile_all hd
  have : toSigned (ofNat n) = none := by
    unfold toSigned
    split
    · rename_i t heq
      rw [heq] at hd
      exact absurd (hd '-' (by simp)) (by decide)
    · rw [ht]
      simp only
      rw [if_neg (by simp [ofNat_ne_nil]), ofNat_digits, if_neg h]
  unfold index
  rw [this]

theorem space_not_digits {s : Str} (h : ∀ c ∈ s, isDigit c = true) : ' ' ∉ s := fun hc => absurd (h ' ' hc) (by decide)

theorem ofNat_word (n : Nat) : ofNat n ≠ [] ∧ ' ' ∉ ofNat n := ⟨ofNat_ne_nil n, space_not_digits (ofNat_isDigit n)⟩

theorem ofInt_word (n : Int) : ofInt n ≠ [] ∧ ' ' ∉ ofInt n := by
  unfold ofInt
  split
  · exact ⟨by simp, by simp [(ofNat_word _).2]⟩
  · exact ofNat_word _

/-- The words of a command with two arguments. -/
theorem split_two {c a b : Str} (hc : c ≠ [] ∧ ' ' ∉ c) (ha : a ≠ [] ∧ ' ' ∉ a) (hb : b ≠ [] ∧ ' ' ∉ b) :
    split (c ++ " ".toList ++ a ++ " ".toList ++ b) ' ' = [c, a, b] := by
  have : c ++ " ".toList ++ a ++ " ".toList ++ b = c ++ ' ' :: (a ++ ' ' :: b) := by simp
  rw [this, split_word hc.1 hc.2, split_word ha.1 ha.2, split_last hb.1 hb.2]

theorem parse_reason (h : Host) : parse h "REASON".toList = .ok .reason := rfl
theorem parse_cont (h : Host) : parse h "CONTINUE".toList = .ok .cont := rfl
theorem parse_step (h : Host) : parse h "SINGLESTEP".toList = .ok .step := rfl
theorem parse_regs (h : Host) : parse h "PEEKREGS".toList = .ok .peekRegs := rfl
theorem parse_floats (h : Host) : parse h "PEEKFLOATREGS".toList = .ok .peekFloatRegs := rfl
theorem parse_debugs (h : Host) : parse h "PEEKDEBUGREGS".toList = .ok .peekDebugRegs := rfl
theorem parse_textSize (h : Host) : parse h "TEXTSIZE".toList = .ok .textSize := rfl
theorem parse_terminate (h : Host) : parse h "TERMINATE".toList = .ok .terminate := rfl

theorem parse_peekText (h : Host) (i n : Nat) : parse h ("PEEKTEXT ".toList ++ ofNat i ++ " ".toList ++ ofNat n) =
    (do let i ← index (ofNat i); let n ← index (ofNat n); return .peekText i n) := by
  have := split_two (c := "PEEKTEXT".toList) ⟨List.cons_ne_nil _ _, by decide⟩ (ofNat_word i) (ofNat_word n)
  have e : "PEEKTEXT ".toList = "PEEKTEXT".toList ++ " ".toList := rfl
  unfold parse
  rw [e, this]
  rfl

theorem parse_peekData (h : Host) (i n : Nat) : parse h ("PEEKDATA ".toList ++ ofNat i ++ " ".toList ++ ofNat n) =
    (do let i ← index (ofNat i); let n ← index (ofNat n); return .peekData i n) := by
  have := split_two (c := "PEEKDATA".toList) ⟨List.cons_ne_nil _ _, by decide⟩ (ofNat_word i) (ofNat_word n)
  have e : "PEEKDATA ".toList = "PEEKDATA".toList ++ " ".toList := rfl
  unfold parse
  rw [e, this]
  rfl

theorem signed_word (w : Word) : toSigned (ofInt w.toInt) = some w.toInt := by
  have h1 := toSigned_ofInt w.toInt ⟨by have := BitVec.le_toInt w; omega, by have := BitVec.toInt_lt (x := w); omega⟩ []
    (by intro c t hc; cases hc)
  rwa [List.append_nil] at h1

theorem unsigned_nat {n : Nat} (h : n < 2 ^ 64) : toUnsigned (ofNat n) = some n := by
  have h1 := toUnsigned_ofNat n h [] (by intro c t hc; cases hc)
  rwa [List.append_nil] at h1

theorem parse_pokeData (h : Host) (i : Nat) (w : Word) : parse h ("POKEDATA ".toList ++ ofNat i ++ " ".toList ++ ofInt w.toInt) =
    (do let i ← index (ofNat i); return .pokeData i w) := by
  have := split_two (c := "POKEDATA".toList) ⟨List.cons_ne_nil _ _, by decide⟩ (ofNat_word i) (ofInt_word w.toInt)
  have e : "POKEDATA ".toList = "POKEDATA".toList ++ " ".toList := rfl
  unfold parse
  rw [e, this]
  change (index (ofNat i) >>= fun i => match toSigned (ofInt w.toInt) with
    | some v => (pure (.pokeData i (BitVec.ofInt 64 v)) : Except Err Cmd)
    | none => .error .runtime) = _
  rw [signed_word]
  simp only [BitVec.ofInt_toInt]

theorem parse_pokeRegs (h : Host) {name : Str} (hn : name ≠ [] ∧ ' ' ∉ name) (w : Word) :
    parse h ("POKEREGS ".toList ++ name ++ " ".toList ++ ofInt w.toInt) =
    (do let r ← register name; return .pokeReg r w) := by
  have := split_two (c := "POKEREGS".toList) ⟨List.cons_ne_nil _ _, by decide⟩ hn (ofInt_word w.toInt)
  have e : "POKEREGS ".toList = "POKEREGS".toList ++ " ".toList := rfl
  unfold parse
  rw [e, this]
  change (register name >>= fun r => (deref (toSigned (ofInt w.toInt)) >>= fun v =>
    (pure (.pokeReg r (BitVec.ofInt 64 v)) : Except Err Cmd))) = _
  rw [signed_word]
  simp only [deref, bind, Except.bind, BitVec.ofInt_toInt]

theorem parse_pokeDebugs (h : Host) (i : Nat) (hi : i < 2 ^ 64) (w : Word) :
    parse h ("POKEDEBUGREGS ".toList ++ ('D' :: ofNat i) ++ " ".toList ++ ofNat w.toNat) = .ok (.pokeDebugReg i w) := by
  have hn : 'D' :: ofNat i ≠ [] ∧ ' ' ∉ 'D' :: ofNat i := ⟨by simp, by simp [(ofNat_word i).2]⟩
  have := split_two (c := "POKEDEBUGREGS".toList) ⟨List.cons_ne_nil _ _, by decide⟩ hn (ofNat_word w.toNat)
  have e : "POKEDEBUGREGS ".toList = "POKEDEBUGREGS".toList ++ " ".toList := rfl
  unfold parse
  rw [e, this]
  change (numbered ('D' :: ofNat i) >>= fun r => (deref (toUnsigned (ofNat w.toNat)) >>= fun v =>
    (pure (.pokeDebugReg r (BitVec.ofNat 64 v)) : Except Err Cmd))) = _
  rw [unsigned_nat w.isLt]
  unfold numbered
  rw [List.drop_one, List.tail_cons, unsigned_nat hi]
  simp only [deref, bind, Except.bind, BitVec.ofNat_toNat, pure, Except.pure, BitVec.setWidth_eq]

/-- A poked instruction arrives as it was sent. -/
theorem parse_pokeText (h : Host) (i : Nat) {s : Str} {ins : Instr} (hs : Asm.oneInstruction.run h.stod s = .ok ins) (hq : '"' ∉ s) :
    parse h ("POKETEXT ".toList ++ ofNat i ++ " ".toList ++ s) = (do let i ← index (ofNat i); return .pokeText i ins) := by
  have hp : Asm.pokedInstruction.run h.stod s = .ok ins := poked_of_one hs
  have e : "POKETEXT ".toList ++ ofNat i ++ " ".toList ++ s = "POKETEXT".toList ++ ' ' :: (ofNat i ++ ' ' :: s) := by simp
  have e2 : split ("POKETEXT".toList ++ ' ' :: (ofNat i ++ ' ' :: s)) ' ' = "POKETEXT".toList :: ofNat i :: split s ' ' := by
    rw [split_word (w := "POKETEXT".toList) (List.cons_ne_nil _ _) (by decide), split_word (ofNat_word i).1 (ofNat_word i).2]
  rcases sq_words s.length s (Nat.le_refl _) with ⟨h1, h2⟩ | ⟨w, l, h1, h2, h3⟩
  · exfalso
    have : Asm.oneInstruction.run h.stod (s.dropWhile (· = ' ')) = .ok ins := by
      unfold Asm.oneInstruction
      rw [Reader.start_spaces]
      exact hs
    rw [h2] at this
    revert this
    exact no_instruction
  · unfold parse
    rw [e, e2, h1]
    have hg : glued ("POKETEXT".toList :: ofNat i :: w :: l) = .ok (w ++ " ".toList ++ join " ".toList l) := by
      unfold glued
      rw [if_neg (by simp)]
      rfl
    have hr : Asm.pokedInstruction.run h.stod (w ++ " ".toList ++ join " ".toList l) = .ok ins := by
      rw [← Reader.run_sq Asm.all_pokedInstruction h3 (fun hc => hq ((List.dropWhile_sublist _).subset hc))]
      unfold Asm.pokedInstruction
      rw [Reader.start_spaces]
      exact hp
    change (index (ofNat i) >>= fun i' => glued ("POKETEXT".toList :: ofNat i :: w :: l) >>= fun s =>
      Asm.pokedInstruction.run h.stod s >>= fun ins => (pure (.pokeText i' ins) : Except Err Cmd)) = _
    rw [hg]
    simp only [bind, Except.bind, hr]

end Proto
end T86
