import Verif.Lemmas.AsmBack

/-! # The assembler terminates -/

set_option linter.unusedSimpArgs false
set_option linter.unusedVariables false

namespace T86
open Dbg Str

namespace Lexer

/-- Reading a token other than the end makes the text shorter. -/
theorem skip_length (i b : Bool) (s : Str) : (skip i b s).length ≤ s.length := by
  induction s generalizing b with
  | nil => cases b <;> simp [skip]
  | cons c s ih =>
    cases b with
    | true =>
      rw [skip]
      split <;> exact Nat.le_succ_of_le (ih _)
    | false =>
      rw [skip]
      split
      · exact Nat.le_succ_of_le (ih _)
      · split
        · exact Nat.le_succ_of_le (ih _)
        · split
          · exact Nat.le_succ_of_le (ih _)
          · exact Nat.le_refl _

theorem stringTail_length : ∀ (n : Nat) (s acc : Str) (t : Tok) (r : Str), s.length = n → stringTail acc s = .ok (t, r) →
    r.length < s.length ∧ t ≠ .eof := by
  intro n
  induction n using Nat.strongRecOn with
  | _ n ih =>
    intro s acc t r hn h
    rw [stringTail.eq_def] at h
    split at h
    · cases h
    · cases h; simp
    · rename_i q
      split at h
      · cases h
      · rename_i c q
        split at h
        · have := ih q.length (by simp at hn; omega) q _ t r rfl h
          exact ⟨by simp; omega, this.2⟩
        · cases h
    · rename_i c q _ _
      have := ih q.length (by simp at hn; omega) q _ t r rfl h
      exact ⟨by simp; omega, this.2⟩

theorem stringTail_error : ∀ (n : Nat) (s acc : Str) (e : Err), s.length = n → stringTail acc s = .error e → e = .parser := by
  intro n
  induction n using Nat.strongRecOn with
  | _ n ih =>
    intro s acc e hn h
    rw [stringTail.eq_def] at h
    split at h
    · cases h; rfl
    · cases h
    · split at h
      · cases h; rfl
      · rename_i c q
        split at h
        · exact ih q.length (by simp at hn; omega) q _ e rfl h
        · cases h; rfl
    · rename_i c q _ _
      exact ih q.length (by simp at hn; omega) q _ e rfl h

theorem dropWhile_length (p : Char → Bool) (s : Str) : (s.dropWhile p).length ≤ s.length := by
  induction s with
  | nil => simp
  | cons c s ih =>
    by_cases h : p c = true
    · rw [List.dropWhile_cons_of_pos h]; simp; omega
    · rw [List.dropWhile_cons_of_neg h]; simp

theorem lex_length {stod : Str → Except Err Word} {i : Bool} {s : Str} {t : Tok} {r : Str} (h : lex stod i s = .ok (t, r)) :
    (t = .eof ∧ r = []) ∨ r.length < s.length := by
  unfold lex at h
  have hl := skip_length i false s
  cases hs : skip i false s with
  | nil => rw [hs] at h; cases h; exact Or.inl ⟨rfl, rfl⟩
  | cons c q =>
    rw [hs] at h hl
    simp only [List.length_cons] at hl
    right
    simp only at h
    cases h1 : single c with
    | some t' => simp only [h1] at h; cases h; omega
    | none =>
      simp only [h1] at h
      cases h2 : double c with
      | some p =>
        obtain ⟨t', l⟩ := p
        simp only [h2] at h
        cases q with
        | nil => cases h; simp at hl ⊢; omega
        | cons d q =>
          simp only [List.length_cons] at hl
          simp only at h
          cases hf : l.find? (·.1 = d) with
          | some e => rw [hf] at h; cases h; omega
          | none => rw [hf] at h; cases h; simp; omega
      | none =>
        simp only [h2] at h
        split at h
        · have := (stringTail_length _ _ _ _ _ rfl h).1
          omega
        · split at h
          · cases hn : number stod (c :: q.takeWhile isNumChar) with
            | error e => rw [hn] at h; cases h
            | ok x =>
              rw [hn] at h
              cases h
              have := dropWhile_length isNumChar q
              omega
          · split at h
            · cases h
              have := dropWhile_length isIdChar q
              omega
            · cases h

theorem lex_error {stod : Str → Except Err Word} (hst : ∀ w, stod w ≠ .error .diverge) {i : Bool} {s : Str} :
    lex stod i s ≠ .error .diverge := by
  intro h
  unfold lex at h
  cases hs : skip i false s with
  | nil => rw [hs] at h; cases h
  | cons c q =>
    rw [hs] at h
    simp only at h
    cases h1 : single c with
    | some t' => simp only [h1] at h; cases h
    | none =>
      simp only [h1] at h
      cases h2 : double c with
      | some p =>
        obtain ⟨t', l⟩ := p
        simp only [h2] at h
        cases q with
        | nil => cases h
        | cons d q =>
          simp only at h
          cases hf : l.find? (·.1 = d) with
          | some e => rw [hf] at h; cases h
          | none => rw [hf] at h; cases h
      | none =>
        simp only [h2] at h
        split at h
        · have := stringTail_error _ _ _ _ rfl h
          cases this
        · split at h
          · unfold number at h
            split at h
            · cases hx : stod (c :: q.takeWhile isNumChar) with
              | error e => rw [hx] at h; cases h; exact hst _ hx
              | ok x => rw [hx] at h; cases h
            · split at h <;> cases h
          · split at h <;> cases h

end Lexer

/-! ## Readers that stop -/

namespace Reader
variable {α β : Type}

/-- With at most `n` more tokens before the end, the reader does not run out of its bounds, and its results have the
property. -/
def Live (Q : Nat → α → Prop) : Nat → Reader α → Prop
  | n, .pure a => Q n a
  | _, .fail e => e ≠ .diverge
  | n, .next _ k => Live Q n (k .eof) ∧ ∀ m, n = m + 1 → ∀ t, t ≠ .eof → Live Q m (k t)
  | _, .raw _ => False

theorem Live.bind {Q : Nat → α → Prop} {R : Nat → β → Prop} {x : Reader α} {f : α → Reader β} {n : Nat} (h : x.Live Q n)
    (hf : ∀ m a, Q m a → (f a).Live R m) : (x.bind f).Live R n := by
  induction x generalizing n with
  | pure a => exact hf n a h
  | fail e => exact h
  | next i k ih => exact ⟨ih _ h.1, fun m hm t ht => ih t (h.2 m hm t ht)⟩
  | raw k ih => exact h.elim

theorem Live.mono {Q R : Nat → α → Prop} {x : Reader α} {n : Nat} (h : x.Live Q n) (hq : ∀ m a, Q m a → R m a) :
    x.Live R n := by
  induction x generalizing n with
  | pure a => exact hq n a h
  | fail e => exact h
  | next i k ih => exact ⟨ih _ h.1, fun m hm t ht => ih t (h.2 m hm t ht)⟩
  | raw k ih => exact h.elim

theorem Live.run {Q : Nat → α → Prop} {stod : Str → Except Err Word} (hst : ∀ w, stod w ≠ .error .diverge) {x : Reader α}
    {n : Nat} (h : x.Live Q n) {s : Str} (hs : s.length ≤ n) : x.run stod s ≠ .error .diverge := by
  induction x generalizing n s with
  | pure a => intro h; cases h
  | fail e => intro he; cases he; exact h rfl
  | next i k ih =>
    rw [Reader.run]
    cases hl : Lexer.lex stod i s with
    | error e => intro he; cases he; exact Lexer.lex_error hst hl
    | ok p =>
      obtain ⟨t, r⟩ := p
      rcases Lexer.lex_length hl with ⟨rfl, rfl⟩ | hlt
      · exact ih _ h.1 (by simp)
      · by_cases ht : t = .eof
        · subst ht
          exact ih _ h.1 (by omega)
        · obtain ⟨m, rfl⟩ : ∃ m, n = m + 1 := ⟨n - 1, by omega⟩
          exact ih t (h.2 m rfl t ht) (by omega)
  | raw k ih => exact h.elim

/-- The second reader is the first, with more patience. -/
inductive Le : Reader α → Reader α → Prop
  | fail (y : Reader α) : Le (.fail .diverge) y
  | refl (x : Reader α) : Le x x
  | next {i : Bool} {k k' : Tok → Reader α} (h : ∀ t, Le (k t) (k' t)) : Le (.next i k) (.next i k')
  | raw {k k' : Str → Reader α} (h : ∀ t, Le (k t) (k' t)) : Le (.raw k) (.raw k')

theorem Le.bindRight (x : Reader α) {f g : α → Reader β} (hf : ∀ a, Le (f a) (g a)) : Le (x.bind f) (x.bind g) := by
  induction x with
  | pure a => exact hf a
  | fail e => exact .refl _
  | next i k ih => exact .next ih
  | raw k ih => exact .raw ih

theorem Le.bind {x y : Reader α} {f g : α → Reader β} (h : Le x y) (hf : ∀ a, Le (f a) (g a)) : Le (x.bind f) (y.bind g) := by
  induction h with
  | fail y => exact .fail _
  | refl x => exact Le.bindRight x hf
  | next h ih => exact .next ih
  | raw h ih => exact .raw ih

theorem Le.run {stod : Str → Except Err Word} {x y : Reader α} (h : Le x y) {s : Str} (hd : x.run stod s ≠ .error .diverge) :
    y.run stod s = x.run stod s := by
  induction h generalizing s with
  | fail y => exact absurd rfl hd
  | refl x => rfl
  | @next i k k' h ih =>
    rw [Reader.run, Reader.run]
    rw [Reader.run] at hd
    cases hl : Lexer.lex stod i s with
    | error e => rfl
    | ok p =>
      rw [hl] at hd
      exact ih p.1 hd
  | @raw k k' h ih =>
    rw [Reader.run] at hd
    rw [Reader.run, Reader.run]
    exact ih _ hd

end Reader

namespace Pars
variable {α β : Type}

/-- How much there is left to read, counting the current token. -/
def weight (n : Nat) (s : PState) : Nat := 2 * n + if s.tok = .eof then 0 else 1

/-- Does not go back. -/
def Keeps (x : Pars α) : Prop := ∀ n s, (x s).Live (fun n' r => weight n' r.2 ≤ weight n s) n

/-- Reads at least one token. -/
def Moves (x : Pars α) : Prop := ∀ n s, (x s).Live (fun n' r => weight n' r.2 ≤ 2 * n) n

theorem Moves.keeps {x : Pars α} (h : Moves x) : Keeps x := fun n s =>
  (h n s).mono fun m r hr => Nat.le_trans hr (by unfold weight; omega)

theorem Keeps.bind {x : Pars α} {f : α → Pars β} (h : Keeps x) (hf : ∀ a, Keeps (f a)) : Keeps (x >>= f) := fun n s =>
  (h n s).bind fun m r hr => (hf r.1 m r.2).mono fun m' r' hr' => Nat.le_trans hr' hr

theorem Moves.bind {x : Pars α} {f : α → Pars β} (h : Moves x) (hf : ∀ a, Keeps (f a)) : Moves (x >>= f) := fun n s =>
  (h n s).bind fun m r hr => (hf r.1 m r.2).mono fun m' r' hr' => Nat.le_trans hr' hr

theorem Moves.tok {f : Tok → Pars β} (hf : ∀ t, Moves (f t)) : Moves (Pars.tok >>= f) := fun n s => hf s.tok n s

theorem Moves.lastNum {f : Int → Pars β} (hf : ∀ t, Moves (f t)) : Moves (Pars.lastNum >>= f) := fun n s => hf s.num n s

theorem Keeps.pure (a : α) : Keeps (pure a) := fun n s => Nat.le_refl _

theorem Moves.throw {e : Err} (h : e ≠ .diverge) : Moves (throw e : Pars α) := fun n s => h

theorem Keeps.throw {e : Err} (h : e ≠ .diverge) : Keeps (throw e : Pars α) := fun n s => h

theorem Keeps.tok : Keeps tok := fun n s => Nat.le_refl _

theorem Keeps.lastNum : Keeps lastNum := fun n s => Nat.le_refl _

theorem Moves.next (i : Bool) : Moves (next i) := by
  intro n s
  refine ⟨?_, ?_⟩
  · show weight n (advance s .eof) ≤ 2 * n
    simp [weight, advance]
  · rintro m rfl t ht
    show weight m (advance s t) ≤ 2 * (m + 1)
    unfold weight
    split <;> omega

end Pars

namespace Asm
open Pars

/-- One token is looked at. -/
local macro "look" : tactic => `(tactic| (refine Keeps.bind Keeps.tok fun t => ?_; split <;> try exact Keeps.throw (by decide)))

/-- One token is read. -/
local macro "step" : tactic => `(tactic| refine Keeps.bind (Moves.keeps (Moves.next _)) fun _ => ?_)

/-- Nothing more happens. -/
local macro "done'" : tactic => `(tactic| exact Keeps.pure _)

theorem keeps_ite {α : Type} {c : Prop} [Decidable c] {x y : Pars α} (h1 : Keeps x) (h2 : Keeps y) :
    Keeps (if c then x else y) := by
  by_cases h : c
  · rw [if_pos h]; exact h1
  · rw [if_neg h]; exact h2

theorem keeps_atoi (s : Str) : Keeps (atoi s) := by
  unfold atoi
  exact keeps_ite (Keeps.pure _) (Keeps.throw (by decide))

theorem keeps_getRegister (s : Str) : Keeps (getRegister s) := by
  unfold getRegister
  refine keeps_ite (Keeps.pure _) (keeps_ite (Keeps.pure _) (keeps_ite (Keeps.pure _) ?_))
  split
  · exact Keeps.bind (keeps_atoi _) fun n => Keeps.pure _
  · exact Keeps.throw (by decide)

theorem keeps_getFloatRegister (s : Str) : Keeps (getFloatRegister s) := by
  unfold getFloatRegister
  split
  · exact keeps_atoi _
  · exact Keeps.throw (by decide)

theorem keeps_register : Keeps register := by
  unfold register
  look
  refine Keeps.bind (keeps_getRegister _) fun r => ?_
  step
  done'

theorem keeps_floatRegister : Keeps floatRegister := by
  unfold floatRegister
  look
  refine Keeps.bind (keeps_getFloatRegister _) fun r => ?_
  step
  done'

theorem moves_imm : Moves imm := by
  unfold imm
  refine Moves.tok fun t => ?_
  split
  · exact Moves.lastNum fun n => Moves.bind (Moves.next _) fun _ => Keeps.pure _
  · refine Moves.bind (Moves.next _) fun _ => ?_
    refine Keeps.bind Keeps.lastNum fun n => ?_
    step
    done'
  · exact Moves.throw (by decide)

theorem keeps_imm : Keeps imm := moves_imm.keeps

theorem keeps_floatImm : Keeps floatImm := by
  unfold floatImm
  look
  step
  done'

theorem keeps_floatImmOrRegister : Keeps floatImmOrRegister := by
  unfold floatImmOrRegister
  look
  · exact Keeps.bind keeps_floatRegister fun f => Keeps.pure _
  · exact keeps_floatImm

theorem keeps_regOperand : Keeps regOperand := by
  unfold regOperand
  exact Keeps.bind keeps_register fun r => Keeps.pure _

theorem keeps_immOperand : Keeps immOperand := by
  unfold immOperand
  exact Keeps.bind keeps_imm fun r => Keeps.pure _

theorem keeps_immOrRegister : Keeps immOrRegister := by
  unfold immOrRegister
  look
  · exact keeps_regOperand
  · exact keeps_immOperand
  · exact keeps_immOperand

theorem keeps_immOrRegisterPlusImm : Keeps immOrRegisterPlusImm := by
  unfold immOrRegisterPlusImm
  look
  · exact keeps_immOperand
  · exact keeps_immOperand
  · refine Keeps.bind keeps_register fun r => ?_
    look
    · step
      exact Keeps.bind keeps_imm fun n => Keeps.pure _
    · step
      exact Keeps.bind keeps_imm fun n => Keeps.pure _
    · done'

theorem keeps_rbrack : Keeps rbrack := by
  unfold rbrack
  look
  exact (Moves.next _).keeps

theorem keeps_comma : Keeps comma := by
  unfold comma
  look
  exact (Moves.next _).keeps

theorem keeps_simpleMemory : Keeps simpleMemory := by
  unfold simpleMemory
  look
  step
  look
  · refine Keeps.bind keeps_register fun r => ?_
    look
    · step
      exact Keeps.bind keeps_imm fun n => Keeps.bind keeps_rbrack fun _ => Keeps.pure _
    · step
      exact Keeps.bind keeps_imm fun n => Keeps.bind keeps_rbrack fun _ => Keeps.pure _
    · exact Keeps.bind keeps_rbrack fun _ => Keeps.pure _
  · exact Keeps.bind keeps_imm fun n => Keeps.bind keeps_rbrack fun _ => Keeps.pure _

theorem keeps_immOrRegisterOrMemory : Keeps immOrRegisterOrMemory := by
  unfold immOrRegisterOrMemory
  look
  · exact keeps_immOrRegister
  · exact keeps_immOrRegister
  · exact keeps_immOrRegister
  · exact keeps_simpleMemory

theorem keeps_immOrRegisterPlusImmOrMemory : Keeps immOrRegisterPlusImmOrMemory := by
  unfold immOrRegisterPlusImmOrMemory
  look
  · exact keeps_immOrRegisterPlusImm
  · exact keeps_immOrRegisterPlusImm
  · exact keeps_immOrRegisterPlusImm
  · exact keeps_simpleMemory

theorem keeps_innerReg (s : Str) : Keeps (innerReg s) := by
  unfold innerReg
  refine Keeps.bind (keeps_getRegister _) fun r => ?_
  step
  done'

theorem keeps_memoryOffset (r : Reg) (n : Int) : Keeps (memoryOffset r n) := by
  unfold memoryOffset
  look
  · step
    look
    refine Keeps.bind (keeps_innerReg _) fun r2 => ?_
    look
    · step
      exact Keeps.bind keeps_imm fun n => Keeps.pure _
    · done'
  · done'

theorem keeps_memoryReg (r r2 : Reg) : Keeps (memoryReg r r2) := by
  unfold memoryReg
  look
  · step
    refine Keeps.bind Keeps.tok fun t => ?_
    exact keeps_ite (Keeps.bind keeps_imm fun n => Keeps.pure _) (Keeps.pure _)
  · done'

theorem keeps_memoryPlus (r : Reg) (b : Bool) : Keeps (memoryPlus r b) := by
  unfold memoryPlus
  step
  look
  · exact Keeps.bind keeps_imm fun n => Keeps.bind (keeps_memoryOffset _ _) fun _ => Keeps.pure _
  · exact Keeps.bind keeps_imm fun n => Keeps.bind (keeps_memoryOffset _ _) fun _ => Keeps.pure _
  · exact Keeps.bind (keeps_innerReg _) fun r2 => keeps_memoryReg _ _

theorem keeps_memoryInner : Keeps memoryInner := by
  unfold memoryInner
  look
  · refine Keeps.bind Keeps.lastNum fun n => ?_
    step
    done'
  · refine Keeps.bind Keeps.lastNum fun n => ?_
    step
    done'
  · refine Keeps.bind (keeps_innerReg _) fun r => ?_
    look
    · exact keeps_memoryPlus _ _
    · exact keeps_memoryPlus _ _
    · step
      refine Keeps.bind Keeps.tok fun t => ?_
      exact keeps_ite (Keeps.bind keeps_imm fun n => Keeps.pure _) (Keeps.throw (by decide))
    · done'

theorem keeps_memory : Keeps memory := by
  unfold memory
  look
  step
  refine Keeps.bind keeps_memoryInner fun o => Keeps.bind keeps_rbrack fun _ => ?_
  cases o with
  | none => exact Keeps.throw (by decide)
  | some x => exact Keeps.pure _

theorem keeps_operand : Keeps operand := by
  unfold operand
  look
  · exact keeps_memory
  · split
    · exact Keeps.bind keeps_floatRegister fun _ => Keeps.pure _
    · exact keeps_regOperand
  · exact keeps_immOperand
  · exact keeps_immOperand
  · exact keeps_floatImm

theorem keeps_mov : Keeps mov := by
  unfold mov
  exact Keeps.bind keeps_operand fun d => Keeps.bind keeps_comma fun _ => Keeps.bind keeps_operand fun v =>
    keeps_ite (Keeps.pure _) (Keeps.throw (by decide))

theorem keeps_lea : Keeps lea := by
  unfold lea
  exact Keeps.bind keeps_register fun d => Keeps.bind keeps_comma fun _ => Keeps.bind keeps_memory fun v =>
    keeps_ite (Keeps.pure _) (Keeps.throw (by decide))

theorem keeps_binary {α β : Type} {p : Pars α} {q : Pars β} {f : α → β → Instr} (hp : Keeps p) (hq : Keeps q) :
    Keeps (binary p q f) := Keeps.bind hp fun a => Keeps.bind keeps_comma fun _ => Keeps.bind hq fun b => Keeps.pure _

theorem keeps_unary {α : Type} {p : Pars α} {f : α → Instr} (hp : Keeps p) : Keeps (unary p f) :=
  Keeps.bind hp fun a => Keeps.pure _

theorem keeps_body (n : Str) : Keeps (body n) := by
  unfold body
  refine keeps_ite keeps_mov (keeps_ite keeps_lea ?_)
  cases binOp n with
  | some op => exact keeps_binary keeps_register keeps_immOrRegisterPlusImmOrMemory
  | none =>
  refine keeps_ite (keeps_binary keeps_register keeps_immOrRegisterOrMemory) ?_
  refine keeps_ite (keeps_binary keeps_register keeps_immOrRegister) ?_
  cases fbinOp n with
  | some op => exact keeps_binary keeps_floatRegister keeps_floatImmOrRegister
  | none =>
  refine keeps_ite (keeps_binary keeps_floatRegister keeps_floatImmOrRegister) ?_
  refine keeps_ite (keeps_binary keeps_floatRegister keeps_register) ?_
  refine keeps_ite (keeps_binary keeps_register keeps_floatRegister) ?_
  cases unOp n with
  | some op => exact keeps_unary keeps_register
  | none =>
  refine keeps_ite (keeps_unary keeps_immOrRegister) ?_
  cases cond n with
  | some op => exact keeps_unary keeps_immOrRegisterOrMemory
  | none =>
  refine keeps_ite (keeps_unary keeps_immOrRegister) ?_
  refine keeps_ite (keeps_unary keeps_immOrRegister) ?_
  refine keeps_ite (keeps_unary keeps_floatImmOrRegister) ?_
  refine keeps_ite (keeps_unary keeps_register) ?_
  refine keeps_ite (keeps_unary keeps_floatRegister) ?_
  refine keeps_ite (keeps_unary keeps_register) ?_
  refine keeps_ite (keeps_unary keeps_register) ?_
  refine keeps_ite (keeps_unary keeps_register) ?_
  iterate 5
    refine keeps_ite (Keeps.pure _) ?_
  exact Keeps.throw (by decide)

theorem moves_named : Moves named := by
  unfold named
  refine Moves.tok fun t => ?_
  split
  · exact Moves.bind (Moves.next _) fun _ => keeps_body _
  · exact Moves.throw (by decide)

theorem moves_instruction : Moves instruction := by
  unfold instruction
  refine Moves.tok fun t => ?_
  split
  · exact Moves.bind (Moves.next _) fun _ => moves_named.keeps
  · exact moves_named

theorem keeps_checkEnd : Keeps checkEnd := by
  unfold checkEnd
  look
  done'

/-! ## The loops -/

/-- The function, started in this state, stops and its results have the property. -/
def LiveAt {α : Type} (x : Pars α) (n : Nat) (s : PState) (Q : Nat → α × PState → Prop) : Prop := (x s).Live Q n

theorem LiveAt.tok {β : Type} {f : Tok → Pars β} {n : Nat} {s : PState} {Q : Nat → β × PState → Prop}
    (h : ∀ t, s.tok = t → LiveAt (f t) n s Q) : ((Pars.tok >>= f) s).Live Q n := h s.tok rfl

theorem weight_pos {n : Nat} {s : PState} (h : s.tok ≠ .eof) : weight n s = 2 * n + 1 := by simp [weight, h]

theorem live_text : ∀ (fuel : Nat) (u : Unit') (n : Nat) (s : PState), weight n s < fuel →
    (text fuel u s).Live (fun n' r => weight n' r.2 ≤ weight n s) n
  | 0, _, _, _, h => by omega
  | fuel + 1, u, n, s, h => by
    unfold text
    show ((if beginsInstruction s.tok = true then _ else _ : Pars Unit') s).Live _ _
    by_cases hb : beginsInstruction s.tok = true
    · rw [if_pos hb]
      have ht : s.tok ≠ .eof := by intro he; rw [he] at hb; exact absurd hb (by decide)
      have hw := weight_pos (n := n) ht
      refine (moves_instruction n s).bind fun m r hr => ?_
      refine (live_text fuel _ m r.2 (by omega)).mono fun m' r' hr' => by omega
    · rw [if_neg hb]
      exact Nat.le_refl _

theorem live_data : ∀ (fuel : Nat) (u : Unit') (n : Nat) (s : PState), weight n s < fuel →
    (data fuel u s).Live (fun n' r => weight n' r.2 ≤ weight n s) n
  | 0, _, _, _, h => by omega
  | fuel + 1, u, n, s, h => by
    unfold data
    have key : ∀ {α : Type} (x : Pars α) (f : α → Unit'), Moves x → s.tok ≠ .eof →
        LiveAt (x >>= fun a => data fuel (f a)) n s (fun n' r => weight n' r.2 ≤ weight n s) := by
      intro α x f hx ht
      have hw := weight_pos (n := n) ht
      refine (hx n s).bind fun m r hr => ?_
      exact (live_data fuel _ m r.2 (by omega)).mono fun m' r' hr' => by omega
    refine LiveAt.tok fun t ht => ?_
    split
    · exact key (next) (fun _ => _) (Moves.next _) (by rw [ht]; simp)
    · exact key imm (fun n => _) moves_imm (by rw [ht]; simp)
    · exact key imm (fun n => _) moves_imm (by rw [ht]; simp)
    · exact Nat.le_refl _

theorem live_skip : ∀ (fuel : Nat) (n : Nat) (s : PState), weight n s < fuel →
    (skipSection fuel s).Live (fun n' r => weight n' r.2 ≤ weight n s) n
  | 0, _, _, h => by omega
  | fuel + 1, n, s, h => by
    unfold skipSection
    refine LiveAt.tok fun t ht => ?_
    split
    · exact Nat.le_refl _
    · exact Nat.le_refl _
    · rename_i h1 h2
      have hw := weight_pos (n := n) (s := s) (by rw [ht]; exact h2)
      refine (Moves.next true n s).bind fun m r hr => ?_
      exact (live_skip fuel m r.2 (by omega)).mono fun m' r' hr' => by omega

theorem live_section (fuel : Nat) (u : Unit') (n : Nat) (s : PState) (h : weight n s < fuel) :
    (section' fuel u s).Live (fun n' r => weight n' r.2 ≤ weight n s) n := by
  unfold section'
  refine LiveAt.tok fun t ht => ?_
  split
  · refine ((Moves.next false).keeps n s).bind fun m r hr => ?_
    show LiveAt (if _ then _ else _ : Pars Unit') _ r.2 _
    split
    · exact (live_text fuel u m r.2 (by omega)).mono fun _ _ h => by omega
    · split
      · exact (live_data fuel u m r.2 (by omega)).mono fun _ _ h => by omega
      · refine (live_skip fuel m r.2 (by omega)).bind fun m' r' hr' => ?_
        show weight m' r'.2 ≤ _
        omega
  · intro h; cases h

theorem live_sections (k : Nat) : ∀ (fuel : Nat) (u : Unit') (n : Nat) (s : PState), weight n s < fuel → weight n s < k →
    (sections k fuel u s).Live (fun n' r => True) n
  | 0, _, _, _, h, _ => by omega
  | fuel + 1, u, n, s, h, hk => by
    unfold sections
    refine LiveAt.tok fun t ht => ?_
    split
    · have hw := weight_pos (n := n) (s := s) (by rw [ht]; simp)
      refine (Moves.next false n s).bind fun m r hr => ?_
      refine LiveAt.tok fun t ht => ?_
      split
      · trivial
      · refine (live_section k u m r.2 (by omega)).bind fun m' r' hr' => ?_
        exact live_sections k fuel r'.1 m' r'.2 (by omega) (by omega)
    · exact ((keeps_checkEnd n s).bind fun _ _ _ => trivial)

theorem live_parse (fuel n : Nat) (h : 2 * n + 1 < fuel) : (start (parse fuel)).Live (fun _ _ => True) n := by
  have key : ∀ m s, weight m s < fuel → (parse fuel s).Live (fun _ _ => True) m := by
    intro m s hw
    unfold parse
    refine LiveAt.tok fun t ht => ?_
    split
    · exact live_sections _ _ _ _ _ hw hw
    · intro h; cases h
  refine ⟨?_, ?_⟩
  · exact (key n _ (by simp [weight, advance]; omega)).bind fun _ _ _ => trivial
  · rintro m rfl t ht
    refine (key m _ ?_).bind fun _ _ _ => trivial
    unfold weight
    split <;> omega

/-! ## More patience changes nothing -/

/-- The second function is the first, with more patience. -/
def PLe {α : Type} (x y : Pars α) : Prop := ∀ s, Reader.Le (x s) (y s)

theorem PLe.refl {α : Type} (x : Pars α) : PLe x x := fun _ => .refl _

theorem PLe.bind {α β : Type} {x y : Pars α} {f g : α → Pars β} (h : PLe x y) (hf : ∀ a, PLe (f a) (g a)) :
    PLe (x >>= f) (y >>= g) := fun s => (h s).bind fun r => hf r.1 r.2

theorem PLe.throw {α : Type} (y : Pars α) : PLe (throw .diverge) y := fun _ => .fail _

theorem PLe.ite {α : Type} {c : Prop} [Decidable c] {x y x' y' : Pars α} (h1 : PLe x x') (h2 : PLe y y') :
    PLe (if c then x else y) (if c then x' else y') := by
  by_cases h : c
  · rw [if_pos h, if_pos h]; exact h1
  · rw [if_neg h, if_neg h]; exact h2

theorem le_text : ∀ {f g : Nat} (u : Unit'), f ≤ g → PLe (text f u) (text g u)
  | 0, _, _, _ => PLe.throw _
  | f + 1, 0, u, h => by omega
  | f + 1, g + 1, u, h => by
    unfold text
    exact PLe.bind (PLe.refl _) fun t => PLe.ite (PLe.bind (PLe.refl _) fun i => le_text _ (by omega)) (PLe.refl _)

theorem le_data : ∀ {f g : Nat} (u : Unit'), f ≤ g → PLe (data f u) (data g u)
  | 0, _, _, _ => PLe.throw _
  | f + 1, 0, u, h => by omega
  | f + 1, g + 1, u, h => by
    unfold data
    refine PLe.bind (PLe.refl _) fun t => ?_
    cases t <;> first
    | exact PLe.refl _
    | exact PLe.bind (PLe.refl _) fun i => le_data _ (by omega)

theorem le_skip : ∀ {f g : Nat}, f ≤ g → PLe (skipSection f) (skipSection g)
  | 0, _, _ => PLe.throw _
  | f + 1, 0, h => by omega
  | f + 1, g + 1, h => by
    unfold skipSection
    refine PLe.bind (PLe.refl _) fun t => ?_
    cases t <;> first
    | exact PLe.refl _
    | exact PLe.bind (PLe.refl _) fun i => le_skip (by omega)

theorem le_section {f g : Nat} (u : Unit') (h : f ≤ g) : PLe (section' f u) (section' g u) := by
  unfold section'
  refine PLe.bind (PLe.refl _) fun t => ?_
  cases t <;> first
  | exact PLe.refl _
  | exact PLe.bind (PLe.refl _) fun i =>
      PLe.ite (le_text u h) (PLe.ite (le_data u h) (PLe.bind (le_skip h) fun _ => PLe.refl _))

theorem le_sections {k k' : Nat} (hk : k ≤ k') : ∀ {f g : Nat} (u : Unit'), f ≤ g → PLe (sections k f u) (sections k' g u)
  | 0, _, _, _ => PLe.throw _
  | f + 1, 0, u, h => by omega
  | f + 1, g + 1, u, h => by
    unfold sections
    refine PLe.bind (PLe.refl _) fun t => ?_
    cases t <;> first
    | exact PLe.refl _
    | exact PLe.bind (PLe.refl _) fun i => PLe.bind (PLe.refl _) fun t => PLe.ite (PLe.refl _)
        (PLe.bind (le_section u hk) fun u => le_sections hk u (by omega))

theorem le_parse {f g : Nat} (h : f ≤ g) : Reader.Le (start (parse f)) (start (parse g)) := by
  refine .next fun t => ?_
  refine Reader.Le.bind ?_ fun _ => .refl _
  unfold parse
  exact PLe.bind (PLe.refl _) (fun t => by
    cases t <;> first | exact PLe.refl _ | exact le_sections h _ h) _

/-- The bounds on the assembler's loops are never reached: on every text it gives a program or reports an error. -/
theorem assemble_terminates {stod : Str → Except Err Word} (hst : ∀ w, stod w ≠ .error .diverge) (s : Str) :
    assemble stod s ≠ .error .diverge :=
  (live_parse _ s.length (by omega)).run hst (Nat.le_refl _)

theorem assemble_fuel {stod : Str → Except Err Word} (hst : ∀ w, stod w ≠ .error .diverge) (s : Str) {fuel : Nat}
    (h : 2 * s.length + 2 ≤ fuel) : (start (parse fuel)).run stod s = assemble stod s :=
  (le_parse h).run (assemble_terminates hst s)

/-- Assembling a text is assembling its tokens. -/
theorem assemble_layout {stod : Str → Except Err Word} (hst : ∀ w, stod w ≠ .error .diverge) {ts : List Tok} {s : Str}
    (h : Layout stod ts s) {fuel : Nat} (hf : 2 * s.length + 2 ≤ fuel) : assemble stod s = (start (parse fuel)).onToks ts := by
  rw [← assemble_fuel hst s hf]
  exact Reader.run_layout (all_parse fuel) h

end Asm
end T86
