import Verif.Lemmas.AsmFuel
import Verif.Model.Load

/-! # Reading whole programs -/

set_option linter.unusedSimpArgs false
set_option linter.unusedVariables false

namespace T86
open Dbg Str

namespace Asm
open Pars

/-- A token that ends a section. -/
def ends (t : Tok) : Prop := t = .dot ∨ t = .eof

theorem ends.stop {t : Tok} (h : ends t) : stop t := by
  rcases h with rfl | rfl <;> exact ⟨by simp, by simp, by simp⟩

/-- The instruction can be read from its tokens. -/
def Readable (i : Instr) : Prop := i.Writable ∧ ∀ o ∈ i.shown, o.Short

/-- The tokens of a line. -/
def lineToks (x : Option Nat × Instr) : List Tok := (x.1.toList.map Tok.num) ++ x.2.toks

theorem lineToks_head (x : Option Nat × Instr) : ∃ t l, lineToks x = t :: l ∧ beginsInstruction t = true ∧ stop t := by
  obtain ⟨a, i⟩ := x
  cases a with
  | some n => exact ⟨.num n, i.toks, rfl, rfl, by simp, by simp, by simp⟩
  | none =>
    refine ⟨.id i.name, bodyToks i, ?_, rfl, by simp, by simp, by simp⟩
    exact toks_eq i

theorem parses_line {x : Option Nat × Instr} (h : Readable x.2) : Parses instruction (lineToks x) x.2 stop := by
  obtain ⟨a, i⟩ := x
  cases a with
  | none => exact parses_instruction h.1 h.2
  | some n =>
    show Parses instruction (.num n :: i.toks) i stop
    unfold instruction
    refine Parses.tok (Parses.next ?_)
    rw [toks_eq]
    unfold named
    exact Parses.tok (Parses.next (parses_body h.1 h.2))

theorem parses_text : ∀ (l : List (Option Nat × Instr)) (fuel : Nat) (u : Unit'), l.length < fuel → (∀ x ∈ l, Readable x.2) →
    Parses (text fuel u) (l.map lineToks).flatten { u with program := u.program ++ l.map (·.2) } ends
  | l, 0, u, h, _ => by omega
  | [], fuel + 1, u, h, _ => by
    unfold text
    rw [List.map_nil, List.map_nil, List.append_nil]
    refine Parses.tokNil ?_
    rintro t (rfl | rfl) <;> rfl
  | x :: l, fuel + 1, u, h, hr => by
    unfold text
    have ih := parses_text l fuel { u with program := u.program ++ [x.2] } (by simp at h; omega) (fun y hy => hr y (by simp [hy]))
    obtain ⟨t, q, ht, hb, _⟩ := lineToks_head x
    have h1 := parses_line (hr x (by simp))
    have h2 : Parses (instruction >>= fun i => text fuel { u with program := u.program ++ [i] })
        (lineToks x ++ (l.map lineToks).flatten) { u with program := u.program ++ (x :: l).map (·.2) } ends := by
      refine h1.bind (by simpa using ih) ?_
      cases l with
      | nil => intro t ht; exact ht.stop
      | cons y l =>
        obtain ⟨t', q', ht', _, hs'⟩ := lineToks_head y
        rw [List.map_cons, List.flatten_cons, ht', List.cons_append]
        exact hs'
    rw [List.map_cons, List.flatten_cons]
    rw [ht, List.cons_append] at h2 ⊢
    refine Parses.tok ?_
    rw [if_pos hb]
    exact h2

theorem charValue_cell {c : Char} (h : c.toNat < 256) : BitVec.ofInt 64 (charValue c) = cell c := by
  have key : ∀ n : Fin 256, BitVec.ofInt 64 (if n.val < 128 then (n.val : Int) else n.val - 256) = (BitVec.ofNat 8 n.val).signExtend 64 := by
    decide +kernel
  exact key ⟨c.toNat, h⟩

theorem cells_str {s : Str} (h : ∀ c ∈ s, c.toNat < 256) : s.map (fun c => BitVec.ofInt 64 (charValue c)) = s.map cell :=
  List.map_congr_left fun c hc => charValue_cell (h c hc)

theorem item_head (d : DataItem) : ∃ t l, d.toks = t :: l := by cases d <;> exact ⟨_, _, rfl⟩

theorem parses_data : ∀ (l : List DataItem) (fuel : Nat) (u : Unit'), l.length < fuel → (∀ x ∈ l, x.Bytes) →
    Parses (data fuel u) (l.map DataItem.toks).flatten { u with data := u.data ++ (l.map DataItem.cells).flatten } ends
  | l, 0, u, h, _ => by omega
  | [], fuel + 1, u, h, _ => by
    unfold data
    simp only [List.map_nil, List.flatten_nil, List.append_nil]
    refine Parses.tokNil ?_
    rintro t (rfl | rfl) <;> rfl
  | x :: l, fuel + 1, u, h, hr => by
    unfold data
    have ih : ∀ u, Parses (data fuel u) (l.map DataItem.toks).flatten { u with data := u.data ++ (l.map DataItem.cells).flatten }
        ends := fun u => parses_data l fuel u (by simp at h; omega) (fun y hy => hr y (by simp [hy]))
    have hh : Head (l.map DataItem.toks).flatten any ends := by
      unfold Head
      split
      · intro _ _; trivial
      · trivial
    rw [List.map_cons, List.flatten_cons, List.map_cons, List.flatten_cons]
    cases x with
    | num n =>
      refine Parses.tok ?_
      have h1 : Parses imm [.num n] (n : Int) any := by
        unfold imm
        exact Parses.tok (Parses.lastNum (Parses.next (Parses.pure _ _)))
      refine h1.bind (us := (l.map DataItem.toks).flatten) ?_ hh
      have := ih { u with data := u.data ++ [word n] }
      simpa [DataItem.cells, word] using this
    | neg n =>
      refine Parses.tok ?_
      have h1 : Parses imm [.minus, .num n] (-(n : Int)) any := by
        unfold imm
        exact Parses.tok (Parses.next (Parses.lastNum (Parses.next (Parses.pure _ _))))
      refine h1.bind (us := (l.map DataItem.toks).flatten) ?_ hh
      have := ih { u with data := u.data ++ [word (-(n : Int))] }
      simpa [DataItem.cells, word] using this
    | str s =>
      refine Parses.tok (Parses.next ?_)
      have := ih { u with data := u.data ++ s.map cell ++ [0] }
      have e := cells_str (hr (.str s) (by simp))
      simpa [DataItem.cells, e] using this

/-- The section can be read. -/
def SectOk : Sect → Prop
  | .text l => ∀ x ∈ l, Readable x.2
  | .data l => ∀ x ∈ l, x.Bytes

/-- Number of lines or items. -/
def Sect.size : Sect → Nat
  | .text l => l.length
  | .data l => l.length

/-- The tokens of a section after the dot. -/
def sectTail : Sect → List Tok
  | .text l => .id "text".toList :: (l.map lineToks).flatten
  | .data l => .id "data".toList :: (l.map DataItem.toks).flatten

theorem sect_toks (x : Sect) : x.toks = .dot :: sectTail x := by cases x <;> rfl

theorem parses_section {x : Sect} {fuel : Nat} {u : Unit'} (hf : Sect.size x < fuel) (h : SectOk x) :
    Parses (section' fuel u) (sectTail x) ⟨u.program ++ x.instrs, u.data ++ x.cells⟩ ends := by
  unfold section'
  cases x with
  | text l =>
    refine Parses.tok (Parses.next ?_)
    rw [if_pos rfl]
    simpa [Sect.instrs, Sect.cells] using parses_text l fuel u hf h
  | data l =>
    refine Parses.tok (Parses.next ?_)
    rw [if_neg (by decide), if_pos rfl]
    simpa [Sect.instrs, Sect.cells] using parses_data l fuel u hf h

theorem parses_sections (k : Nat) : ∀ (l : List Sect) (fuel : Nat) (u : Unit'), l.length < fuel → (∀ x ∈ l, Sect.size x < k) →
    (∀ x ∈ l, SectOk x) →
    Parses (sections k fuel u) (l.map Sect.toks).flatten
      ⟨u.program ++ (l.map Sect.instrs).flatten, u.data ++ (l.map Sect.cells).flatten⟩ (fun t => t = .eof)
  | l, 0, u, h, _, _ => by omega
  | [], fuel + 1, u, h, _, _ => by
    unfold sections
    simp only [List.map_nil, List.flatten_nil, List.append_nil]
    rintro s l t rest e hn rfl
    simp only [List.nil_append, List.cons.injEq] at e
    obtain ⟨tk, num, lid⟩ := s
    obtain ⟨e1, e2⟩ := e
    simp only at e1
    subst e1 e2
    exact ⟨⟨.eof, num, lid⟩, by cases l <;> rfl, rfl, hn⟩
  | x :: l, fuel + 1, u, h, hk, hr => by
    unfold sections
    have ih := parses_sections k l fuel ⟨u.program ++ x.instrs, u.data ++ x.cells⟩ (by simp at h; omega)
      (fun y hy => hk y (by simp [hy])) (fun y hy => hr y (by simp [hy]))
    rw [List.map_cons, List.flatten_cons, sect_toks]
    refine Parses.tok (Parses.next ?_)
    have h1 := parses_section (u := u) (hk x (by simp)) (hr x (by simp))
    have h2 := h1.bind (f := fun u => sections k fuel u) ih (by
      cases l with
      | nil => rintro t rfl; exact Or.inr rfl
      | cons y l =>
        rw [List.map_cons, List.flatten_cons, sect_toks]
        exact Or.inl rfl)
    have h3 : ∃ n q, sectTail x = .id n :: q ∧ n ≠ "debug_source".toList := by
      cases x with
      | text l => exact ⟨_, _, rfl, by decide⟩
      | data l => exact ⟨_, _, rfl, by decide⟩
    obtain ⟨n, q, e, hn⟩ := h3
    have e' : ∀ (a b c : List Instr), a ++ b ++ c = a ++ (b ++ c) := List.append_assoc
    simp only [List.map_cons, List.flatten_cons]
    rw [e, List.cons_append] at h2
    rw [e]
    refine Parses.tok ?_
    rw [if_neg (by intro hh; injection hh with hh; exact hn hh)]
    simpa using h2

theorem parses_parse {l : List Sect} {fuel : Nat} (hne : l ≠ []) (hl : l.length < fuel) (hk : ∀ x ∈ l, Sect.size x < fuel)
    (hr : ∀ x ∈ l, SectOk x) :
    Parses (parse fuel) (l.map Sect.toks).flatten ⟨(l.map Sect.instrs).flatten, (l.map Sect.cells).flatten⟩ (fun t => t = .eof) := by
  have h := parses_sections fuel l fuel ⟨[], []⟩ hl hk hr
  cases l with
  | nil => exact absurd rfl hne
  | cons x l =>
    unfold parse
    rw [List.map_cons, List.flatten_cons, sect_toks, List.cons_append] at h ⊢
    refine Parses.tok ?_
    simpa using h

/-- A bound on the number of lines and items. -/
def bound (l : List Sect) : Nat := l.length + (l.map Sect.size).sum + 1

theorem bound_length (l : List Sect) : l.length < bound l := by unfold bound; omega

theorem bound_size {l : List Sect} {x : Sect} (h : x ∈ l) : Sect.size x < bound l := by
  have : Sect.size x ≤ (l.map Sect.size).sum := by
    induction l with
    | nil => cases h
    | cons y l ih =>
      rcases List.mem_cons.1 h with rfl | h
      · simp
      · have := ih h; simp; omega
  unfold bound; omega

theorem assemble_sections {stod : Str → Except Err Word} (hst : ∀ w, stod w ≠ .error .diverge) {l : List Sect} {s : Str} (hne : l ≠ []) (hr : ∀ x ∈ l, SectOk x)
    (h : Layout stod (l.map Sect.toks).flatten s) :
    assemble stod s = .ok ⟨(l.map Sect.instrs).flatten, (l.map Sect.cells).flatten⟩ := by
  have h1 := assemble_layout (fuel := max (2 * s.length + 2) (bound l)) hst h (Nat.le_max_left _ _)
  rw [h1]
  exact (parses_parse hne (Nat.lt_of_lt_of_le (bound_length l) (Nat.le_max_right _ _))
    (fun x hx => Nat.lt_of_lt_of_le (bound_size hx) (Nat.le_max_right _ _)) hr).start rfl

end Asm
end T86
