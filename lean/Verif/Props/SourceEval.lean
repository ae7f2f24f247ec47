import Verif.Model.SourceDbg
import Verif.Spec.SourceDbg
import Verif.Props.Access
import Verif.Props.Assign

/-! # Showing values and earlier results (C55, C56)

`Native.Shows h n s` (`Verif/Spec/Native.lean`): the debugger is at a stop and shows the state `s` of the sequential machine. -/

set_option linter.unusedSimpArgs false
set_option linter.unusedVariables false
set_option maxRecDepth 100000

namespace T86
open Dbg Str Native Isa Ex

section
variable {h : Host} {c : Client} {n n' : Native}

/-! ## C55: strings -/

theorem Isa.State.Bytes.head {s : State} {a : Word} {b : BitVec 8} {l : List (BitVec 8)} (hb : s.Bytes a (b :: l)) :
    ∃ w, s.mem a = some w ∧ w.truncate 8 = b := by
  have := hb 0 b rfl
  simpa using this

theorem Isa.State.Bytes.tail {s : State} {a : Word} {b : BitVec 8} {l : List (BitVec 8)} (hb : s.Bytes a (b :: l)) : s.Bytes (a + 1) l := by
  intro j x hj
  have := hb (j + 1) x (by simpa using hj)
  rw [BitVec.add_assoc]
  rwa [show (1 : Word) + BitVec.ofNat 64 j = BitVec.ofNat 64 (j + 1) by rw [Nat.add_comm j 1, BitVec.ofNat_add]; rfl]

theorem read_one {s : State} (hs : Native.Shows h n s) (hsz : c.size < 2 ^ 63) {a w : Word} (ha : a.toNat + 1 ≤ c.size)
    (hw : s.mem a = some w) : readMemory h c a 1 n = (.ok [w], n) := by
  have h0 : s.mem (a + BitVec.ofNat 64 0) = some w := by simpa using hw
  obtain ⟨l, h1, h2, h3⟩ := C49_read_memory (c := c) hs a 1 ha hsz (fun j hj => by
    have : j = 0 := by have : (1 : Word).toNat = 1 := rfl; omega
    subst this
    rw [h0]; rfl)
  have h3 := h3 0 (by decide)
  rw [h0] at h3
  match l, h2, h3 with
  | [x], _, h3 => cases h3; exact h1

theorem readString_read {a w : Word} {fuel : Nat} (hr : readMemory h c a 1 n = (.ok [w], n)) :
    Src.readString h c (fuel + 1) a n =
      if w.truncate 8 = (0 : BitVec 8) then (.ok [], n)
      else (Src.readString h c fuel (a + 1) >>= fun r => pure (Src.escape (w.truncate 8) ++ r)) n := by
  rw [Src.readString, Job.bind_eq hr]
  show (if w.truncate 8 = (0 : BitVec 8) then pure [] else _ : N Str) n = _
  split <;> rfl

/-- C55: what is shown for a string that begins at `a` are the bytes of memory up to the first zero, without it. The debuggee is
not changed. -/
theorem C55_string {s : State} (hs : Native.Shows h n s) (hsz : c.size < 2 ^ 63) {a : Word} {l : List (BitVec 8)} (hb : s.Bytes a (l ++ [0]))
    (hl : 0 ∉ l) (hin : a.toNat + l.length + 1 ≤ c.size) {fuel : Nat} (hf : l.length < fuel) :
    Src.readString h c fuel a n = (.ok (l.flatMap shownByte), n) := by
  induction l generalizing a fuel with
  | nil =>
    obtain ⟨w, h1, h2⟩ := Isa.State.Bytes.head (b := 0) (l := []) hb
    cases fuel with
    | zero => simp at hf
    | succ fuel =>
      rw [readString_read (read_one hs hsz (by simpa using hin) h1), if_pos h2]
      rfl
  | cons b l ih =>
    obtain ⟨w, h1, h2⟩ := Isa.State.Bytes.head (b := b) (l := l ++ [0]) hb
    cases fuel with
    | zero => simp at hf
    | succ fuel =>
      simp only [List.length_cons, List.mem_cons, not_or] at hin hf hl
      have ha : (a + 1).toNat = a.toNat + 1 := by
        rw [BitVec.toNat_add]
        exact Nat.mod_eq_of_lt (by have : (1 : Word).toNat = 1 := rfl; omega)
      have := ih (a := a + 1) (fuel := fuel) (Isa.State.Bytes.tail (b := b) hb) hl.2 (by rw [ha]; omega) (by omega)
      rw [readString_read (read_one hs hsz (by omega) h1), if_neg (by rw [h2]; exact fun h => hl.1 h.symm),
        Job.bind_eq this, h2]
      rfl

/-- C55, without a zero before the end of the memory the debugger knows: reported as an error. The debuggee is not changed. -/
theorem C55_unterminated {s : State} (hs : Native.Shows h n s) (hsz : c.size < 2 ^ 63) {a : Word} {l : List (BitVec 8)} (hb : s.Bytes a l)
    (hl : 0 ∉ l) (hin : a.toNat + l.length = c.size) {fuel : Nat} (hf : l.length < fuel) :
    Src.readString h c fuel a n = (.error .debugger, n) := by
  induction l generalizing a fuel with
  | nil =>
    cases fuel with
    | zero => simp at hf
    | succ fuel =>
      unfold Src.readString
      simp only [List.length_nil, Nat.add_zero] at hin
      have h1 : (1 : Word).toNat = 1 := rfl
      rw [Job.bind_error ((C35_memory_partial h c n).1 1 (by omega) (by omega))]
  | cons b l ih =>
    obtain ⟨w, h1, h2⟩ := hb.head
    cases fuel with
    | zero => simp at hf
    | succ fuel =>
      simp only [List.length_cons, List.mem_cons, not_or] at hin hf hl
      have ha : (a + 1).toNat = a.toNat + 1 := by
        rw [BitVec.toNat_add]
        exact Nat.mod_eq_of_lt (by have : (1 : Word).toNat = 1 := rfl; omega)
      have := ih (a := a + 1) (fuel := fuel) hb.tail hl.2 (by rw [ha]; omega) (by omega)
      rw [readString_read (read_one hs hsz (by omega) h1), if_neg (by rw [h2]; exact fun h => hl.1 h.symm),
        Job.bind_error this]

/-- C55, the other simple values: what is shown for an integer and for a pointer to anything but char is a number that denotes the
value; integers are signed and pointers are not. -/
theorem C55_number (types : Dbg.Types) (fuel : Nat) (v : Word) (l : Option Loc) :
    (∃ t, Src.showValue h c types fuel (.int v l) n = (.ok t, n) ∧ toSigned t = some v.toInt) ∧
    ∀ id sz, Src.isCharType types id = false →
      ∃ t, Src.showValue h c types fuel (.ptr id sz v l) n = (.ok t, n) ∧ toUnsigned t = some v.toNat := by
  refine ⟨⟨ofInt v.toInt, by unfold Src.showValue; rfl, Proto.signed_word v⟩, fun id sz hc => ⟨ofNat v.toNat, ?_, Proto.unsigned_nat v.isLt⟩⟩
  unfold Src.showValue
  rw [if_neg (by rw [hc]; simp)]
  rfl

/-! ## C56: earlier results -/

/-- `src'` comes from `src` by evaluating expressions whose results are kept, at any stops. -/
inductive Later (h : Host) (c : Client) (m : Mode) (fo : Floats) : Src.Source → Src.Source → Prop
  | refl {src : Src.Source} : Later h c m fo src src
  | eval {src src' src'' : Src.Source} {n n' : Native} {text : Str} {cache : Bool} {v : Val} {k : Nat} (before : Later h c m fo src src')
      (eval : Src.evaluateExpression h c m fo text cache src' n = (.ok (v, k, src''), n')) : Later h c m fo src src''

theorem evaluateExpression_ok {m : Mode} {fo : Floats} {text : Str} {cache : Bool} {src src' : Src.Source} {v : Val} {k : Nat}
    (hr : Src.evaluateExpression h c m fo text cache src n = (.ok (v, k, src'), n')) :
    evaluate (target h c) m fo h.stod src.env text n = (.ok v, n') ∧
      (cache = true → k = src.evaluated.length) ∧ src' = { src with evaluated := src.evaluated ++ if cache then [v] else [] } := by
  unfold Src.evaluateExpression at hr
  obtain ⟨v', n1, h1, hr⟩ := Job.bind_ok hr
  cases cache with
  | true => cases hr; exact ⟨h1, fun _ => rfl, rfl⟩
  | false => cases hr; exact ⟨h1, by simp, by simp⟩

theorem Later.kept {m : Mode} {fo : Floats} {src src' : Src.Source} (hl : Later h c m fo src src') : src.evaluated <+: src'.evaluated := by
  induction hl with
  | refl => exact List.prefix_refl _
  | eval _ he ih => rw [(evaluateExpression_ok he).2.2]; exact ih.trans (List.prefix_append _ _)

/-- C56: a result that has been given the number `k` is what `$k` evaluates to, however it is written, at every later stop, whatever
has been evaluated or executed in between; the debuggee is not changed by it. -/
theorem C56_recalled {m : Mode} {fo : Floats} {text text' : Str} {src src1 src2 : Src.Source} {v : Val} {k : Nat} {n2 : Native}
    (hr : Src.evaluateExpression h c m fo text true src n = (.ok (v, k, src1), n')) (hl : Later h c m fo src1 src2)
    {s : State} (hs : Native.Shows h n2 s) (ht : Layout h.stod [.dollar, .num k] text') :
    evaluate (target h c) m fo h.stod src2.env text' n2 = (.ok v, n2) := by
  obtain ⟨_, h2, h3⟩ := evaluateExpression_ok hr
  have h2 := h2 rfl
  have hk : src2.evaluated[k]? = some v := by
    obtain ⟨l, hp⟩ := hl.kept
    rw [← hp, h3, h2]
    simp
  have hg : Gram 0 [.dollar, .num k] (.evaluated k) :=
    .up (by decide) (.up (by decide) (.up (by decide) (.up (by decide) (.up (by decide) (.up (by decide) (.up (by decide)
      (.up (by decide) (.up (by decide) (.up (by decide) .evaluated)))))))))
  have hip : (target h c).ip n2 = .ok s.pc.toNat := by
    have := (C49_read_register (h := h) hs).1 .pc (by simp [shown])
    have : getIP h n2 = (.ok (s.look (.int .pc)), n2) := this
    show (do let w ← (getIP h n2).1; return w.toNat) = _
    rw [this]
    rfl
  rw [evaluate_parsed (C42_grammar_partial hg (by trivial) ht) hip]
  show (match src2.evaluated[k]? with | some v => pure v | none => Job.throw .debugger : Job Native Val) n2 = _
  rw [hk]
  rfl

/-- C56: results are numbered in the order in which they are found, from 0, without gaps. -/
theorem C56_numbers {m : Mode} {fo : Floats} {text : Str} {src src' : Src.Source} {v : Val} {k : Nat}
    (hr : Src.evaluateExpression h c m fo text true src n = (.ok (v, k, src'), n')) :
    k = src.evaluated.length ∧ src'.evaluated.length = k + 1 := by
  obtain ⟨_, h2, h3⟩ := evaluateExpression_ok hr
  rw [h3, h2 rfl]
  simp

end

/-! ## Examples and counterexamples -/

namespace Sample

/-- The stop at the start, after `a`, a newline, `c` and 0 have been written to the cells from 3 on. -/
def written : Native := after (started calls) [.writeMemory 3 [97, 10, 99, 0]]

end Sample

/-- Non-vacuity of C55: the string at 3 is shown as `a\nc`. A string at 15, the last cell, is ended by the zero there. Cells beyond
the end are refused. -/
example :
    Sample.succeed (Sample.started Sample.calls) [.writeMemory 3 [97, 10, 99, 0]] = true ∧
    (Src.readString Sample.host Sample.client 9 3 Sample.written).1 = .ok "a\\nc".toList ∧
    (Src.readString Sample.host Sample.client 9 15 Sample.written).1 = .ok [] ∧
    (Src.readString Sample.host Sample.client 9 15 (Sample.after (Sample.started Sample.calls) [.writeMemory 15 [97]])).1 =
      .error .debugger := by
  decide +kernel

/-- An array of characters that does not contain a zero is shown with whatever follows it in memory: the array of the two
characters at 3 and 4 is shown with the one at 5. -/
theorem C55_array_overrun :
    (Src.showValue Sample.host Sample.client [] 9 (.arr 0 2 3 [.char 97 none, .char 10 none] none) Sample.written).1 =
      .ok "3 \"a\\nc\"".toList := by
  decide +kernel

/-- Non-vacuity of C56: the sum gets the number 0; ` $ 0` evaluates to it at another stop. -/
example :
    ((Src.evaluateExpression Sample.host Sample.client .strict Sample.floats2 "1 + 2".toList true {} Sample.written).1.map fun r => r.2.1) =
      .ok 0 ∧
    ((Src.evaluateExpression Sample.host Sample.client .strict Sample.floats2 "1 + 2".toList true {} Sample.written).1.map fun r =>
      Sample.show' (evaluate (target Sample.host Sample.client) .strict Sample.floats2 exStod r.2.2.env " $ 0".toList
        (Sample.after Sample.written [.step])).1) = .ok (.ok 3) := by
  decide +kernel

example : Layout exStod [.dollar, .num 0] " $ 0".toList :=
  .cons (g := [' ']) (w := ['$']) (rest := [' ', '0']) (.blank (by decide) .nil) (.symbol (t := .dollar) (w := "$") rfl)
    (.cons (g := [' ']) (w := ['0']) (rest := []) (.blank (by decide) .nil) (.num (w := ['0']) (by decide) (by decide) (by decide)) (.nil (.gap .nil))
      (by simp)) (by intro c r h; cases h; exact id)

end T86
