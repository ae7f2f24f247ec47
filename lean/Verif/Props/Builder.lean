import Verif.Model.Builder
import Verif.Spec.Programs

/-! # C45: the program builder -/

set_option linter.unusedSimpArgs false
set_option linter.unusedVariables false

namespace T86
namespace Builder

theorem fillLoop_eq (v : Word) : ∀ n d, fillLoop v n d = d ++ List.replicate n v
  | 0, d => by simp [fillLoop]
  | n + 1, d => by rw [fillLoop, fillLoop_eq v n]; simp [List.replicate_succ]

theorem stringLoop_eq (s : List (BitVec 8)) : ∀ b : Builder,
    stringLoop b s = { b with data := b.data ++ s.map (·.signExtend 64) } := by
  induction s with
  | nil => intro b; simp [stringLoop]
  | cons c s ih => intro b; rw [stringLoop, ih]; simp [addData]

/-- The cells a data call adds. -/
def cells : BuildCall → List Word
  | .addData v => [v]
  | .addFill v n => List.replicate n v
  | .addString s => s.map (·.signExtend 64) ++ [0]
  | _ => []

/-- Everything one call does. -/
theorem call_spec (b b' : Builder) (k : BuildCall) (n : Nat) (h : b.call k = .ok (b', n)) :
    b'.release = b.release ∧ b'.data = b.data ++ cells k ∧ (cells k ≠ [] → n = b.data.length) ∧
    (match k with
     | .add i => n = b.items.length ∧ b'.items = b.items ++ [.ins i]
     | .addDbg => n = b.items.length ∧ b'.items = if b.release then b.items else b.items ++ [.dbg]
     | .currentLabel => n = b.items.length ∧ b'.items = b.items
     | .patch l d => ∃ i i', b.items[l.toNat]? = some (.ins i) ∧ i.setDestination d = .ok i' ∧
         b'.items = b.items.set l.toNat (.ins i')
     | _ => b'.items = b.items) := by
  cases k with
  | add i =>
    simp only [call, add] at h
    by_cases hv : i.valid = true
    · rw [if_pos hv] at h; cases h; simp [cells]
    · rw [if_neg hv] at h; cases h
  | addDbg =>
    simp only [call, addDbg] at h
    cases hr : b.release <;> (rw [hr] at h; simp at h; obtain ⟨rfl, rfl⟩ := h; simp [cells, hr])
  | currentLabel => simp only [call] at h; cases h; simp [cells, currentLabel]
  | addData v => simp only [call] at h; cases h; simp [cells, addData]
  | addFill v n => simp only [call] at h; cases h; simp [cells, addFill, fillLoop_eq]
  | addString s =>
    simp only [call] at h; cases h
    simp [cells, addString, stringLoop_eq, addData]
  | patch l d =>
    simp only [call, patch] at h
    cases hi : b.items[l.toNat]? with
    | none => rw [hi] at h; cases h
    | some x =>
      rw [hi] at h
      cases x with
      | dbg => cases h
      | ins i =>
        simp only at h
        cases hs : i.setDestination d with
        | error e => rw [hs] at h; cases h
        | ok i' =>
          rw [hs] at h
          change Except.ok _ = _ at h
          injection h with h
          injection h with h1 h2
          subst h1
          exact ⟨rfl, by simp [cells], by simp [cells], i, i', hi, hs, rfl⟩

theorem calls_cons (b b' : Builder) (k : BuildCall) (l : List BuildCall) (ns : List Nat) (h : b.calls (k :: l) = .ok (b', ns)) :
    ∃ b1 n ns', b.call k = .ok (b1, n) ∧ b1.calls l = .ok (b', ns') ∧ ns = n :: ns' := by
  rw [calls] at h
  cases h1 : b.call k with
  | error e => rw [h1] at h; cases h
  | ok x =>
    rw [h1] at h
    change (x.1.calls l >>= fun y => Except.ok (y.1, x.2 :: y.2)) = _ at h
    cases h2 : x.1.calls l with
    | error e => rw [h2] at h; cases h
    | ok y =>
      rw [h2] at h
      cases h
      exact ⟨x.1, x.2, y.2, rfl, h2, rfl⟩

/-- The destination given to the instruction at `l` by the first patch of it, if any. -/
def firstPatch (l : Nat) : List BuildCall → Option Word
  | [] => none
  | .patch l' d :: t => if l'.toNat = l then some d else firstPatch l t
  | _ :: t => firstPatch l t

/-- An instruction as later patches leave it. -/
def patched (x : Item) : Option Word → Item
  | none => x
  | some d => match x with
    | .ins i => .ins (i.withDest (.imm d))
    | .dbg => .dbg

theorem withDest_patchable (i : Instr) (d a : Operand) (h : i.patchable = some a) : (i.withDest d).patchable = some d := by
  cases i <;> simp [Instr.patchable] at h <;> rfl

theorem withDest_twice (i : Instr) (d a : Operand) : (i.withDest d).withDest a = i.withDest a := by
  cases i <;> rfl

theorem setDestination_spec (i i' : Instr) (d : Word) (h : i.setDestination d = .ok i') :
    i.patchable = some (.imm emptyLabel) ∧ i' = i.withDest (.imm d) := by
  unfold Instr.setDestination at h
  split at h
  · rename_i w hp
    by_cases hw : w = emptyLabel
    · rw [if_pos hw] at h; cases h; exact ⟨by rw [hp, hw], rfl⟩
    · rw [if_neg hw] at h; cases h
  · cases h

/-! ## C50: which instructions the builder takes -/

/-- C50, for all instructions but arithmetic with three operands: an instruction is taken if and only if it does not
overwrite a register it has to spare; otherwise an exception is thrown. -/
theorem C50_accepted_partial (b : Builder) {i : Instr} (h : ∀ op k d r v, i = .bin op k d r v → d = r) :
    ((∃ x, b.add i = .ok x) ↔ ∀ r, i.overwrites = some (.val (.reg r)) → r ∉ i.spared) ∧
    ((∃ r ∈ i.spared, i.overwrites = some (.val (.reg r))) ↔ b.add i = .error (.exn .runtimeError)) := by
  have hv : i.valid = true ↔ ∀ r, i.overwrites = some (.val (.reg r)) → r ∉ i.spared := by
    cases i with
    | bin op risc d r v =>
      have : d = r := h _ _ _ _ _ rfl
      subst this
      simp only [Instr.valid, Instr.overwrites, Instr.spared, Option.some.injEq, Operand.val.injEq, RegExpr.reg.injEq, forall_eq']
      cases d <;> simp [Reg.isSpecial]
    | un op d =>
      simp only [Instr.valid, Instr.overwrites, Instr.spared, Option.some.injEq, Operand.val.injEq, RegExpr.reg.injEq, forall_eq']
      cases d <;> simp [Reg.isSpecial]
    | lea d m =>
      simp only [Instr.valid, Instr.overwrites, Instr.spared, Option.some.injEq, Operand.val.injEq, RegExpr.reg.injEq, forall_eq']
      cases d <;> simp [Reg.isSpecial]
    | pop d =>
      simp only [Instr.valid, Instr.overwrites, Instr.spared, Option.some.injEq, Operand.val.injEq, RegExpr.reg.injEq, forall_eq']
      cases d <;> simp
    | mov d v =>
      cases d with
      | val e =>
        cases e with
        | reg r =>
          simp only [Instr.valid, Instr.overwrites, Instr.spared, Option.some.injEq, Operand.val.injEq, RegExpr.reg.injEq, forall_eq']
          cases r <;> simp [Reg.isSpecial]
        | _ => simp [Instr.valid, Instr.overwrites]
      | _ => simp [Instr.valid, Instr.overwrites]
    | _ => simp [Instr.valid, Instr.overwrites, Instr.spared]
  have he : (∃ r ∈ i.spared, i.overwrites = some (.val (.reg r))) ↔ ¬ i.valid = true := by
    rw [hv]; constructor
    · rintro ⟨r, h1, h2⟩ h3; exact h3 r h2 h1
    · intro h3
      exact Classical.byContradiction fun hc => h3 fun r h1 h2 => hc ⟨r, h2, h1⟩
  constructor
  · rw [← hv]; unfold add
    by_cases hx : i.valid = true
    · simp [hx]
    · simp [hx]
  · rw [he]; unfold add
    by_cases hx : i.valid = true
    · simp [hx]
    · simp [hx]

/-- Both sides of the equivalence occur. -/
example : (Instr.pop .flags).overwrites = some (.val (.reg .flags)) ∧ .flags ∉ (Instr.pop .flags).spared ∧
    (Instr.lea .bp (.mem (.regImm .bp 1))).overwrites = some (.val (.reg .bp)) ∧
    .bp ∈ (Instr.lea .bp (.mem (.regImm .bp 1))).spared := by decide

/-- C50 fails for arithmetic with three operands: the source is checked instead of the destination. `ADD IP, R0, 1` is taken,
`ADD R0, IP, 1` is not. -/
theorem C50_three_operands (b : Builder) :
    (∃ x, b.add (.bin .add true .pc (.gp 0) (.imm 1)) = .ok x) ∧
    b.add (.bin .add true (.gp 0) .pc (.imm 1)) = .error (.exn .runtimeError) := ⟨⟨_, rfl⟩, rfl⟩

end Builder

open Builder in
/-- C45: the label returned for an instruction is its position in the built program, whatever calls come before and after;
the instruction there is the one that was added, with the destination of the patches of this label (if there are any). -/
theorem C45_label (b₀ b : Builder) (pre post : List BuildCall) (i : Instr) (ns : List Nat)
    (h : b₀.calls (pre ++ .add i :: post) = .ok (b, ns)) :
    ∃ n, ns[pre.length]? = some n ∧
      ∃ i', b.items[n]? = some (.ins i') ∧
        (i' = i ∨ ∃ l d, BuildCall.patch l d ∈ post ∧ l.toNat = n ∧ i' = i.withDest (.imm d)) := by
  induction pre generalizing b₀ ns with
  | cons k pre ih =>
    obtain ⟨b1, n, ns', h1, h2, rfl⟩ := calls_cons _ _ _ _ _ h
    obtain ⟨m, hm, hx⟩ := ih b1 ns' h2
    exact ⟨m, by simpa using hm, hx⟩
  | nil =>
    obtain ⟨b1, n, ns', h1, h2, rfl⟩ := calls_cons _ _ _ _ _ h
    have hs := call_spec _ _ _ _ h1
    obtain ⟨hn, hit⟩ : n = b₀.items.length ∧ b1.items = b₀.items ++ [.ins i] := hs.2.2.2
    refine ⟨n, rfl, ?_⟩
    have h0 : b1.items[n]? = some (.ins i) := by rw [hit, hn]; simp
    clear h1 hs hn hit h
    -- later calls keep the instruction, up to patches
    have key : ∀ (post : List BuildCall) (b1 : Builder) (ns' : List Nat) (j : Instr), b1.items[n]? = some (.ins j) →
        b1.calls post = .ok (b, ns') →
        ∃ i', b.items[n]? = some (.ins i') ∧
          (i' = j ∨ ∃ l d, BuildCall.patch l d ∈ post ∧ l.toNat = n ∧ i' = j.withDest (.imm d)) := by
      intro post
      induction post with
      | nil =>
        intro b1 ns' j hj hc
        simp only [calls] at hc
        cases hc
        exact ⟨j, hj, Or.inl rfl⟩
      | cons k post ih =>
        intro b1 ns' j hj hc
        obtain ⟨b2, n2, ns2, e1, e2, rfl⟩ := calls_cons _ _ _ _ _ hc
        have hs := (call_spec _ _ _ _ e1).2.2.2
        have hlt : n < b1.items.length := by
          rw [List.getElem?_eq_some_iff] at hj
          exact hj.1
        have step : b2.items[n]? = some (.ins j) ∨ ∃ l d, k = .patch l d ∧ l.toNat = n ∧
            b2.items[n]? = some (.ins (j.withDest (.imm d))) := by
          cases k with
          | add a => left; rw [hs.2, List.getElem?_append_left hlt, hj]
          | addDbg =>
            left; rw [hs.2]
            cases b1.release
            · rw [if_neg (by simp), List.getElem?_append_left hlt, hj]
            · rw [if_pos rfl, hj]
          | currentLabel => left; rw [hs.2, hj]
          | addData v => left; rw [hs, hj]
          | addFill v m => left; rw [hs, hj]
          | addString s => left; rw [hs, hj]
          | patch l d =>
            obtain ⟨a, a', g1, g2, g3⟩ := hs
            by_cases hl : l.toNat = n
            · right
              refine ⟨l, d, rfl, hl, ?_⟩
              rw [hl] at g1 g3
              rw [hj] at g1
              cases g1
              rw [g3, List.getElem?_set_self hlt, (setDestination_spec _ _ _ g2).2]
            · left; rw [g3, List.getElem?_set_ne hl, hj]
        rcases step with hk | ⟨l, d, rfl, hl, hk⟩
        · obtain ⟨i', r1, r2⟩ := ih b2 ns2 j hk e2
          refine ⟨i', r1, r2.imp_right ?_⟩
          rintro ⟨l, d, hm, hl, e⟩
          exact ⟨l, d, by simp [hm], hl, e⟩
        · obtain ⟨i', r1, r2⟩ := ih b2 ns2 _ hk e2
          refine ⟨i', r1, Or.inr ?_⟩
          rcases r2 with r2 | ⟨l', d', hm, hl', e⟩
          · exact ⟨l, d, by simp, hl, r2⟩
          · exact ⟨l', d', by simp [hm], hl', by rw [e, withDest_twice]⟩
    exact key post b1 ns' i h0 h2

open Builder in
/-- C45: a label taken before an instruction is added names that instruction. -/
theorem C45_current_label (b b' : Builder) (i : Instr) (ns : List Nat)
    (h : b.calls [.currentLabel, .add i] = .ok (b', ns)) :
    ∃ n, ns = [n, n] ∧ b'.items[n]? = some (.ins i) := by
  obtain ⟨b1, n, ns', h1, h2, rfl⟩ := calls_cons _ _ _ _ _ h
  obtain ⟨b2, m, ns2, h3, h4, rfl⟩ := calls_cons _ _ _ _ _ h2
  simp only [calls] at h4
  cases h4
  obtain ⟨e1, e2⟩ : n = b.items.length ∧ b1.items = b.items := (call_spec _ _ _ _ h1).2.2.2
  obtain ⟨e3, e4⟩ : m = b1.items.length ∧ b'.items = b1.items ++ [.ins i] := (call_spec _ _ _ _ h3).2.2.2
  refine ⟨n, by rw [e3, e2, ← e1], ?_⟩
  rw [e4, e1, e2]; simp

open Builder in
/-- C45: patching succeeds exactly on jumps whose destination is the empty label, gives that jump the new destination and
changes nothing else. -/
theorem C45_patch (b : Builder) (l d : Word) :
    (∀ i, b.items[l.toNat]? = some (.ins i) → i.patchable = some (.imm emptyLabel) →
      ∃ b', b.patch l d = .ok b' ∧ b'.data = b.data ∧ b'.items.length = b.items.length ∧
        b'.items[l.toNat]? = some (.ins (i.withDest (.imm d))) ∧ (i.withDest (.imm d)).patchable = some (.imm d) ∧
        ∀ n, n ≠ l.toNat → b'.items[n]? = b.items[n]?) ∧
    ((¬ ∃ i, b.items[l.toNat]? = some (.ins i) ∧ i.patchable = some (.imm emptyLabel)) → ∃ e, b.patch l d = .error e) := by
  constructor
  · intro i hi hp
    have hs : i.setDestination d = .ok (i.withDest (.imm d)) := by
      unfold Instr.setDestination; rw [hp]; simp
    refine ⟨{ b with items := b.items.set l.toNat (.ins (i.withDest (.imm d))) }, ?_, rfl, by simp, ?_,
      withDest_patchable i _ _ hp, ?_⟩
    · unfold patch; rw [hi]; simp only; rw [hs]; rfl
    · have : l.toNat < b.items.length := by rw [List.getElem?_eq_some_iff] at hi; exact hi.1
      simp [List.getElem?_set_self this]
    · intro n hn; simp [List.getElem?_set_ne (Ne.symm hn)]
  · intro hno
    unfold patch
    cases hi : b.items[l.toNat]? with
    | none => exact ⟨_, rfl⟩
    | some x =>
      cases x with
      | dbg => exact ⟨_, rfl⟩
      | ins i =>
        simp only
        cases hs : i.setDestination d with
        | error e => exact ⟨e, rfl⟩
        | ok i' => exact absurd ⟨i, hi, (setDestination_spec _ _ _ hs).1⟩ hno

open Builder in
/-- The cells some data call puts into the data segment (a string: its characters, then 0). -/
theorem C45_data_label (b₀ b : Builder) (pre post : List BuildCall) (k : BuildCall) (ns : List Nat)
    (h : b₀.calls (pre ++ k :: post) = .ok (b, ns)) (hk : cells k ≠ []) :
    ∃ n, ns[pre.length]? = some n ∧ ∃ before after, b.data = before ++ cells k ++ after ∧ before.length = n := by
  induction pre generalizing b₀ ns with
  | cons q pre ih =>
    obtain ⟨b1, n, ns', h1, h2, rfl⟩ := calls_cons _ _ _ _ _ h
    obtain ⟨m, hm, hx⟩ := ih b1 ns' h2
    exact ⟨m, by simpa using hm, hx⟩
  | nil =>
    obtain ⟨b1, n, ns', h1, h2, rfl⟩ := calls_cons _ _ _ _ _ h
    have hs := call_spec _ _ _ _ h1
    refine ⟨n, rfl, b₀.data, ?_⟩
    have key : ∀ (post : List BuildCall) (b1 : Builder) (ns' : List Nat), b1.calls post = .ok (b, ns') →
        ∃ after, b.data = b1.data ++ after := by
      intro post
      induction post with
      | nil => intro b1 ns' hc; simp only [calls] at hc; cases hc; exact ⟨[], by simp⟩
      | cons q post ih =>
        intro b1 ns' hc
        obtain ⟨b2, n2, ns2, e1, e2, rfl⟩ := calls_cons _ _ _ _ _ hc
        obtain ⟨r, hr⟩ := ih b2 ns2 e2
        exact ⟨cells q ++ r, by rw [hr, (call_spec _ _ _ _ e1).2.1, List.append_assoc]⟩
    obtain ⟨r, hr⟩ := key post b1 ns' h2
    exact ⟨r, by rw [hr, hs.2.1], (hs.2.2.1 hk).symm⟩

/-! Instances: a forward jump that is patched, with data. -/

open Builder in
example : (⟨[], [], false⟩ : Builder).calls
    [.addString [65], .add (.jmp (.imm emptyLabel)), .add .nop, .currentLabel, .add .halt, .patch 0 2, .addFill 7 2] =
    .ok (⟨[.ins (.jmp (.imm 2)), .ins .nop, .ins .halt], [65, 0, 7, 7], false⟩, [0, 0, 1, 2, 2, 0, 2]) := by
  rfl

end T86
