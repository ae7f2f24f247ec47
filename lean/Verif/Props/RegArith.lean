import Mathlib.Data.BitVec
import Mathlib.Tactic.Ring
import Verif.Model.RegArith
import Verif.Spec.Isa

/-! # Operands written as expressions over registers (C75) -/

namespace T86
open RegArith

/-- The value of a descriptor. -/
def RegArith.Built.value (get : Reg → Word) : Built → Word
  | .expr (.reg r) => get r
  | .expr (.regImm r i) => get r + i
  | .expr (.regReg r1 r2) => get r1 + get r2
  | .expr (.regScaled r k) => get r * k
  | .expr (.regImmReg r1 i r2) => get r1 + i + get r2
  | .expr (.regRegScaled r1 r2 k) => get r1 + get r2 * k
  | .expr (.regImmRegScaled r1 i r2 k) => get r1 + i + get r2 * k
  | .scaledOffset r k i => get r * k + i

/-- The descriptor has no number that is added. -/
def RegArith.Built.bare : Built → Bool
  | .expr (.reg _) | .expr (.regReg _ _) | .expr (.regScaled _ _) | .expr (.regRegScaled _ _ _) => true
  | _ => false

theorem ea_value (get : LReg → Word) (e : RegExpr) : Isa.ea get e = (Built.expr e).value fun r => get (.int r) := by
  cases e <;> rfl

theorem add_value {get : Reg → Word} {x y z : Built} (h : add x y = some z) :
    z.value get = x.value get + y.value get ∧ (x.bare = true → y.bare = true → z.bare = true) := by
  unfold add at h
  split at h <;> cases h <;> refine ⟨?_, by simp [Built.bare]⟩ <;> simp only [Built.value] <;> ring

theorem negate_ok {mode : Mode} {n m : Word} (h : negate mode n = .ok m) : m = -n := by
  unfold negate at h
  split at h <;> cases h
  rfl

theorem sub_value {mode : Mode} {get : Reg → Word} {x y z : Built} (h : sub mode x y = some (.ok z)) :
    z.value get = x.value get - y.value get ∧ (x.bare = true → y.bare = true → z.bare = true) := by
  unfold sub at h
  split at h
  · cases h; refine ⟨?_, by simp [Built.bare]⟩; simp only [Built.value]; ring
  · next r s k =>
    simp only [Option.some.injEq] at h
    cases hn : negate mode k with
    | error e => rw [hn] at h; cases h
    | ok m =>
      rw [hn] at h; cases h
      have := negate_ok hn
      refine ⟨?_, by simp [Built.bare]⟩
      simp only [Built.value, this]; ring
  · cases h; refine ⟨?_, by simp [Built.bare]⟩; simp only [Built.value]; ring
  · next r n s k =>
    simp only [Option.some.injEq] at h
    cases hn : negate mode k with
    | error e => rw [hn] at h; cases h
    | ok m =>
      rw [hn] at h; cases h
      have := negate_ok hn
      refine ⟨?_, by simp [Built.bare]⟩
      simp only [Built.value, this]; ring
  · cases h

theorem addNum_value {get : Reg → Word} {x z : Built} {n : Word} (hb : x.bare = true) (h : addNum x n = some z) :
    z.value get = x.value get + n := by
  unfold addNum at h
  split at h <;> cases h <;> first | (cases hb; done) | (simp only [Built.value]; done) | (simp only [Built.value]; ring)

theorem subNum_value {mode : Mode} {get : Reg → Word} {x z : Built} {n : Word} (hb : x.bare = true) (h : subNum mode x n = some (.ok z)) :
    z.value get = x.value get - n := by
  have key : ∀ {f : Word → Built}, (∀ m, m = -n → (f m).value get = x.value get - n) →
      (some (negate mode n >>= fun m => pure (f m)) : Option (Res Built)) = some (.ok z) → z.value get = x.value get - n := by
    intro f hf he
    cases hn : negate mode n with
    | error e => rw [hn] at he; cases he
    | ok m => rw [hn] at he; cases he; exact hf m (negate_ok hn)
  unfold subNum at h
  split at h
  · exact key (f := fun m => .expr (.regImm _ m)) (fun m hm => by simp only [Built.value, hm]; ring) h
  · exact key (f := fun m => .expr (.regImmReg _ m _)) (fun m hm => by simp only [Built.value, hm]; ring) h
  · exact key (f := fun m => .scaledOffset _ _ m) (fun m hm => by simp only [Built.value, hm]; ring) h
  · exact key (f := fun m => .expr (.regImmRegScaled _ m _ _)) (fun m hm => by simp only [Built.value, hm]; ring) h
  · cases hb
  · cases h

theorem build_value {mode : Mode} {get : Reg → Word} : ∀ {t : Term} {x : Built}, t.Proper → build mode t = some (.ok x) →
    x.value get = t.value get ∧ (t.hasNum = false → x.bare = true)
  | .reg r, x, _, h => by cases h; exact ⟨rfl, fun _ => rfl⟩
  | .plus a b, x, hp, h => by
    simp only [build] at h
    split at h
    · next y z hy hz =>
      obtain ⟨h1, h2⟩ := build_value (get := get) hp.1 hy
      obtain ⟨h3, h4⟩ := build_value (get := get) hp.2 hz
      cases ha : add y z with
      | none => rw [ha] at h; cases h
      | some w =>
        rw [ha] at h; cases h
        obtain ⟨h5, h6⟩ := add_value (get := get) ha
        refine ⟨by rw [h5, h1, h3]; rfl, fun hn => ?_⟩
        simp only [Term.hasNum, Bool.or_eq_false_iff] at hn
        exact h6 (h2 hn.1) (h4 hn.2)
    · cases h
    · cases h
    · cases h
  | .minus a b, x, hp, h => by
    simp only [build] at h
    split at h
    · next y z hy hz =>
      obtain ⟨h1, h2⟩ := build_value (get := get) hp.1 hy
      obtain ⟨h3, h4⟩ := build_value (get := get) hp.2 hz
      obtain ⟨h5, h6⟩ := sub_value (get := get) h
      refine ⟨by rw [h5, h1, h3]; rfl, fun hn => ?_⟩
      simp only [Term.hasNum, Bool.or_eq_false_iff] at hn
      exact h6 (h2 hn.1) (h4 hn.2)
    · cases h
    · cases h
    · cases h
  | .plusNum a n, x, hp, h => by
    simp only [build] at h
    split at h
    · next y hy =>
      obtain ⟨h1, h2⟩ := build_value (get := get) hp.1 hy
      cases ha : addNum y n with
      | none => rw [ha] at h; cases h
      | some w =>
        rw [ha] at h; cases h
        exact ⟨by rw [addNum_value (h2 hp.2) ha, h1]; rfl, fun hn => by cases hn⟩
    · cases h
    · cases h
  | .minusNum a n, x, hp, h => by
    simp only [build] at h
    split at h
    · next y hy =>
      obtain ⟨h1, h2⟩ := build_value (get := get) hp.1 hy
      exact ⟨by rw [subNum_value (h2 hp.2) h, h1]; rfl, fun hn => by cases hn⟩
    · cases h
    · cases h
  | .timesNum a n, x, hp, h => by
    obtain ⟨r, rfl⟩ := hp
    cases h
    exact ⟨rfl, fun _ => rfl⟩

/-- C75: an operand written as an expression over registers has the value of the expression, in 64-bit arithmetic, whatever is in the registers.
What is missing: a second number that is added, which is taken for the number of a register (`C75_second_number`), and the product of a sum, of
which only the last register is multiplied (`C75_product_of_sum`). -/
theorem C75_value_partial {mode : Mode} {t : Term} {e : RegExpr} (ht : t.Proper) (h : build mode t = some (.ok (.expr e))) (s : Isa.State) :
    s.operand (.val e) = .ok (t.value fun r => s.get (.int r)) ∧ s.operand (.mem e) = s.load (t.value fun r => s.get (.int r)) := by
  have := (build_value (get := fun r => s.get (.int r)) ht h).1
  rw [← ea_value] at this
  exact ⟨by rw [Isa.State.operand, this], by rw [Isa.State.operand, this]⟩

/-- What negating a number and going on can come to. -/
theorem negate_bind {mode : Mode} {n : Word} {f : Word → Built} {x : Res Built}
    (h : (some (negate mode n >>= fun m => pure (f m)) : Option (Res Built)) = some x) :
    (mode = .strict ∧ n = 0x8000000000000000 ∧ x = .error .ub) ∨ x = .ok (f (-n)) := by
  cases hn : negate mode n with
  | error e =>
    rw [hn] at h; cases h
    unfold negate at hn
    split at hn
    · next hc => cases hn; exact .inl ⟨hc.1, hc.2, rfl⟩
    · cases hn
  | ok m => rw [hn] at h; cases h; rw [negate_ok hn]; exact .inr rfl

theorem sub_other {mode : Mode} {x y : Built} {r : Reg} {k : Word} : sub mode x y ≠ some (.ok (.expr (.regScaled r k))) := by
  intro h
  unfold sub at h
  split at h
  · cases h
  · rcases negate_bind (f := fun m => .expr (.regRegScaled _ _ m)) h with ⟨_, _, h⟩ | h <;> cases h
  · cases h
  · rcases negate_bind (f := fun m => .expr (.regImmRegScaled _ _ _ m)) h with ⟨_, _, h⟩ | h <;> cases h
  · cases h

theorem subNum_error {mode : Mode} {x : Built} {n : Word} {z : Res Built} (h : subNum mode x n = some z) :
    (mode = .strict ∧ n = 0x8000000000000000 ∧ z = .error .ub) ∨ ∃ w, z = .ok w ∧ ∀ r k, w ≠ .expr (.regScaled r k) := by
  unfold subNum at h
  split at h
  · rcases negate_bind (f := fun m => .expr (.regImm _ m)) h with h | h
    · exact .inl h
    · exact .inr ⟨_, h, fun _ _ h => by cases h⟩
  · rcases negate_bind (f := fun m => .expr (.regImmReg _ m _)) h with h | h
    · exact .inl h
    · exact .inr ⟨_, h, fun _ _ h => by cases h⟩
  · rcases negate_bind (f := fun m => .scaledOffset _ _ m) h with h | h
    · exact .inl h
    · exact .inr ⟨_, h, fun _ _ h => by cases h⟩
  · rcases negate_bind (f := fun m => .expr (.regImmRegScaled _ m _ _)) h with h | h
    · exact .inl h
    · exact .inr ⟨_, h, fun _ _ h => by cases h⟩
  · cases h; exact .inr ⟨_, rfl, fun _ _ h => by cases h⟩
  · cases h

theorem sub_error {mode : Mode} {x y : Built} {f : Fault} (h : sub mode x y = some (.error f)) :
    f = .ub ∧ mode = .strict ∧ ∃ r, y = .expr (.regScaled r 0x8000000000000000) := by
  unfold sub at h
  split at h
  · cases h
  · rcases negate_bind (f := fun m => .expr (.regRegScaled _ _ m)) h with ⟨h1, h2, h⟩ | h <;> cases h
    exact ⟨rfl, h1, _, by rw [h2]⟩
  · cases h
  · rcases negate_bind (f := fun m => .expr (.regImmRegScaled _ _ _ m)) h with ⟨h1, h2, h⟩ | h <;> cases h
    exact ⟨rfl, h1, _, by rw [h2]⟩
  · cases h

theorem build_scaled {mode : Mode} {t : Term} {r : Reg} {k : Word} (h : build mode t = some (.ok (.expr (.regScaled r k)))) :
    t.mentions k = true := by
  cases t with
  | reg r => cases h
  | plus a b =>
    simp only [build] at h
    split at h <;> try cases h
    next y z _ _ =>
    cases ha : add y z with
    | none => rw [ha] at h; cases h
    | some w =>
      rw [ha] at h
      unfold add at ha
      split at ha <;> cases ha <;> cases h
  | minus a b =>
    simp only [build] at h
    split at h <;> first | (cases h; done) | exact absurd h sub_other
  | plusNum a n =>
    simp only [build] at h
    split at h <;> try cases h
    next y _ =>
    cases ha : addNum y n with
    | none => rw [ha] at h; cases h
    | some w =>
      rw [ha] at h
      unfold addNum at ha
      split at ha <;> cases ha <;> cases h
  | minusNum a n =>
    simp only [build] at h
    split at h
    · rcases subNum_error h with ⟨_, _, h⟩ | ⟨w, h, h'⟩
      · cases h
      · cases h; exact absurd rfl (h' _ _)
    · cases h
    · cases h
  | timesNum a n =>
    simp only [build] at h
    split at h <;> try cases h
    next y hy =>
    cases ha : mulNum y n with
    | none => rw [ha] at h; cases h
    | some w =>
      rw [ha] at h
      unfold mulNum at ha
      split at ha <;> cases ha <;> cases h
      simp [Term.mentions]

/-- C75: making the operand is undefined behaviour only if the least 64-bit number occurs in the expression (which is to be negated), and never
if overflow is defined. -/
theorem C75_defined {mode : Mode} : ∀ {t : Term} {f : Fault}, build mode t = some (.error f) →
    f = .ub ∧ mode = .strict ∧ t.mentions 0x8000000000000000 = true
  | .reg _, _, h => by cases h
  | .plus a b, f, h => by
    simp only [build] at h
    split at h
    · next y z _ _ => cases ha : add y z <;> rw [ha] at h <;> cases h
    · next hy _ => cases h; obtain ⟨h1, h2, h3⟩ := C75_defined hy; exact ⟨h1, h2, by simp only [Term.mentions, h3, Bool.true_or, Bool.or_true]⟩
    · next hy => cases h; obtain ⟨h1, h2, h3⟩ := C75_defined hy; exact ⟨h1, h2, by simp only [Term.mentions, h3, Bool.true_or, Bool.or_true]⟩
    · cases h
  | .minus a b, f, h => by
    simp only [build] at h
    split at h
    · next y z hy hz =>
      obtain ⟨h1, h2, r, rfl⟩ := sub_error h
      exact ⟨h1, h2, by simp only [Term.mentions, build_scaled hz, Bool.or_true]⟩
    · next hy _ => cases h; obtain ⟨h1, h2, h3⟩ := C75_defined hy; exact ⟨h1, h2, by simp only [Term.mentions, h3, Bool.true_or, Bool.or_true]⟩
    · next hy => cases h; obtain ⟨h1, h2, h3⟩ := C75_defined hy; exact ⟨h1, h2, by simp only [Term.mentions, h3, Bool.true_or, Bool.or_true]⟩
    · cases h
  | .plusNum a n, f, h => by
    simp only [build] at h
    split at h
    · next y _ => cases ha : addNum y n <;> rw [ha] at h <;> cases h
    · next hy => cases h; obtain ⟨h1, h2, h3⟩ := C75_defined hy; exact ⟨h1, h2, by simp only [Term.mentions, h3, Bool.true_or, Bool.or_true]⟩
    · cases h
  | .minusNum a n, f, h => by
    simp only [build] at h
    split at h
    · rcases subNum_error h with ⟨h1, h2, h⟩ | ⟨w, h, _⟩
      · cases h; exact ⟨rfl, h1, by simp [Term.mentions, h2]⟩
      · cases h
    · next hy => cases h; obtain ⟨h1, h2, h3⟩ := C75_defined hy; exact ⟨h1, h2, by simp only [Term.mentions, h3, Bool.true_or, Bool.or_true]⟩
    · cases h
  | .timesNum a n, f, h => by
    simp only [build] at h
    split at h
    · next y _ => cases ha : mulNum y n <;> rw [ha] at h <;> cases h
    · next hy => cases h; obtain ⟨h1, h2, h3⟩ := C75_defined hy; exact ⟨h1, h2, by simp only [Term.mentions, h3, Bool.true_or, Bool.or_true]⟩
    · cases h

/-- C75: every form of operand can be written. -/
theorem C75_forms (mode : Mode) (e : RegExpr) : ∃ t : Term, t.Proper ∧ build mode t = some (.ok (.expr e)) := by
  cases e with
  | reg r => exact ⟨.reg r, trivial, rfl⟩
  | regImm r n => exact ⟨.plusNum (.reg r) n, ⟨trivial, rfl⟩, rfl⟩
  | regReg r s => exact ⟨.plus (.reg r) (.reg s), ⟨trivial, trivial⟩, rfl⟩
  | regScaled r k => exact ⟨.timesNum (.reg r) k, ⟨r, rfl⟩, rfl⟩
  | regImmReg r n s => exact ⟨.plus (.plusNum (.reg r) n) (.reg s), ⟨⟨trivial, rfl⟩, trivial⟩, rfl⟩
  | regRegScaled r s k => exact ⟨.plus (.reg r) (.timesNum (.reg s) k), ⟨trivial, s, rfl⟩, rfl⟩
  | regImmRegScaled r n s k => exact ⟨.plus (.plusNum (.reg r) n) (.timesNum (.reg s) k), ⟨⟨trivial, rfl⟩, s, rfl⟩, rfl⟩

/-- C75 fails for a second number: `BP + 1 + 2` is taken for `BP + 1 + R2`. -/
theorem C75_second_number (mode : Mode) :
    build mode (.plusNum (.plusNum (.reg .bp) 1) 2) = some (.ok (.expr (.regImmReg .bp 1 (.gp 2)))) ∧
    (Built.expr (.regImmReg .bp 1 (.gp 2))).value (fun r => if r = .bp then 100 else 7) = 108 ∧
    (Term.plusNum (.plusNum (.reg .bp) 1) 2).value (fun r => if r = .bp then 100 else 7) = 103 := by
  refine ⟨?_, by decide, by decide⟩
  cases mode <;> decide

/-- C75 fails for the product of a sum: `(R1 + R2) * 4` is taken for `R1 + R2 * 4`. -/
theorem C75_product_of_sum (mode : Mode) :
    build mode (.timesNum (.plus (.reg (.gp 1)) (.reg (.gp 2))) 4) = some (.ok (.expr (.regRegScaled (.gp 1) (.gp 2) 4))) ∧
    (Built.expr (.regRegScaled (.gp 1) (.gp 2) 4)).value (fun _ => 1) = 5 ∧
    (Term.timesNum (.plus (.reg (.gp 1)) (.reg (.gp 2))) 4).value (fun _ => 1) = 8 := by
  refine ⟨?_, by decide, by decide⟩
  cases mode <;> decide

/-- What a second number is taken for, whatever the register and the numbers are: for the register with that number, where -1, -2, -3 and
-4 are the program counter, the stack pointer, the base pointer and the flags. -/
theorem C75_second_number_all (mode : Mode) (r q : Reg) (k m n : Word)
    (hq : (q = .pc ∧ n = -1) ∨ (q = .sp ∧ n = -2) ∨ (q = .bp ∧ n = -3) ∨ (q = .flags ∧ n = -4) ∨
      (q = .gp n.toNat ∧ n.toNat < 2 ^ 64 - 4)) :
    build mode (.plusNum (.plusNum (.reg r) m) n) = some (.ok (.expr (.regImmReg r m q))) ∧
    build mode (.minusNum (.plusNum (.reg r) m) n) = some (.ok (.expr (.regImmRegScaled r m q (-1)))) ∧
    build mode (.plusNum (.plusNum (.timesNum (.reg r) k) m) n) = some (.ok (.expr (.regImmRegScaled q m r k))) := by
  have hk : ofIndex n = q := by
    rcases hq with ⟨rfl, rfl⟩ | ⟨rfl, rfl⟩ | ⟨rfl, rfl⟩ | ⟨rfl, rfl⟩ | ⟨rfl, h⟩
    · rfl
    · rfl
    · rfl
    · rfl
    · have e : ∀ w : Word, 2 ^ 64 - 4 ≤ w.toNat → n ≠ w := by rintro w hw rfl; omega
      unfold ofIndex
      rw [if_neg (e _ (by decide)), if_neg (e _ (by decide)), if_neg (e _ (by decide)), if_neg (e _ (by decide))]
  subst hk
  exact ⟨rfl, rfl, rfl⟩

/-- What the product of a sum is taken for, whatever the registers and the numbers are. -/
theorem C75_product_all (mode : Mode) (r q : Reg) (m n : Word) :
    build mode (.timesNum (.plus (.reg r) (.reg q)) n) = some (.ok (.expr (.regRegScaled r q n))) ∧
    build mode (.timesNum (.plus (.plusNum (.reg r) m) (.reg q)) n) = some (.ok (.expr (.regImmRegScaled r m q n))) :=
  ⟨rfl, rfl⟩

/-- `R1 * 8 - 3 + BP`, `BP - 3`, `R1 + 2 - R2 * 4`. -/
example : build .strict (.plus (.minusNum (.timesNum (.reg (.gp 1)) 8) 3) (.reg .bp)) = some (.ok (.expr (.regImmRegScaled .bp (-3) (.gp 1) 8))) ∧
    build .strict (.minusNum (.reg .bp) 3) = some (.ok (.expr (.regImm .bp (-3)))) ∧
    build .strict (.minus (.plusNum (.reg (.gp 1)) 2) (.timesNum (.reg (.gp 2)) 4)) = some (.ok (.expr (.regImmRegScaled (.gp 1) 2 (.gp 2) (-4)))) ∧
    (Term.plus (.minusNum (.timesNum (.reg (.gp 1)) 8) 3) (.reg .bp)).Proper ∧
    build .strict (.minusNum (.reg .bp) 0x8000000000000000) = some (.error .ub) :=
  ⟨by decide, by decide, by decide, ⟨⟨⟨_, rfl⟩, rfl⟩, trivial⟩, by decide⟩

end T86
