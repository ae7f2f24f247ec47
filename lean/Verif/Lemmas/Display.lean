import Verif.Spec.Display
import Verif.Props.SourceEval
import Verif.Lemmas.RegMap

/-! Lemmas about the texts of numbers, types and values. -/

namespace T86
open Dbg Str Native Isa Ex

/-! ## Numbers -/

theorem natLoop_digits : ∀ (f n : Nat), n < f → natLoop f n = Nat.toDigits 10 n := by
  intro f
  induction f with
  | zero => intro n h; omega
  | succ f ih =>
    intro n h
    unfold natLoop
    have hc : ∀ k, k < 10 → Char.ofNat (48 + k) = Nat.digitChar k := by decide
    split
    · rw [Nat.toDigits_of_lt_base (by assumption), hc _ (by assumption)]
    · rw [Nat.toDigits_of_base_le (by omega) (by omega), ih _ (by omega), hc _ (by omega)]

theorem ofNat_digits (n : Nat) : ofNat n = Nat.toDigits 10 n := natLoop_digits _ _ (Nat.lt_succ_self n)

theorem ofInt_decimal (n : Int) : ofInt n = decimal n := by
  unfold ofInt decimal; rw [ofNat_digits]

theorem ofNat_decimal (n : Nat) : ofNat n = decimal n := by
  unfold decimal
  rw [if_neg (by omega), ofNat_digits]
  rfl

/-- What follows a value. -/
def NumEnd (r : Str) : Prop := ∀ c ∈ r.head?, isDigit c = false

theorem digits_split {a b r r' : Str} (ha : ∀ c ∈ a, isDigit c = true) (hb : ∀ c ∈ b, isDigit c = true) (hr : NumEnd r) (hr' : NumEnd r')
    (h : a ++ r = b ++ r') : a = b ∧ r = r' := by
  have k : ∀ {x y : Str}, (∀ c ∈ x, isDigit c = true) → NumEnd y → (x ++ y).takeWhile isDigit = x := by
    intro x y hx hy
    rw [List.takeWhile_append_of_pos hx]
    cases y with
    | nil => simp
    | cons c y => rw [List.takeWhile_cons, if_neg (by rw [hy c rfl]; simp)]; simp
  have e : a = b := by rw [← k ha hr, h, k hb hr']
  subst e
  exact ⟨rfl, List.append_cancel_left h⟩

theorem decimal_split {a b : Int} {r r' : Str} (hr : NumEnd r) (hr' : NumEnd r') (h : decimal a ++ r = decimal b ++ r') : a = b ∧ r = r' := by
  have hd : ∀ n : Nat, ∀ c ∈ Nat.toDigits 10 n, isDigit c = true := fun n c hc => ofNat_isDigit n c (by rw [ofNat_digits]; exact hc)
  have hm : ∀ n : Nat, ∀ x y, '-' :: x ≠ Nat.toDigits 10 n ++ y := by
    intro n x y e
    have h1 : ∀ c ∈ (Nat.toDigits 10 n ++ y).head?, isDigit c = true := by
      intro c hc
      have hne := ofNat_ne_nil n
      rw [ofNat_digits] at hne
      cases hx : Nat.toDigits 10 n with
      | nil => exact absurd hx hne
      | cons z zs =>
        rw [hx] at hc
        simp at hc
        subst hc
        exact hd n z (by rw [hx]; simp)
    rw [← e] at h1
    exact absurd (h1 '-' rfl) (by decide)
  have hi : ∀ {x y : Nat}, Nat.toDigits 10 x = Nat.toDigits 10 y → x = y := by
    intro x y e
    rw [← ofNat_digits, ← ofNat_digits] at e
    exact T86.ofNat_inj e
  unfold decimal at h
  split at h <;> split at h
  · rw [List.cons_append, List.cons_append, List.cons.injEq] at h
    obtain ⟨e1, e2⟩ := digits_split (hd _) (hd _) hr hr' h.2
    have := hi e1
    exact ⟨by omega, e2⟩
  · exact absurd h (hm _ _ _)
  · exact absurd h.symm (hm _ _ _)
  · obtain ⟨e1, e2⟩ := digits_split (hd _) (hd _) hr hr' h
    have := hi e1
    exact ⟨by omega, e2⟩

/-! ## Lists of texts -/

theorem join_intercalate (j : Str) : ∀ l : List Str, join j l = List.intercalate j l
  | [] => rfl
  | [x] => by simp [join, List.intercalate]
  | x :: y :: l => by
    rw [join, join_intercalate j (y :: l)]
    simp [List.intercalate, List.intersperse]

theorem str_lt_asymm {x y : Str} (h : x < y) : ¬ y < x := List.lt_asymm h

theorem str_trans {x y z : Str} (h : x < y) (h' : y < z) : x < z := List.lt_trans h h'

theorem str_eq {x y : Str} (h : ¬ x < y) (h' : ¬ y < x) : x = y := List.le_antisymm (List.not_lt.1 h') (List.not_lt.1 h)

theorem insertKey_perm' {α : Type} (k : Str) (x : α) : ∀ l : List (Str × α), (Src.insertKey k x l).Perm ((k, x) :: l)
  | [] => List.Perm.refl _
  | p :: l => by
    unfold Src.insertKey
    split
    · exact List.Perm.refl _
    · exact ((insertKey_perm' k x l).cons p).trans (.swap _ _ _)

theorem insertKey_sorted {α : Type} (k : Str) (x : α) : ∀ {l : List (Str × α)}, (l.Pairwise fun a b => ¬ b.1 < a.1) →
    (Src.insertKey k x l).Pairwise fun a b => ¬ b.1 < a.1
  | [], _ => List.pairwise_singleton _ _
  | p :: l, h => by
    unfold Src.insertKey
    have h1 := List.pairwise_cons.1 h
    split
    · next hk =>
      refine List.pairwise_cons.2 ⟨?_, h⟩
      intro b hb hc
      rcases List.mem_cons.1 hb with rfl | hb
      · exact str_lt_asymm hk hc
      · exact h1.1 b hb (str_trans hc hk)
    · next hk =>
      refine List.pairwise_cons.2 ⟨?_, insertKey_sorted k x h1.2⟩
      intro b hb
      rcases List.mem_cons.1 ((insertKey_perm' k x l).mem_iff.1 hb) with rfl | hb
      · exact hk
      · exact h1.1 b hb

theorem foldKeys {α : Type} : ∀ (m l : List (Str × α)), (l.Pairwise fun a b => ¬ b.1 < a.1) →
    (m.foldl (fun l p => Src.insertKey p.1 p.2 l) l).Perm (m ++ l) ∧
    ((m.foldl (fun l p => Src.insertKey p.1 p.2 l) l).Pairwise fun a b => ¬ b.1 < a.1)
  | [], l, h => ⟨List.Perm.refl _, h⟩
  | p :: m, l, h => by
    obtain ⟨h1, h2⟩ := foldKeys m _ (insertKey_sorted p.1 p.2 h)
    refine ⟨h1.trans ?_, h2⟩
    refine ((insertKey_perm' p.1 p.2 l).append_left m).trans ?_
    exact List.perm_middle

/-- The members in the order of their names. -/
theorem sortKeys_eq {α : Type} {l ys : List (Str × α)} (hp : ys.Perm l) (hs : ys.Pairwise fun x y => x.1 < y.1) : Src.sortKeys l = ys := by
  obtain ⟨h1, h2⟩ := foldKeys l [] List.Pairwise.nil
  rw [List.append_nil] at h1
  refine List.Perm.eq_of_pairwise (le := fun a b => ¬ b.1 < a.1) ?_ h2 (hs.imp fun h => str_lt_asymm h) (h1.trans hp.symm)
  intro a b ha hb hab hba
  have ha' : a ∈ ys := hp.mem_iff.2 (h1.mem_iff.1 ha)
  have hk : a.1 = b.1 := str_eq hba hab
  have irr : ∀ x : Str, ¬ x < x := fun x h => str_lt_asymm h h
  clear h1 h2 hp hab hba ha
  induction hs with
  | nil => cases ha'
  | cons h1 _ ih =>
    rcases List.mem_cons.1 ha' with rfl | ha' <;> rcases List.mem_cons.1 hb with rfl | hb
    · rfl
    · have := h1 b hb; rw [hk] at this; exact absurd this (irr _)
    · next ha => have := h1 a ha; rw [hk] at this; exact absurd this (irr _)
    · exact ih hb ha'

/-! ## Types -/

/-- The types met on the way from a type to the one whose name it contains. -/
inductive TypePath (types : Types) : Ty → List Nat → Prop
  | prim {p : Prim} {sz : Word} : TypePath types (.prim p sz) []
  | struct {name : Str} {sz : Word} {ms : List Member} : TypePath types (.struct name sz ms) []
  | ptr {t : Nat} {sz : Word} {u : Ty} {ids : List Nat} (known : types.find t = some u) (rest : TypePath types u ids) :
      TypePath types (.ptr t sz) (t :: ids)
  | arr {t : Nat} {cnt : Word} {u : Ty} {ids : List Nat} (known : types.find t = some u) (rest : TypePath types u ids) :
      TypePath types (.arr t cnt) (t :: ids)
  | ptrUnknown {t : Nat} {sz : Word} (unknown : types.find t = none) : TypePath types (.ptr t sz) []
  | arrUnknown {t : Nat} {cnt : Word} (unknown : types.find t = none) : TypePath types (.arr t cnt) []

variable {types : Types}

theorem typePath_unique {ty : Ty} {a b : List Nat} (h : TypePath types ty a) : TypePath types ty b → a = b := by
  induction h generalizing b with
  | prim => intro k; cases k; rfl
  | struct => intro k; cases k; rfl
  | ptr h1 _ ih =>
    intro k
    cases k with
    | ptr h2 k => rw [h1] at h2; cases h2; rw [ih k]
    | ptrUnknown h2 => rw [h1] at h2; cases h2
  | arr h1 _ ih =>
    intro k
    cases k with
    | arr h2 k => rw [h1] at h2; cases h2; rw [ih k]
    | arrUnknown h2 => rw [h1] at h2; cases h2
  | ptrUnknown h1 =>
    intro k
    cases k with
    | ptr h2 k => rw [h1] at h2; cases h2
    | ptrUnknown h2 => rfl
  | arrUnknown h1 =>
    intro k
    cases k with
    | arr h2 k => rw [h1] at h2; cases h2
    | arrUnknown h2 => rfl

theorem typePath_mem {ty : Ty} {a : List Nat} (h : TypePath types ty a) {t : Nat} (ht : t ∈ a) :
    ∃ x y u, a = x ++ t :: y ∧ types.find t = some u ∧ TypePath types u y := by
  induction h with
  | prim => cases ht
  | struct => cases ht
  | ptrUnknown => cases ht
  | arrUnknown => cases ht
  | ptr h1 h2 ih =>
    rcases List.mem_cons.1 ht with rfl | ht
    · exact ⟨[], _, _, rfl, h1, h2⟩
    · obtain ⟨x, y, u, rfl, e1, e2⟩ := ih ht
      exact ⟨_ :: x, y, u, rfl, e1, e2⟩
  | arr h1 h2 ih =>
    rcases List.mem_cons.1 ht with rfl | ht
    · exact ⟨[], _, _, rfl, h1, h2⟩
    · obtain ⟨x, y, u, rfl, e1, e2⟩ := ih ht
      exact ⟨_ :: x, y, u, rfl, e1, e2⟩

theorem typePath_nodup {ty : Ty} {a : List Nat} (h : TypePath types ty a) : a.Nodup := by
  have key : ∀ {t : Nat} {u : Ty} {ids : List Nat}, types.find t = some u → TypePath types u ids → t ∉ ids := by
    intro t u ids h1 h2 hm
    obtain ⟨x, y, u', e, e1, e2⟩ := typePath_mem h2 hm
    rw [h1] at e1; cases e1
    have := congrArg List.length ((typePath_unique e2 h2).trans e)
    simp at this
    omega
  induction h with
  | prim => exact .nil
  | struct => exact .nil
  | ptrUnknown => exact .nil
  | arrUnknown => exact .nil
  | ptr h1 h2 ih => exact List.nodup_cons.2 ⟨key h1 h2, ih⟩
  | arr h1 h2 ih => exact List.nodup_cons.2 ⟨key h1 h2, ih⟩

theorem typePath_short {ty : Ty} {a : List Nat} (h : TypePath types ty a) : a.length ≤ types.length := by
  have hs : a ⊆ types.map Prod.fst := by
    intro t ht
    obtain ⟨_, _, u, _, e, _⟩ := typePath_mem h ht
    exact List.mem_map.2 ⟨(t, u), Map.mem_of_find e, rfl⟩
  have := (typePath_nodup h).subperm hs |>.length_le
  simpa using this

theorem typeText_path {ty : Ty} {w : Str} (h : TypeText types ty w) : ∃ ids, TypePath types ty ids ∧
    ∀ f, ids.length < f → Src.typeName types f ty = .ok w := by
  induction h with
  | float => exact ⟨[], .prim, fun f hf => by cases f with | zero => cases hf | succ f => rfl⟩
  | signed => exact ⟨[], .prim, fun f hf => by cases f with | zero => cases hf | succ f => rfl⟩
  | unsigned => exact ⟨[], .prim, fun f hf => by cases f with | zero => cases hf | succ f => rfl⟩
  | char => exact ⟨[], .prim, fun f hf => by cases f with | zero => cases hf | succ f => rfl⟩
  | struct => exact ⟨[], .struct, fun f hf => by cases f with | zero => cases hf | succ f => rfl⟩
  | ptrUnknown h => exact ⟨[], .ptrUnknown h, fun f hf => by cases f with | zero => cases hf | succ f => rw [Src.typeName]; simp only [h]⟩
  | arrUnknown h => exact ⟨[], .arrUnknown h, fun f hf => by cases f with | zero => cases hf | succ f => rw [Src.typeName]; simp only [h]⟩
  | ptr h _ ih =>
    obtain ⟨ids, h1, h2⟩ := ih
    refine ⟨_, .ptr h h1, fun f hf => ?_⟩
    cases f with
    | zero => cases hf
    | succ f => rw [Src.typeName]; simp only [h, h2 f (by simpa using hf)]; rfl
  | arr h _ ih =>
    obtain ⟨ids, h1, h2⟩ := ih
    refine ⟨_, .arr h h1, fun f hf => ?_⟩
    cases f with
    | zero => cases hf
    | succ f => rw [Src.typeName]; simp only [h, h2 f (by simpa using hf)]; rfl

theorem typeName_cases : ∀ (f : Nat) (ty : Ty), (∃ w, Src.typeName types f ty = .ok w ∧ TypeText types ty w) ∨
    Src.typeName types f ty = .error .diverge
  | 0, _ => Or.inr rfl
  | f + 1, ty => by
    unfold Src.typeName
    cases ty with
    | prim p sz => exact Or.inl ⟨_, rfl, by cases p <;> constructor⟩
    | struct n sz ms => exact Or.inl ⟨_, rfl, .struct⟩
    | ptr t sz =>
      dsimp only
      cases ht : types.find t with
      | none => exact Or.inl ⟨_, rfl, .ptrUnknown ht⟩
      | some u =>
        dsimp only
        rcases typeName_cases f u with ⟨w, h1, h2⟩ | h1
        · rw [h1]; exact Or.inl ⟨_, rfl, .ptr ht h2⟩
        · rw [h1]; exact Or.inr rfl
    | arr t sz =>
      dsimp only
      cases ht : types.find t with
      | none => exact Or.inl ⟨_, rfl, .arrUnknown ht⟩
      | some u =>
        dsimp only
        rcases typeName_cases f u with ⟨w, h1, h2⟩ | h1
        · rw [h1]; exact Or.inl ⟨_, rfl, .arr ht h2⟩
        · rw [h1]; exact Or.inr rfl

end T86
