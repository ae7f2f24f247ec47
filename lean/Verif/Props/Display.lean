import Verif.Lemmas.Display
import Verif.Props.Cli

/-! # How types and values are written (C78)

The specification is `Verif/Spec/Display.lean`. -/

set_option maxRecDepth 100000

namespace T86
open Dbg Str Native Isa Ex

variable {h : Host} {c : Client} {n : Native} {types : Types}

/-! ## Types -/

/-- C78. The name shown for a type is the one it should have; a type that has none, because it is a pointer to itself or the like,
makes the debugger call itself without end, and there is no other way in which showing a type can fail. -/
theorem C78_type (ty : Ty) :
    (∀ w, Src.typeToString types ty = .ok w ↔ TypeText types ty w) ∧
    ((∀ w, ¬ TypeText types ty w) ↔ Src.typeToString types ty = .error .diverge) := by
  have ok : ∀ w, TypeText types ty w → Src.typeToString types ty = .ok w := by
    intro w hw
    obtain ⟨ids, h1, h2⟩ := typeText_path hw
    exact h2 _ (by have := typePath_short h1; omega)
  refine ⟨fun w => ⟨fun hw => ?_, ok w⟩, fun hn => ?_, fun he w hw => ?_⟩
  · rcases typeName_cases (types := types) (types.length + 2) ty with ⟨w', h1, h2⟩ | h1
    · have e : Except.ok w = Except.ok w' := hw.symm.trans h1
      cases e; exact h2
    · have e : Except.ok w = Except.error Err.diverge := hw.symm.trans h1
      cases e
  · rcases typeName_cases (types := types) (types.length + 2) ty with ⟨w', _, h2⟩ | h1
    · exact absurd h2 (hn w')
    · exact h1
  · rw [ok w hw] at he; cases he

/-- C78. The same for the type of a value. -/
theorem C78_value_type (v : Val) (w : Str) : Src.valueType types v = .ok w ↔ ValTypeText types v w := by
  cases v with
  | ptr t sz v l =>
    refine ((C78_type (types := types) (.ptr t sz)).1 w).trans ⟨fun h => .ptr h, fun h => ?_⟩
    cases h with | ptr h => exact h
  | arr t cnt a ms l =>
    refine ((C78_type (types := types) (.arr t cnt)).1 w).trans ⟨fun h => .arr h, fun h => ?_⟩
    cases h with | arr h => exact h
  | int v l => exact ⟨fun h => by cases h; exact .int, fun h => by cases h; rfl⟩
  | float v l => exact ⟨fun h => by cases h; exact .float, fun h => by cases h; rfl⟩
  | char v l => exact ⟨fun h => by cases h; exact .char, fun h => by cases h; rfl⟩
  | struct m sz ms l => exact ⟨fun h => by cases h; exact .struct, fun h => by cases h; rfl⟩

/-! ## Values -/

theorem readString_text {s : State} (hs : Native.Shows h n s) (hsz : c.size < 2 ^ 63) {a : Word} {w : Str} (ht : StringText s c.size a w)
    {fuel : Nat} (hf : c.size ≤ fuel) : Src.readString h c fuel a n = (.ok w, n) := by
  obtain ⟨l, h1, h2, h3, rfl⟩ := ht
  exact C55_string hs hsz h1 h2 h3 (by omega)

theorem isCharType_iff (t : Nat) : Src.isCharType types t = true ↔ ∃ sz, types.find t = some (.prim .char sz) := by
  unfold Src.isCharType
  split
  · next sz h => exact ⟨fun _ => ⟨sz, h⟩, fun _ => rfl⟩
  · next h => exact ⟨fun e => (by cases e), fun ⟨sz, e⟩ => absurd e (h sz)⟩

theorem lastIsChar_iff (ms : List Val) : Src.lastIsChar ms = true ↔ ∃ b l, ms.getLast? = some (.char b l) := by
  unfold Src.lastIsChar
  split
  · next b l h => exact ⟨fun _ => ⟨b, l, h⟩, fun _ => rfl⟩
  · next h => exact ⟨fun e => (by cases e), fun ⟨b, l, e⟩ => absurd e (h b l)⟩

mutual
theorem show_value {s : State} (hs : Native.Shows h n s) (hsz : c.size < 2 ^ 63) {fuel : Nat} (hf : c.size ≤ fuel) :
    ∀ (v : Val) {t : Str}, ValText s c.size types h.ftos v t → Src.showValue h c types fuel v n = (.ok t, n)
  | .ptr t _ v _, _, .ptr other => by
    rw [Src.showValue, if_neg (fun e => by obtain ⟨sz, e⟩ := (isCharType_iff t).1 e; exact other sz e), ofNat_decimal]
    rfl
  | .ptr t _ v _, _, .string char text => by
    rw [Src.showValue, if_pos ((isCharType_iff t).2 ⟨_, char⟩), Job.bind_eq (readString_text hs hsz text hf), ofNat_decimal]
    rfl
  | .int v _, _, .int => by rw [Src.showValue, ofInt_decimal]; rfl
  | .float v _, _, .float => by rw [Src.showValue]; rfl
  | .char v _, _, .char => by rw [Src.showValue]; rfl
  | .arr _ _ a ms _, _, .chars last text => by
    rw [Src.showValue, if_pos ((lastIsChar_iff ms).2 ⟨_, _, last⟩), Job.bind_eq (readString_text hs hsz text hf), ofNat_decimal]
    rfl
  | .arr _ _ a ms _, _, .arr last texts => by
    rw [Src.showValue, if_neg (fun e => by obtain ⟨b, l, e⟩ := (lastIsChar_iff ms).1 e; exact last b l e),
      Job.bind_eq (show_values hs hsz hf ms texts), join_intercalate]
    rfl
  | .struct _ _ ms _, _, .struct texts same sorted => by
    rw [Src.showValue, Job.bind_eq (show_members hs hsz hf ms texts), sortKeys_eq same sorted, join_intercalate]
    rfl
theorem show_values {s : State} (hs : Native.Shows h n s) (hsz : c.size < 2 ^ 63) {fuel : Nat} (hf : c.size ≤ fuel) :
    ∀ (ms : List Val) {ts : List Str}, List.Forall₂ (ValText s c.size types h.ftos) ms ts → Src.showValues h c types fuel ms n = (.ok ts, n)
  | [], _, .nil => by rw [Src.showValues]; rfl
  | v :: ms, _, .cons h1 h2 => by
    rw [Src.showValues, Job.bind_eq (show_value hs hsz hf v h1), Job.bind_eq (show_values hs hsz hf ms h2)]
    rfl
theorem show_members {s : State} (hs : Native.Shows h n s) (hsz : c.size < 2 ^ 63) {fuel : Nat} (hf : c.size ≤ fuel) :
    ∀ (ms : List (Str × Val)) {ts : List Str}, List.Forall₂ (ValText s c.size types h.ftos) (ms.map Prod.snd) ts →
      Src.showMembers h c types fuel ms n = (.ok ((ms.map Prod.fst).zip ts), n)
  | [], _, .nil => by rw [Src.showMembers]; rfl
  | (_, v) :: ms, _, .cons h1 h2 => by
    rw [Src.showMembers, Job.bind_eq (show_value hs hsz hf v h1), Job.bind_eq (show_members hs hsz hf ms h2)]
    rfl
end

/-- C78. A value is shown as it should be written at the stop, whatever its type and however deep arrays and structures are
nested in it. The debuggee is not changed. -/
theorem C78_value {s : State} (hs : Native.Shows h n s) (hsz : c.size < 2 ^ 63) {fuel : Nat} (hf : c.size ≤ fuel) {v : Val} {t : Str}
    (ht : ValText s c.size types h.ftos v t) : Src.showValue h c types fuel v n = (.ok t, n) :=
  show_value hs hsz hf v ht

/-! ## Different values look different -/

/-- What is known about the texts of two values of the same type. -/
def Tells (P : Prop) (t t' : Str) : Prop :=
  ∀ r r', NumEnd r → NumEnd r' → t ++ r = t' ++ r' → P ∧ r = r'

theorem numEnd_cons {ch : Char} {r : Str} (h : isDigit ch = false) : NumEnd (ch :: r) := by
  intro x hx; cases hx; exact h

theorem tells_list {α : Type} (p t t' : α → Str) (P : α → Prop) {e : Char} (he : isDigit e = false) : ∀ (z : List α),
    (∀ x ∈ z, Tells (P x) (t x) (t' x)) → ∀ r r',
    List.intercalate [',', ' '] (z.map fun x => p x ++ t x) ++ e :: r = List.intercalate [',', ' '] (z.map fun x => p x ++ t' x) ++ e :: r' →
    (∀ x ∈ z, P x) ∧ r = r'
  | [], _, r, r', h => by
    refine ⟨fun _ hx => by (cases hx), ?_⟩
    have h' : e :: r = e :: r' := h
    cases h'; rfl
  | [x], hz, r, r', h => by
    have h' : p x ++ (t x ++ e :: r) = p x ++ (t' x ++ e :: r') := by simpa [List.intercalate] using h
    obtain ⟨h1, h2⟩ := hz x (by simp) _ _ (numEnd_cons he) (numEnd_cons he) (List.append_cancel_left h')
    refine ⟨fun y hy => by rw [List.mem_singleton.1 hy]; exact h1, ?_⟩
    cases h2; rfl
  | x :: y :: z, hz, r, r', h => by
    have k : ∀ (t : α → Str) (r : Str), List.intercalate [',', ' '] ((x :: y :: z).map fun x => p x ++ t x) ++ e :: r =
        p x ++ (t x ++ (',' :: ' ' :: (List.intercalate [',', ' '] ((y :: z).map fun x => p x ++ t x) ++ e :: r))) := by
      intro t r
      simp [List.intercalate]
    rw [k, k] at h
    obtain ⟨h1, h2⟩ := hz x (by simp) _ _ (numEnd_cons (by decide)) (numEnd_cons (by decide)) (List.append_cancel_left h)
    have h3 := (List.cons.inj (List.cons.inj h2).2).2
    obtain ⟨k1, k2⟩ := tells_list p t t' P he (y :: z) (fun w hw => hz w (List.mem_cons_of_mem _ hw)) r r' h3
    refine ⟨fun w hw => ?_, k2⟩
    rcases List.mem_cons.1 hw with rfl | hw
    · exact h1
    · exact k1 w hw

/-- The members at one place have the same value. -/
def SameAt (vs vs' : List Val) (i : Nat) : Prop := ∀ v v', vs[i]? = some v → vs'[i]? = some v' → ValSame v v'

theorem same_all {vs vs' : List Val} (hl : vs.length = vs'.length) (h : ∀ i, i < vs.length → SameAt vs vs' i) : List.Forall₂ ValSame vs vs' := by
  induction vs generalizing vs' with
  | nil => cases vs' with
    | nil => exact .nil
    | cons _ _ => simp at hl
  | cons v vs ih => cases vs' with
    | nil => simp at hl
    | cons v' vs' =>
      refine .cons (h 0 (by simp) v v' rfl rfl) (ih (by simpa using hl) fun i hi w w' e e' => ?_)
      exact h (i + 1) (by simpa using hi) w w' (by simpa using e) (by simpa using e')

theorem range_texts (ts : List Str) : ts = (List.range ts.length).map fun i => [] ++ ts.getD i [] := by
  apply List.ext_getElem
  · simp
  · intro i h1 h2; simp [List.getD_eq_getElem?_getD, h1]

theorem tells_arr {vs vs' : List Val} {ts ts' : List Str} (l1 : vs.length = vs'.length) (l2 : vs.length = ts.length) (l3 : vs.length = ts'.length)
    (hz : ∀ i t t', ts[i]? = some t → ts'[i]? = some t' → Tells (SameAt vs vs' i) t t') :
    ∀ r r', List.intercalate [',', ' '] ts ++ ']' :: r = List.intercalate [',', ' '] ts' ++ ']' :: r' → List.Forall₂ ValSame vs vs' ∧ r = r' := by
  intro r r' e
  have e1 := range_texts ts
  have e2 := range_texts ts'
  rw [← l2] at e1
  rw [← l3] at e2
  rw [e1, e2] at e
  obtain ⟨h1, h2⟩ := tells_list (fun _ => []) (fun i => ts.getD i []) (fun i => ts'.getD i []) (SameAt vs vs') (by decide) _ (by
    intro i hi
    rw [List.mem_range] at hi
    exact hz i _ _ (by simp [List.getD_eq_getElem?_getD, l2 ▸ hi]) (by simp [List.getD_eq_getElem?_getD, l3 ▸ hi])) r r' e
  exact ⟨same_all l1 fun i hi => h1 i (List.mem_range.2 hi), h2⟩

theorem sorted_keys {ys : List (Str × Str)} (h : ys.Pairwise fun x y => x.1 < y.1) : (ys.map Prod.fst).Nodup := by
  unfold List.Nodup
  rw [List.pairwise_map]
  exact h.imp fun k e => by rw [e] at k; exact str_lt_asymm k k

theorem keyed_texts {ys : List (Str × Str)} (h : (ys.map Prod.fst).Nodup) : ys.map (fun y => y.1 ++ " = ".toList ++ y.2) =
    (ys.map Prod.fst).map fun k => (k ++ " = ".toList) ++ (Map.find ys k).getD [] := by
  rw [List.map_map]
  apply List.map_congr_left
  intro y hy
  have : Map.find ys y.1 = some y.2 := Map.find_eq_some_of_mem h hy
  simp [this]

theorem tells_struct {names : List Str} {vs vs' : List Val} {ts ts' : List Str} {ys ys' : List (Str × Str)} (l0 : vs.length = names.length)
    (l1 : vs.length = vs'.length) (l2 : vs.length = ts.length) (l3 : vs.length = ts'.length)
    (p : ys.Perm (names.zip ts)) (p' : ys'.Perm (names.zip ts')) (s : ys.Pairwise fun x y => x.1 < y.1) (s' : ys'.Pairwise fun x y => x.1 < y.1)
    (hz : ∀ i t t', ts[i]? = some t → ts'[i]? = some t' → Tells (SameAt vs vs' i) t t') :
    ∀ r r', List.intercalate [',', ' '] (ys.map fun y => y.1 ++ " = ".toList ++ y.2) ++ ' ' :: r =
      List.intercalate [',', ' '] (ys'.map fun y => y.1 ++ " = ".toList ++ y.2) ++ ' ' :: r' → List.Forall₂ ValSame vs vs' ∧ r = r' := by
  intro r r' e
  have n := sorted_keys s
  have n' := sorted_keys s'
  have hn : (ys.map Prod.fst).Perm names := by
    have := p.map Prod.fst
    rwa [List.map_fst_zip (by omega)] at this
  have hn' : (ys'.map Prod.fst).Perm names := by
    have := p'.map Prod.fst
    rwa [List.map_fst_zip (by omega)] at this
  have hk : ys'.map Prod.fst = ys.map Prod.fst := by
    refine List.Perm.eq_of_pairwise (le := fun a b : Str => a < b) (fun a b _ _ h h' => absurd h' (str_lt_asymm h)) ?_ ?_ (hn'.trans hn.symm)
    · rw [List.pairwise_map]; exact s'
    · rw [List.pairwise_map]; exact s
  have nn : names.Nodup := hn.nodup_iff.1 n
  rw [keyed_texts n, keyed_texts n', hk] at e
  obtain ⟨h1, h2⟩ := tells_list (fun k => k ++ " = ".toList) (fun k => (Map.find ys k).getD []) (fun k => (Map.find ys' k).getD [])
    (fun k => ∀ i : Nat, names[i]? = some k → SameAt vs vs' i) (by decide) _ (by
      intro k hk1
      have get : ∀ {zs : List (Str × Str)} {us : List Str}, (zs.map Prod.fst).Nodup → zs.Perm (names.zip us) → k ∈ zs.map Prod.fst →
          ∀ i : Nat, names[i]? = some k → us[i]? = some ((Map.find zs k).getD []) := by
        intro zs us m q hm i hi
        obtain ⟨y, hy, rfl⟩ := List.mem_map.1 hm
        have f : Map.find zs y.1 = some y.2 := Map.find_eq_some_of_mem m hy
        obtain ⟨j, hj⟩ := List.mem_iff_getElem?.1 (q.mem_iff.1 hy)
        have hj' : names[j]? = some y.1 ∧ us[j]? = some y.2 := by
          simpa using List.getElem?_zip_eq_some.1 hj
        have : i = j := by
          obtain ⟨a1, a2⟩ := List.getElem?_eq_some_iff.1 hi
          obtain ⟨b1, b2⟩ := List.getElem?_eq_some_iff.1 hj'.1
          exact (List.Nodup.getElem_inj_iff nn).1 (a2.trans b2.symm)
        rw [this, hj'.2, f]; rfl
      intro r r' hr hr' e
      have hi : ∃ i : Nat, names[i]? = some k := List.mem_iff_getElem?.1 (hn.mem_iff.1 hk1)
      obtain ⟨i, hi⟩ := hi
      obtain ⟨_, h2⟩ := hz i _ _ (get n p hk1 i hi) (get n' p' (hk ▸ hk1) i hi) r r' hr hr' e
      refine ⟨fun i hi => ?_, h2⟩
      exact (hz i _ _ (get n p hk1 i hi) (get n' p' (hk ▸ hk1) i hi) r r' hr hr' e).1) r r' e
  refine ⟨same_all l1 fun i hi => ?_, h2⟩
  have hk : names[i]? = some (names[i]'(by omega)) := List.getElem?_eq_getElem (by omega)
  exact h1 _ (hn.mem_iff.2 (List.getElem_mem _)) i hk

theorem chr_inj {a b : BitVec 8} (h : Char.ofNat a.toNat = Char.ofNat b.toNat) : a = b := by
  have k : ∀ x : BitVec 8, (Char.ofNat x.toNat).toNat = x.toNat := by decide
  have := congrArg Char.toNat h
  rw [k, k] at this
  exact BitVec.eq_of_toNat_eq this

theorem forall₂_last {R : Val → Val → Prop} {xs ys : List Val} {y : Val} (h : List.Forall₂ R xs ys) (hy : ys.getLast? = some y) :
    ∃ x, xs.getLast? = some x ∧ R x y := by
  induction h with
  | nil => cases hy
  | @cons a b as bs h1 h2 ih =>
    cases h2 with
    | nil => simp at hy; subst hy; exact ⟨a, rfl, h1⟩
    | cons h3 h4 => simpa using ih (by simpa using hy)

variable {s s' : State} {size size' : Nat} {ftos ftos' : Word → Str}

mutual
theorem tells_value : ∀ (v : Val) {v' : Val} {t t' : Str}, ValSameType types v v' → ValText s size types ftos v t →
    ValText s' size' types ftos' v' t' → Tells (ValSame v v') t t'
  | .int a _, .int b _, _, _, .int, .int, .int => fun r r' hr hr' e => by
    obtain ⟨h1, h2⟩ := decimal_split hr hr' e
    have := BitVec.eq_of_toInt_eq h1
    subst this
    exact ⟨.int, h2⟩
  | .char a _, .char b _, _, _, .char, .char, .char => fun r r' hr hr' e => by
    simp only [List.cons_append, List.nil_append, List.cons.injEq, true_and] at e
    obtain ⟨h1, h2⟩ := e
    have := chr_inj h1
    subst this
    exact ⟨.char, h2⟩
  | .ptr _ _ a _, .ptr _ _ b _, _, _, .ptr other, h1, h2 => fun r r' hr hr' e => by
    cases h1 with
    | string char => exact absurd char (other _)
    | ptr =>
      cases h2 with
      | string char => exact absurd char (other _)
      | ptr =>
        obtain ⟨h1, h2⟩ := decimal_split hr hr' e
        have : a = b := BitVec.eq_of_toNat_eq (by omega)
        subst this
        exact ⟨.ptr, h2⟩
  | .arr _ _ a ms _, .arr _ _ b ms' _, _, _, .arr last members, h1, h2 => fun r r' hr hr' e => by
    have hlen := members.length_eq
    have last' : ∀ x l, ms'.getLast? ≠ some (.char x l) := by
      intro x l hx
      obtain ⟨y, h1, h2⟩ := forall₂_last members hx
      cases h2
      exact last _ _ h1
    cases h1 with
    | chars l => exact absurd l (last _ _)
    | arr _ texts =>
      cases h2 with
      | chars l => exact absurd l (last' _ _)
      | arr _ texts' =>
        simp only [List.append_assoc] at e
        have e := List.append_cancel_left e
        obtain ⟨k1, k2⟩ := tells_arr hlen texts.length_eq (hlen.trans texts'.length_eq) (tells_values ms members texts texts') r r' e
        exact ⟨.arr k1, k2⟩
  | .struct _ _ ms _, .struct _ _ ms' _, _, _, .struct names members, .struct texts same sorted, .struct texts' same' sorted' =>
    fun r r' hr hr' e => by
    have hlen := members.length_eq
    have l1 := texts.length_eq
    have l2 := texts'.length_eq
    rw [← names] at same'
    simp only [List.append_assoc] at e
    have e := List.append_cancel_left e
    obtain ⟨k1, k2⟩ := tells_struct (names := ms.map Prod.fst) (by simp) hlen l1 (hlen.trans l2) same same' sorted sorted'
      (tells_members ms members texts texts') ('}' :: r) ('}' :: r') (by simpa using e)
    refine ⟨.struct names k1, ?_⟩
    cases k2; rfl
theorem tells_values : ∀ (ms : List Val) {ms' : List Val} {ts ts' : List Str}, List.Forall₂ (ValSameType types) ms ms' →
    List.Forall₂ (ValText s size types ftos) ms ts → List.Forall₂ (ValText s' size' types ftos') ms' ts' →
    ∀ i t t', ts[i]? = some t → ts'[i]? = some t' → Tells (SameAt ms ms' i) t t'
  | [], [], [], [], .nil, .nil, .nil, _, _, _, h, _ => by simp at h
  | v :: ms, v' :: ms', t :: ts, t' :: ts', .cons h1 h2, .cons a1 a2, .cons b1 b2, i, u, u', e, e' => by
    cases i with
    | zero =>
      simp at e e'
      subst e e'
      intro r r' hr hr' e
      obtain ⟨k1, k2⟩ := tells_value v h1 a1 b1 r r' hr hr' e
      refine ⟨fun w w' x x' => ?_, k2⟩
      simp at x x'
      subst x x'
      exact k1
    | succ i =>
      intro r r' hr hr' e0
      obtain ⟨k1, k2⟩ := tells_values ms h2 a2 b2 i u u' (by simpa using e) (by simpa using e') r r' hr hr' e0
      exact ⟨fun w w' x x' => k1 w w' (by simpa using x) (by simpa using x'), k2⟩
theorem tells_members : ∀ (ms : List (Str × Val)) {vs' : List Val} {ts ts' : List Str}, List.Forall₂ (ValSameType types) (ms.map Prod.snd) vs' →
    List.Forall₂ (ValText s size types ftos) (ms.map Prod.snd) ts → List.Forall₂ (ValText s' size' types ftos') vs' ts' →
    ∀ i t t', ts[i]? = some t → ts'[i]? = some t' → Tells (SameAt (ms.map Prod.snd) vs' i) t t'
  | [], [], [], [], .nil, .nil, .nil, _, _, _, h, _ => by simp at h
  | (_, v) :: ms, v' :: ms', t :: ts, t' :: ts', .cons h1 h2, .cons a1 a2, .cons b1 b2, i, u, u', e, e' => by
    cases i with
    | zero =>
      simp at e e'
      subst e e'
      intro r r' hr hr' e
      obtain ⟨k1, k2⟩ := tells_value v h1 a1 b1 r r' hr hr' e
      refine ⟨fun w w' x x' => ?_, k2⟩
      simp at x x'
      subst x x'
      exact k1
    | succ i =>
      intro r r' hr hr' e0
      obtain ⟨k1, k2⟩ := tells_members ms h2 a2 b2 i u u' (by simpa using e) (by simpa using e') r r' hr hr' e0
      exact ⟨fun w w' x x' => k1 w w' (by simpa using x) (by simpa using x'), k2⟩
end

/-- C78. Two values of one type, without strings and numbers of type float, that look the same are the same, at whatever stops they
are shown. -/
theorem C78_distinct {v v' : Val} (hv : ValSameType types v v') {t : Str} (ht : ValText s size types ftos v t)
    (ht' : ValText s' size' types ftos' v' t) : ValSame v v' :=
  (tells_value v hv ht ht' [] [] (by intro c hc; cases hc) (by intro c hc; cases hc) rfl).1

/-! ## The command `expression` -/

section
open Cli

/-- C78. The line printed by `expression` (or `print`, or any shorter form of these words) consists of the type of the value, the number under
which it is kept and the value, as it is after the evaluation. The number is that of the results kept before. Nothing else is printed
and nothing else changes. -/
theorem C78_expression (e : Cli.Env) {cli : Cli} {n' : Native} {raw : Str} (hk : Is .expression raw) {x : Str} (hx : (firstWord (squashStrip raw)).2 = x)
    (hne : x ≠ []) (hp : cli.process = some n) {v : Val} {k : Nat} {src : Src.Source}
    (he : Src.evaluateExpression cli.host cli.client e.mode e.fo x true cli.source n = (.ok (v, k, src), n'))
    {s : State} (hs : Native.Shows cli.host n' s) (hsz : cli.client.size < 2 ^ 63) (hf : cli.client.size ≤ e.fuel) {w t : Str}
    (hw : ValTypeText cli.source.types v w) (ht : ValText s cli.client.size cli.source.types cli.host.ftos v t) :
    typed e raw cli = (.ok (), { cli with
      process := some n'
      source := { cli.source with evaluated := cli.source.evaluated ++ [v] }
      out := cli.out ++ [.print ("(".toList ++ w ++ ") $".toList ++ decimal cli.source.evaluated.length ++ " = ".toList ++ t)] }) := by
  obtain ⟨_, e2, e3⟩ := evaluateExpression_ok he
  have e2 := e2 rfl
  subst e2
  rw [if_pos rfl] at e3
  subst e3
  rw [typed_is e hk (by decide) (by decide) (by decide) (by rw [hp]; rfl), hx]
  have k1 : Cli.evaluate e x true cli = (.ok (v, cli.source.evaluated.length), { cli with
      process := some n'
      source := { cli.source with evaluated := cli.source.evaluated ++ [v] } }) := by
    unfold Cli.evaluate
    rw [hp]
    simp only [he]
  have k2 := (C78_value_type (types := cli.source.types) v w).2 hw
  have k3 : perform e (some .expression) x cli = (.ok (), { cli with
      process := some n'
      source := { cli.source with evaluated := cli.source.evaluated ++ [v] }
      out := cli.out ++ [.print ("(".toList ++ w ++ ") $".toList ++ decimal cli.source.evaluated.length ++ " = ".toList ++ t)] }) := by
    change handleExpression e x cli = _
    unfold handleExpression
    refine (Job.bind_eq (process_eq (by rw [hp]; rfl))).trans ?_
    rw [if_neg hne]
    refine (Job.bind_eq k1).trans ?_
    refine (Job.bind_eq (x := Job.get) rfl).trans ?_
    dsimp only
    rw [k2]
    refine (Job.bind_eq (x := Job.ofExcept (.ok w)) rfl).trans ?_
    refine (Job.bind_eq (call_eq rfl (C78_value hs hsz hf ht))).trans ?_
    rw [ofNat_decimal]
    rfl
  rw [k3]
  rfl

end

/-! ## Examples -/

/-- The type char, a pointer to it, an array of such pointers, a structure and a pointer to itself. -/
def exTypes : Types := [(1, .prim .char 1), (2, .ptr 1 1), (3, .arr 2 4), (4, .struct "node".toList 2 []), (5, .ptr 5 1)]

example : TypeText exTypes (.arr 3 2) "char*[][]".toList :=
  .arr (w := "char*[]".toList) (u := .arr 2 4) rfl (.arr (w := "char*".toList) (u := .ptr 1 1) rfl (.ptr (w := "char".toList) (u := .prim .char 1) rfl .char))

/-- The name of a type may not exist: there is no bound on the calls of `TypeToString` for a pointer to itself. -/
theorem C78_type_loop : Src.typeToString exTypes (.ptr 5 1) = .error .diverge ∧ ∀ w, ¬ TypeText exTypes (.ptr 5 1) w :=
  have h : Src.typeToString exTypes (.ptr 5 1) = .error .diverge := by decide
  ⟨h, (C78_type (types := exTypes) (.ptr 5 1)).2.2 h⟩

/-- A structure with a list of pointers, a number and a string. -/
def exVal : Val := .struct "node".toList 4 [("next".toList, .arr 5 2 0 [.ptr 5 1 8 none, .ptr 5 1 (-1) none] none), ("key".toList, .int (-3) none),
  ("name".toList, .ptr 1 1 8 none)] none

/-- The hypotheses of `C78_value` are met by it at the end of the history of `Verif/Props/Native.lean`. -/
example : ∃ s, Native.Shows Sample.host (Sample.after (Sample.started Sample.calls) Sample.history) s ∧
    ValText s Sample.client.size exTypes Sample.host.ftos exVal
      ("{ key = -3, name = 8 \"".toList ++ [Char.ofNat 7] ++ "\", next = [8, 18446744073709551615] }".toList) := by
  obtain ⟨s, hs⟩ := Sample.calls_shows
  refine ⟨s, hs, ?_⟩
  have h8 : s.mem 8 = some 7 := by rw [← hs.machine.mem]; decide +kernel
  have h9 : s.mem (8 + BitVec.ofNat 64 1) = some 0 := by rw [← hs.machine.mem]; decide +kernel
  have hb : StringText s Sample.client.size 8 [Char.ofNat 7] := by
    refine ⟨[7], ?_, by decide, by decide, by decide⟩
    intro j b hj
    match j, hj with
    | 0, hj => cases hj; exact ⟨7, by simpa using h8, by decide⟩
    | 1, hj => cases hj; exact ⟨0, h9, by decide⟩
  have h1 : ValText s Sample.client.size exTypes Sample.host.ftos (.ptr 5 1 8 none) "8".toList :=
    .ptr (by intro sz e; cases e)
  have h2 : ValText s Sample.client.size exTypes Sample.host.ftos (.ptr 5 1 (-1) none) "18446744073709551615".toList :=
    .ptr (by intro sz e; cases e)
  have h3 : ValText s Sample.client.size exTypes Sample.host.ftos (.arr 5 2 0 [.ptr 5 1 8 none, .ptr 5 1 (-1) none] none)
      "[8, 18446744073709551615]".toList := .arr (by intro b l e; cases e) (.cons h1 (.cons h2 .nil))
  have h4 : ValText s Sample.client.size exTypes Sample.host.ftos (.int (-3) none) "-3".toList := .int
  have h5 : ValText s Sample.client.size exTypes Sample.host.ftos (.ptr 1 1 8 none) ("8 \"".toList ++ [Char.ofNat 7] ++ "\"".toList) :=
    .string (sz' := 1) rfl hb
  exact .struct (ys := [("key".toList, "-3".toList), ("name".toList, "8 \"".toList ++ [Char.ofNat 7] ++ "\"".toList),
    ("next".toList, "[8, 18446744073709551615]".toList)]) (.cons h3 (.cons h4 (.cons h5 .nil))) (by decide) (by decide)

/-- The hypotheses of `C78_distinct`, for two values that are not the same. -/
example : ValSameType exTypes (.arr 5 2 0 [.ptr 5 1 8 none, .ptr 5 1 1 none] none) (.arr 5 2 4 [.ptr 5 1 81 none, .ptr 5 1 1 none] none) :=
  .arr (by intro b l e; cases e) (.cons (.ptr (by intro sz e; cases e)) (.cons (.ptr (by intro sz e; cases e)) .nil))

/-- A session in which expressions are shown. -/
example : (["print 1 - 3", "exp $0 * 7"].foldl (fun s x => (Cli.typed Cli.exEnv x.toList s).2) Cli.exCli).out =
    [.print "(int) $0 = -2".toList, .print "(int) $1 = -14".toList] := by decide +kernel

end T86
