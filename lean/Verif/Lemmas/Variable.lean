import Verif.Spec.Variable
import Verif.Props.Assign

/-! Reading variables. -/

set_option linter.unusedSimpArgs false
set_option linter.unusedVariables false

namespace T86
open Dbg Str Native Isa Ex

/-- The parts of a type are at most `k` levels deep. -/
def TypeDeep (types : Types) : Nat → Ty → Prop
  | 0, _ => False
  | _ + 1, .prim _ _ => True
  | _ + 1, .ptr _ _ => True
  | k + 1, .struct _ _ ms => ∀ m ∈ ms, ∀ u, types.find m.typeId = some u → TypeDeep types k u
  | k + 1, .arr t cnt => cnt ≠ 0 → ∀ u, types.find t = some u → TypeDeep types k u

section
variable {types : Types}

theorem typeDeep_succ : ∀ {k : Nat} {ty : Ty}, TypeDeep types k ty → TypeDeep types (k + 1) ty
  | 0, _, h => h.elim
  | k + 1, .prim _ _, _ => trivial
  | k + 1, .ptr _ _, _ => trivial
  | k + 1, .struct _ _ ms, h => fun m hm u hu => typeDeep_succ (h m hm u hu)
  | k + 1, .arr t cnt, h => fun h0 u hu => typeDeep_succ (h h0 u hu)

theorem typeDeep_le {k l : Nat} {ty : Ty} (h : TypeDeep types k ty) (hl : k ≤ l) : TypeDeep types l ty := by
  induction hl with
  | refl => exact h
  | step _ ih => exact typeDeep_succ ih

/-- A type with parts at one level has them at all levels above. -/
theorem typeDeep_chain : ∀ (d : Nat) (ty : Ty), TypeDeep types (d + 1) ty → ¬ TypeDeep types d ty →
    ∃ ids : List Nat, ids.length = d ∧ ids.Nodup ∧ ∀ id ∈ ids, ∃ u, types.find id = some u ∧ TypeDeep types d u
  | 0, ty, _, _ => ⟨[], rfl, .nil, by simp⟩
  | d + 1, ty, h, hn => by
    have key : ∃ id u, types.find id = some u ∧ TypeDeep types (d + 1) u ∧ ¬ TypeDeep types d u := by
      cases ty with
      | prim p sz => exact absurd trivial hn
      | ptr t sz => exact absurd trivial hn
      | struct n sz ms =>
        simp only [TypeDeep] at h hn
        push Not at hn
        obtain ⟨m, hm, u, hu, hd⟩ := hn
        exact ⟨_, u, hu, h m hm u hu, hd⟩
      | arr t cnt =>
        simp only [TypeDeep] at h hn
        push Not at hn
        obtain ⟨h0, u, hu, hd⟩ := hn
        exact ⟨t, u, hu, h h0 u hu, hd⟩
    obtain ⟨id, u, hu, h1, h2⟩ := key
    obtain ⟨ids, e1, e2, e3⟩ := typeDeep_chain d u h1 h2
    refine ⟨id :: ids, by simp [e1], List.nodup_cons.2 ⟨fun hm => ?_, e2⟩, fun i hi => ?_⟩
    · obtain ⟨u', hu', hd⟩ := e3 id hm
      rw [hu] at hu'; cases hu'
      exact h2 hd
    · rcases List.mem_cons.1 hi with rfl | hi
      · exact ⟨u, hu, h1⟩
      · obtain ⟨u', hu', hd⟩ := e3 i hi
        exact ⟨u', hu', typeDeep_succ hd⟩

theorem typeDeep_bound {ty : Ty} : ∀ {k : Nat}, TypeDeep types k ty → TypeDeep types (types.length + 1) ty := by
  intro k
  induction k with
  | zero => intro h; exact h.elim
  | succ d ih =>
    intro h
    by_cases hd : TypeDeep types d ty
    · exact ih hd
    · obtain ⟨ids, e1, e2, e3⟩ := typeDeep_chain d ty h hd
      have hs : ids ⊆ types.map Prod.fst := by
        intro t ht
        obtain ⟨u, e, _⟩ := e3 t ht
        exact List.mem_map.2 ⟨(t, u), Map.mem_of_find e, rfl⟩
      have := e2.subperm hs |>.length_le
      rw [List.length_map] at this
      exact typeDeep_le h (by omega)

variable {cfg : Cfg} {size : Nat} {s : State}

theorem all_bound {P : Nat → Nat → Prop} (mono : ∀ i k l, k ≤ l → P i k → P i l) : ∀ (n : Nat), (∀ i, i < n → ∃ k, P i k) → ∃ k, ∀ i, i < n → P i k
  | 0, _ => ⟨0, by simp⟩
  | n + 1, h => by
    obtain ⟨k, hk⟩ := all_bound mono n fun i hi => h i (by omega)
    obtain ⟨l, hl⟩ := h n (by omega)
    refine ⟨max k l, fun i hi => ?_⟩
    by_cases e : i = n
    · exact mono _ _ _ (Nat.le_max_right ..) (e ▸ hl)
    · exact mono _ _ _ (Nat.le_max_left ..) (hk i (by omega))

/-- A type that has a value has a depth. -/
theorem valueAt_deep {l : Loc} {ty : Ty} {v : Val} (h : ValueAt cfg size types s l ty v) : ∃ k, TypeDeep types k ty := by
  induction h with
  | int => exact ⟨1, trivial⟩
  | float => exact ⟨1, trivial⟩
  | char => exact ⟨1, trivial⟩
  | ptr => exact ⟨1, trivial⟩
  | @struct l a sz name ms us vs begins names fits types_ known all members ih =>
    obtain ⟨k, hk⟩ := all_bound (P := fun i k => ∀ u, us[i]? = some u → TypeDeep types k u) (fun i k l hl h u hu => typeDeep_le (h u hu) hl) ms.length
      fun i hi => by
        obtain ⟨k, hk⟩ := ih i ms[i] (us[i]'(by omega)) (vs[i]'(by omega)) (by simp [hi]) (by simp) (by simp)
        refine ⟨k, fun u hu => ?_⟩
        obtain ⟨_, rfl⟩ := List.getElem?_eq_some_iff.1 hu
        exact hk
    refine ⟨k + 1, fun m hm u hu => ?_⟩
    obtain ⟨i, hi, rfl⟩ := List.getElem_of_mem hm
    have := known i ms[i] (us[i]'(by omega)) (by simp [hi]) (by simp)
    rw [this] at hu; cases hu
    exact hk i hi _ (by simp)
  | @arr a cnt t k u vs known size_ all elements ih =>
    by_cases h0 : cnt = 0
    · exact ⟨1, fun h => absurd h0 h⟩
    · have hp : 0 < vs.length := by
        rw [all]
        rcases Nat.eq_zero_or_pos cnt.toNat with h | h
        · exact absurd (BitVec.eq_of_toNat_eq (by simpa using h)) h0
        · exact h
      obtain ⟨k, hk⟩ := ih 0 vs[0] (by simp [hp])
      exact ⟨k + 1, fun _ u' hu => by rw [known] at hu; cases hu; exact hk⟩

/-- The debugger sees a state through a view. -/
structure Sees (cfg : Cfg) (size : Nat) (s : State) (v : View) : Prop where
  reg : ∀ r ∈ shown cfg, v.reg r.print = .ok (s.look (.int r))
  mem : ∀ a w, a.toNat < size → s.mem a = some w → v.mem a = .ok w

variable {v : View} (hv : Sees cfg size s v)
include hv

theorem sees_raw {l : Loc} {w : Word} (h : Stored cfg size s l w) : getRaw v l = .ok w := by
  cases h with
  | cell h1 h2 => exact hv.mem _ _ h1 h2
  | reg h => exact hv.reg _ h

theorem sees_number {l : Loc} {w : Word} (h : Number cfg s l w) : l.value v = .ok w := by
  cases h with
  | off => rfl
  | reg h => exact hv.reg _ h

omit hv in
theorem addS_fits (m : Mode) {x y : Word} (h : NoOverflow x y) : addS m x y = .ok (x + y) := by
  unfold addS sadd
  unfold NoOverflow at h
  have h1 := (x + y).toInt_lt
  have h2 := (x + y).le_toInt
  rw [if_neg]
  rw [h]
  rintro ⟨_, h3⟩
  exact h3 ⟨by simpa using h2, by simpa using h1⟩

theorem sees_member (m : Mode) {l : Loc} {a o : Word} (h : Number cfg s l a) (hf : NoOverflow o a) :
    interpret m v [.push l, .push (.off o), .add] = .ok (.off (a + o)) := by
  have h1 := sees_number hv h
  have h2 := addS_fits m hf
  change ((((l.value v >>= fun y => addS m o y >>= fun w => pure (Loc.off w)) >>= fun r => pure [r]) >>= fun s => Except.ok s) >>= fun s =>
    (match s with | [] => Except.error Err.debugger | x :: _ => Except.ok x)) = _
  rw [h1]
  change ((((addS m o a >>= fun w => pure (Loc.off w)) >>= fun r => pure [r]) >>= fun s => Except.ok s) >>= fun s =>
    (match s with | [] => Except.error Err.debugger | x :: _ => Except.ok x)) = _
  rw [h2, BitVec.add_comm]
  rfl

theorem sees_step (m : Mode) {st st' : List Loc} {i : LocIns} (h : PlaceStep cfg s st i st') : locStep m v st i = .ok st' := by
  cases h with
  | push => rfl
  | @add a b x y st h1 h2 h3 =>
    change ((a.value v >>= fun x => b.value v >>= fun y => addS m x y >>= fun w => pure (Loc.off w)) >>= fun r => pure (r :: st)) = _
    rw [sees_number hv h1]
    change ((b.value v >>= fun y => addS m x y >>= fun w => pure (Loc.off w)) >>= fun r => pure (r :: st)) = _
    rw [sees_number hv h2]
    change ((addS m x y >>= fun w => pure (Loc.off w)) >>= fun r => pure (r :: st)) = _
    rw [addS_fits m h3]
    rfl
  | @base o st h =>
    change (v.reg "BP".toList >>= fun bp => addS m bp o >>= fun w => pure (Loc.off w :: st)) = _
    rw [show "BP".toList = (Reg.bp).print from rfl, hv.reg .bp (by simp [shown])]
    change (addS m (s.look (.int .bp)) o >>= fun w => pure (Loc.off w :: st)) = _
    rw [addS_fits m h]
    rfl

theorem sees_run (m : Mode) {st st' : List Loc} {l : List LocIns} (h : PlaceRun cfg s st l st') : locRun m v st l = .ok st' := by
  induction h with
  | nil => rfl
  | cons h1 _ ih =>
    unfold locRun
    rw [sees_step hv m h1]
    exact ih

theorem sees_place (m : Mode) {l : List LocIns} {p : Loc} (h : Place cfg s l p) : interpret m v l = .ok p := by
  obtain ⟨st, h⟩ := h
  unfold interpret
  rw [sees_run hv m h]
  rfl

omit hv in
theorem place_some {l : List LocIns} {p : Loc} (h : Place cfg s l p) : l ≠ [] := by
  rintro rfl
  obtain ⟨st, h⟩ := h
  cases h

omit hv in
theorem mapM_each {α β : Type} {f : α → Except Err β} : ∀ {l : List α} {r : List β}, List.Forall₂ (fun x y => f x = .ok y) l r → l.mapM f = .ok r
  | _, _, .nil => rfl
  | _, _, .cons h t => by rw [List.mapM_cons, h, mapM_each t]; rfl

omit hv in
/-- The loop over the members of a structure. -/
theorem members_read {f : List (Str × Val) → Member → Except Err (List (Str × Val))} : ∀ (ms : List Member) (vs : List Val) (acc : List (Str × Val)),
    vs.length = ms.length → (ms.map (·.name)).Nodup → (∀ m ∈ ms, m.name ∉ acc.map Prod.fst) →
    (∀ (i : Nat) (m : Member) (v : Val), ms[i]? = some m → vs[i]? = some v → ∀ acc, f acc m = .ok (Map.emplace acc m.name v)) →
    ms.foldlM f acc = .ok (acc ++ (ms.map (·.name)).zip vs)
  | [], [], acc, _, _, _, _ => by simp; rfl
  | m :: ms, v :: vs, acc, hl, hn, ha, hf => by
    rw [List.foldlM_cons, hf 0 m v rfl rfl acc]
    have e : Map.emplace acc m.name v = acc ++ [(m.name, v)] := by
      unfold Map.emplace
      rw [(Map.find_eq_none _).2 fun v hv => ha m (by simp) (List.mem_map.2 ⟨_, hv, rfl⟩)]
    rw [e]
    rw [List.map_cons, List.nodup_cons] at hn
    have := members_read ms vs (acc ++ [(m.name, v)]) (by simpa using hl) hn.2 (fun m' hm' h => by
      rw [List.map_append, List.mem_append] at h
      rcases h with h | h
      · exact ha m' (by simp [hm']) h
      · simp at h
        exact hn.1 (h ▸ List.mem_map.2 ⟨m', hm', rfl⟩)) fun i m' v' h1 h2 => hf (i + 1) m' v' (by simpa using h1) (by simpa using h2)
    change ms.foldlM f (acc ++ [(m.name, v)]) = _
    rw [this]
    simp

/-- Reading a value. -/
theorem sees_value (m : Mode) {l : Loc} {ty : Ty} {x : Val} (h : ValueAt cfg size types s l ty x) :
    ∀ {f : Nat}, TypeDeep types f ty → evaluateAt m types v f l ty = .ok x := by
  induction h with
  | int h => intro f hf; cases f with | zero => exact hf.elim | succ f => simp only [evaluateAt, sees_raw hv h]; rfl
  | float h => intro f hf; cases f with | zero => exact hf.elim | succ f => simp only [evaluateAt, sees_raw hv h]; rfl
  | char h => intro f hf; cases f with | zero => exact hf.elim | succ f => simp only [evaluateAt, sees_raw hv h]; rfl
  | ptr h => intro f hf; cases f with | zero => exact hf.elim | succ f => simp only [evaluateAt, sees_raw hv h]; rfl
  | @struct l a sz name ms us vs begins names fits types_ known all members ih =>
    intro f hf
    cases f with
    | zero => exact hf.elim
    | succ f =>
      simp only [evaluateAt]
      rw [members_read ms vs [] all names (by simp) fun i mem w h1 h2 acc => ?_]
      · rfl
      · have hi : i < ms.length := (List.getElem?_eq_some_iff.1 h1).1
        have hu : us[i]? = some (us[i]'(by omega)) := by simp
        have k1 := known i mem _ h1 hu
        have hm : mem ∈ ms := List.mem_of_getElem? h1
        have k2 := ih i mem _ w h1 hu h2 (f := f) (hf mem hm _ k1)
        rw [sees_member hv m begins (fits mem hm)]
        change (match types.find mem.typeId with
          | none => Except.error Err.debugger
          | some mt => (evaluateAt m types v f (.off (a + mem.offset)) mt >>= fun mv => pure (Map.emplace acc mem.name (mv.setLoc (.off (a + mem.offset)))))) = _
        rw [k1]
        change (evaluateAt m types v f (.off (a + mem.offset)) _ >>= fun mv => pure (Map.emplace acc mem.name (mv.setLoc (.off (a + mem.offset))))) = _
        rw [k2]
        change Except.ok _ = _
        rw [setLoc_same (evaluateAt_loc k2)]
  | @arr a cnt t k u vs known size_ all elements ih =>
    intro f hf
    cases f with
    | zero => exact hf.elim
    | succ f =>
      simp only [evaluateAt]
      rw [known]
      simp only []
      rw [mapM_each (r := vs)]
      · rfl
      · rw [List.forall₂_iff_get]
        refine ⟨by simp [all], fun i h1 h2 => ?_⟩
        have hd : TypeDeep types f u := hf (fun e => by rw [e] at all; simp [all] at h2) u known
        have k2 := ih i vs[i] (by simp) hd
        have e : BitVec.ofNat 64 (i * k) = BitVec.ofNat 64 i * BitVec.ofNat 64 k := by
          apply BitVec.eq_of_toNat_eq
          simp [BitVec.toNat_mul, Nat.mul_mod]
        rw [e] at k2
        simp only [List.get_eq_getElem, List.getElem_range]
        rw [C41_size types t k size_]
        change (evaluateAt m types v f (.off (a + BitVec.ofNat 64 i * BitVec.ofNat 64 k)) u >>= fun mv => pure (mv.setLoc _)) = _
        rw [k2]
        change Except.ok _ = _
        rw [setLoc_same (evaluateAt_loc k2)]

theorem sees_variable (m : Mode) {l : Loc} {ty : Ty} {x : Val} (h : ValueAt cfg size types s l ty x) : evaluateTL m types v l ty = .ok x := by
  obtain ⟨k, hk⟩ := valueAt_deep h
  exact sees_value hv m h (typeDeep_succ (typeDeep_bound hk))

end

theorem shows_sees {h : Host} {c : Client} {n : Native} {s : State} (hs : Native.Shows h n s) (hsz : c.size < 2 ^ 63) :
    Sees h.cfg c.size s ((target h c).view n) where
  reg r hr := by
    show (getRegister h r.print n).1 = _
    rw [(C49_read_register hs).1 r hr]
  mem a w h1 h2 := view_cell hs hsz h1 h2

end T86
