import Verif.Lemmas.Poke
import Verif.Lemmas.Map
import Verif.Props.Access
import Verif.Spec.Assign

/-! # Assigning values -/

set_option linter.unusedSimpArgs false
set_option linter.unusedVariables false

namespace T86
open Dbg Str Native Isa

theorem ebind {ε α β : Type} {x : Except ε α} {f : α → Except ε β} {b : β} (h : (x >>= f) = .ok b) : ∃ a, x = .ok a ∧ f a = .ok b := by
  cases x with
  | error e => cases h
  | ok a => exact ⟨a, rfl, h⟩

theorem ebind_eq {ε α β : Type} {x : Except ε α} {f : α → Except ε β} {a : α} (h : x = .ok a) : (x >>= f) = f a := by
  rw [h]
  rfl

/-- A character is the low byte of what is stored for it. -/
theorem low_byte (c : BitVec 8) : (c.signExtend 64).truncate 8 = c := by
  apply BitVec.eq_of_getLsbD_eq
  intro i hi
  simp [BitVec.getLsbD_signExtend, hi]
  omega

namespace Ex

/-! ## What is written -/

/-- A word at a place. -/
def at' : Option Loc → Word → List (Word × Word)
  | some (.off a), w => [(a, w)]
  | _, _ => []

mutual
/-- The cells an assignment writes. -/
def stores : Val → Val → List (Word × Word)
  | .int _ l, .int y _ => at' l y
  | .char _ l, .char y _ => at' l (y.signExtend 64)
  | .ptr _ _ _ l, .ptr _ _ y _ => at' l y
  | .arr _ _ _ ms _, .arr _ _ _ ms' _ => storesL ms ms'
  | .struct _ _ ms _, .struct _ _ ms' _ => storesM ms ms'
  | _, _ => []

def storesL : List Val → List Val → List (Word × Word)
  | x :: l, y :: l' => stores x y ++ storesL l l'
  | _, _ => []

def storesM : List (Str × Val) → List (Str × Val) → List (Word × Word)
  | [], _ => []
  | (n, x) :: l, ms' =>
    match Map.find ms' n with
    | some y => stores x y ++ storesM l ms'
    | none => storesM l ms'
end

/-- Writing cells one after another. -/
def putAll (s : State) (ws : List (Word × Word)) : State := ws.foldl (fun s p => s.write p.1 [p.2]) s

theorem putAll_append (s : State) (a b : List (Word × Word)) : putAll s (a ++ b) = putAll (putAll s a) b := List.foldl_append

mutual
/-- Every part has a location. -/
def Located : Val → Prop
  | .arr _ _ _ ms l => l.isSome = true ∧ LocatedL ms
  | .struct _ _ ms l => l.isSome = true ∧ LocatedM ms
  | x => x.loc.isSome = true
def LocatedL : List Val → Prop
  | [] => True
  | x :: l => Located x ∧ LocatedL l
def LocatedM : List (Str × Val) → Prop
  | [] => True
  | (_, x) :: l => Located x ∧ LocatedM l
end

theorem write_mem (s : State) (a b w : Word) : (s.write a [w]).mem b = if b = a then some w else s.mem b := by
  unfold State.write
  show (if a.toNat ≤ b.toNat ∧ b.toNat < a.toNat + 1 then [w][b.toNat - a.toNat]? else s.mem b) = _
  by_cases e : b = a
  · subst e
    simp
  · have : b.toNat ≠ a.toNat := fun h => e (BitVec.eq_of_toNat_eq h)
    rw [if_neg (by omega), if_neg e]

theorem putAll_mem_other (ws : List (Word × Word)) : ∀ (s : State) (b : Word), b ∉ ws.map (·.1) → (putAll s ws).mem b = s.mem b := by
  induction ws with
  | nil => intro s b _; rfl
  | cons p ws ih =>
    intro s b hb
    simp only [List.map_cons, List.mem_cons, not_or] at hb
    show (putAll (s.write p.1 [p.2]) ws).mem b = _
    rw [ih _ b hb.2, write_mem, if_neg hb.1]

theorem putAll_mem (ws : List (Word × Word)) : ∀ (s : State), (ws.map (·.1)).Nodup → ∀ p ∈ ws, (putAll s ws).mem p.1 = some p.2 := by
  induction ws with
  | nil => intro s _ p hp; cases hp
  | cons q ws ih =>
    intro s hn p hp
    simp only [List.map_cons, List.nodup_cons] at hn
    show (putAll (s.write q.1 [q.2]) ws).mem p.1 = _
    rcases List.mem_cons.1 hp with rfl | hp
    · rw [putAll_mem_other ws _ _ hn.1, write_mem, if_pos rfl]
    · exact ih _ hn.2 p hp

theorem putAll_rest (ws : List (Word × Word)) : ∀ s : State, (putAll s ws).reg = s.reg ∧ (putAll s ws).pc = s.pc ∧ (putAll s ws).out = s.out ∧
    (putAll s ws).inp = s.inp ∧ (putAll s ws).halted = s.halted := by
  induction ws with
  | nil => intro s; exact ⟨rfl, rfl, rfl, rfl, rfl⟩
  | cons p ws ih => intro s; exact ih (s.write p.1 [p.2])

theorem cell_write {c : Client} {s : State} {a w : Word} {l : Option Loc} (h : s.Cell c l) : (s.write a [w]).Cell c l := by
  obtain ⟨b, h1, h2, h3⟩ := h
  refine ⟨b, h1, h2, ?_⟩
  rw [write_mem]
  split
  · rfl
  · exact h3

theorem cell_putAll {c : Client} {l : Option Loc} (ws : List (Word × Word)) : ∀ {s : State}, s.Cell c l → (putAll s ws).Cell c l := by
  induction ws with
  | nil => intro s h; exact h
  | cons p ws ih => intro s h; exact ih (cell_write h)

/-! ## Assignments -/

section
variable {h : Host} {c : Client} {fo : Floats}

theorem setRaw_cell {n : Native} {s : State} (hs : Native.Shows h n s) (hsz : c.size < 2 ^ 63) {l : Loc} (hc : s.Cell c (some l)) (w : Word) :
    ∃ n', setRaw (target h c) l w n = (.ok (), n') ∧ Native.Shows h n' (putAll s (at' (some l) w)) ∧ n'.bps = n.bps ∧ n'.wps = n.wps := by
  obtain ⟨a, e, h1, h2⟩ := hc
  injection e with e
  subst e
  obtain ⟨n', e1, e2, e3, e4⟩ := C49_write_memory (c := c) hs a [w] (by simp only [List.length_singleton]; omega) hsz (by
    intro j hj
    have : j = 0 := by simpa using hj
    subst this
    simpa using h2)
  exact ⟨n', e1, e2, e3, e4⟩

mutual
theorem assign_cells (hsz : c.size < 2 ^ 63) : (x y : Val) → x.Like y → Located x → ∀ {n : Native} {s : State}, Native.Shows h n s →
    (∀ l ∈ x.places, s.Cell c l) →
    ∃ n' v, assign (target h c) fo x y n = (.ok v, n') ∧ Native.Shows h n' (putAll s (stores x y)) ∧ n'.bps = n.bps ∧ n'.wps = n.wps
  | .int v l, y, hl, hw, n, s, hs, hc => by
    cases y with
    | int w l' =>
      obtain ⟨l, rfl⟩ := Option.isSome_iff_exists.1 hw
      obtain ⟨n', h1, h2, h3, h4⟩ := setRaw_cell hs hsz (hc (some l) (by simp [Val.places])) w
      refine ⟨n', .int w (some l), ?_, by simpa [stores] using h2, h3, h4⟩
      simp only [assign]
      rw [Job.bind_eq h1]
      rfl
    | _ => simp only [Val.Like, Val.Agree] at hl
  | .float v l, y, hl, hw, n, s, hs, hc => by
    cases y <;> simp only [Val.Like, Val.Agree] at hl
  | .char v l, y, hl, hw, n, s, hs, hc => by
    cases y with
    | char w l' =>
      obtain ⟨l, rfl⟩ := Option.isSome_iff_exists.1 hw
      obtain ⟨n', h1, h2, h3, h4⟩ := setRaw_cell hs hsz (hc (some l) (by simp [Val.places])) (w.signExtend 64)
      refine ⟨n', .char w (some l), ?_, by simpa [stores] using h2, h3, h4⟩
      simp only [assign]
      rw [Job.bind_eq h1]
      rfl
    | _ => simp only [Val.Like, Val.Agree] at hl
  | .ptr t sz v l, y, hl, hw, n, s, hs, hc => by
    cases y with
    | ptr t' sz' w l' =>
      simp only [Val.Like, Val.Agree] at hl
      obtain ⟨l, rfl⟩ := Option.isSome_iff_exists.1 hw
      obtain ⟨n', h1, h2, h3, h4⟩ := setRaw_cell hs hsz (hc (some l) (by simp [Val.places])) w
      refine ⟨n', .ptr t sz w (some l), ?_, by simpa [stores] using h2, h3, h4⟩
      simp only [assign]
      rw [if_neg (by simp [hl.1]), Job.bind_eq h1]
      rfl
    | _ => simp only [Val.Like, Val.Agree] at hl
  | .arr t cnt st ms l, y, hl, hw, n, s, hs, hc => by
    cases y with
    | arr t' cnt' st' ms' l' =>
      simp only [Val.Like, Val.Agree] at hl
      simp only [Located] at hw
      obtain ⟨l, rfl⟩ := Option.isSome_iff_exists.1 hw.1
      obtain ⟨n', vs, h1, h2, h3, h4⟩ := assignList_cells hsz ms ms' hl.2 hw.2 hs (by simpa [Val.places] using hc)
      refine ⟨n', .arr t cnt st vs (some l), ?_, by simpa [stores] using h2, h3, h4⟩
      simp only [assign]
      rw [if_neg (by simp [hl.1]), if_neg (by simpa using agreeL_length hl.2), Job.bind_eq h1]
      rfl
    | _ => simp only [Val.Like, Val.Agree] at hl
  | .struct nm sz ms l, y, hl, hw, n, s, hs, hc => by
    cases y with
    | struct nm' sz' ms' l' =>
      simp only [Val.Like, Val.Agree] at hl
      simp only [Located] at hw
      obtain ⟨l, rfl⟩ := Option.isSome_iff_exists.1 hw.1
      obtain ⟨n', vs, h1, h2, h3, h4⟩ := assignMembers_cells hsz ms ms' hl.2 hw.2 hs (by simpa [Val.places] using hc)
      refine ⟨n', .struct nm sz vs (some l), ?_, by simpa [stores] using h2, h3, h4⟩
      simp only [assign]
      rw [if_neg (by simp [hl.1]), Job.bind_eq h1]
      rfl
    | _ => simp only [Val.Like, Val.Agree] at hl

theorem agreeL_length {eq : Bool} : {l l' : List Val} → Val.AgreeL eq l l' → l.length = l'.length
  | [], [], _ => rfl
  | [], _ :: _, h => by simp only [Val.AgreeL] at h
  | _ :: _, [], h => by simp only [Val.AgreeL] at h
  | _ :: l, _ :: l', h => by
    simp only [Val.AgreeL] at h
    simp only [List.length_cons, agreeL_length h.2]

theorem assignList_cells (hsz : c.size < 2 ^ 63) : (l l' : List Val) → Val.AgreeL false l l' → LocatedL l → ∀ {n : Native} {s : State},
    Native.Shows h n s → (∀ p ∈ Val.placesL l, s.Cell c p) →
    ∃ n' vs, assignList (target h c) fo l l' n = (.ok vs, n') ∧ Native.Shows h n' (putAll s (storesL l l')) ∧ n'.bps = n.bps ∧ n'.wps = n.wps
  | [], [], _, _, n, s, hs, _ => ⟨n, [], by simp only [assignList]; rfl, by simp only [storesL]; exact hs, rfl, rfl⟩
  | [], _ :: _, hl, _, _, _, _, _ => by simp only [Val.AgreeL] at hl
  | _ :: _, [], hl, _, _, _, _, _ => by simp only [Val.AgreeL] at hl
  | x :: l, y :: l', hl, hw, n, s, hs, hc => by
    simp only [Val.AgreeL] at hl
    simp only [LocatedL] at hw
    simp only [Val.placesL, List.mem_append] at hc
    obtain ⟨n1, v, h1, h2, h3, h4⟩ := assign_cells hsz x y hl.1 hw.1 hs (fun p hp => hc p (Or.inl hp))
    obtain ⟨n2, vs, g1, g2, g3, g4⟩ := assignList_cells hsz l l' hl.2 hw.2 h2 (fun p hp => cell_putAll _ (hc p (Or.inr hp)))
    refine ⟨n2, v :: vs, ?_, ?_, g3.trans h3, g4.trans h4⟩
    · simp only [assignList]
      rw [Job.bind_eq h1, Job.bind_eq g1]
      rfl
    · simp only [storesL]
      rw [putAll_append]
      exact g2

theorem assignMembers_cells (hsz : c.size < 2 ^ 63) : (l l' : List (Str × Val)) → Val.AgreeM false l l' → LocatedM l →
    ∀ {n : Native} {s : State}, Native.Shows h n s → (∀ p ∈ Val.placesM l, s.Cell c p) →
    ∃ n' vs, assignMembers (target h c) fo l l' n = (.ok vs, n') ∧ Native.Shows h n' (putAll s (storesM l l')) ∧ n'.bps = n.bps ∧
      n'.wps = n.wps
  | [], _, _, _, n, s, hs, _ => ⟨n, [], by simp only [assignMembers]; rfl, by simp only [storesM]; exact hs, rfl, rfl⟩
  | (nm, x) :: l, l', hl, hw, n, s, hs, hc => by
    simp only [Val.AgreeM] at hl
    simp only [LocatedM] at hw
    simp only [Val.placesM, List.mem_append] at hc
    obtain ⟨⟨y, hy, hxy⟩, hl⟩ := hl
    obtain ⟨n1, v, h1, h2, h3, h4⟩ := assign_cells hsz x y hxy hw.1 hs (fun p hp => hc p (Or.inl hp))
    obtain ⟨n2, vs, g1, g2, g3, g4⟩ := assignMembers_cells hsz l l' hl hw.2 h2 (fun p hp => cell_putAll _ (hc p (Or.inr hp)))
    refine ⟨n2, (nm, v) :: vs, ?_, ?_, g3.trans h3, g4.trans h4⟩
    · simp only [assignMembers, hy]
      rw [Job.bind_eq h1, Job.bind_eq g1]
      rfl
    · simp only [storesM, hy]
      rw [putAll_append]
      exact g2
end

end

/-! ## Reading again -/

/-- What a value becomes when it is read again after an assignment. -/
def Reread (v' : View) (x x' : Val) : Prop :=
  ∀ y, x.Like y → (∀ p ∈ stores x y, v'.mem p.1 = .ok p.2) → x'.Same y

theorem evaluateAt_loc {m : Mode} {types : Types} {v : View} : ∀ {fuel : Nat} {l : Loc} {ty : Ty} {x : Val},
    evaluateAt m types v fuel l ty = .ok x → x.loc = some l := by
  intro fuel l ty x hx
  cases fuel with
  | zero => cases hx
  | succ fuel =>
    cases ty with
    | prim p sz =>
      simp only [evaluateAt] at hx
      obtain ⟨raw, _, hx⟩ := ebind hx
      cases p <;> simp only [primitive] at hx <;> cases hx <;> rfl
    | ptr t sz =>
      simp only [evaluateAt] at hx
      obtain ⟨raw, _, hx⟩ := ebind hx
      cases hx
      rfl
    | struct n sz ms =>
      simp only [evaluateAt] at hx
      obtain ⟨vs, _, hx⟩ := ebind hx
      cases hx
      rfl
    | arr t cnt =>
      cases l with
      | reg r => simp only [evaluateAt] at hx; cases hx
      | off a =>
        simp only [evaluateAt] at hx
        cases ht : types.find t with
        | none => rw [ht] at hx; cases hx
        | some mt =>
          rw [ht] at hx
          obtain ⟨vs, _, hx⟩ := ebind hx
          cases hx
          rfl

theorem setLoc_same {x : Val} {l : Loc} (h : x.loc = some l) : x.setLoc l = x := by
  cases x <;> simp only [Val.loc] at h <;> subst h <;> rfl

/-- The loop over the members. -/
theorem members_reread {v' : View} {β : Type} {f f' : List (Str × Val) → β → Except Err (List (Str × Val))}
    (hstep : ∀ mem acc acc' r, List.Forall₂ (fun p q : Str × Val => p.1 = q.1 ∧ Reread v' p.2 q.2) acc acc' → f acc mem = .ok r →
      ∃ r', f' acc' mem = .ok r' ∧ List.Forall₂ (fun p q : Str × Val => p.1 = q.1 ∧ Reread v' p.2 q.2) r r') :
    ∀ (ms : List β) acc acc' r, List.Forall₂ (fun p q : Str × Val => p.1 = q.1 ∧ Reread v' p.2 q.2) acc acc' → ms.foldlM f acc = .ok r →
      ∃ r', ms.foldlM f' acc' = .ok r' ∧ List.Forall₂ (fun p q : Str × Val => p.1 = q.1 ∧ Reread v' p.2 q.2) r r'
  | [], acc, acc', r, hr, h => by
    cases h
    exact ⟨acc', rfl, hr⟩
  | mem :: ms, acc, acc', r, hr, h => by
    rw [List.foldlM_cons] at h
    obtain ⟨a, h1, h2⟩ := ebind h
    obtain ⟨a', h1', hr'⟩ := hstep mem acc acc' a hr h1
    obtain ⟨r', h3, h4⟩ := members_reread hstep ms a a' r hr' h2
    refine ⟨r', ?_, h4⟩
    rw [List.foldlM_cons, h1']
    exact h3

theorem forall₂_find {v' : View} {n : Str} : ∀ {l l' : List (Str × Val)},
    List.Forall₂ (fun p q : Str × Val => p.1 = q.1 ∧ Reread v' p.2 q.2) l l' →
    (Map.find l n = none ∧ Map.find l' n = none) ∨ ((Map.find l n).isSome = true ∧ (Map.find l' n).isSome = true) := by
  intro l l' h
  induction h with
  | nil => exact Or.inl ⟨rfl, rfl⟩
  | @cons p q l l' hpq _ ih =>
    obtain ⟨a, b⟩ := p
    obtain ⟨a', b'⟩ := q
    obtain ⟨rfl, _⟩ := hpq
    simp only [Map.find_cons]
    by_cases e : a = n
    · simp [e]
    · simpa [e] using ih

theorem mapM_reread {v' : View} {β : Type} {f f' : β → Except Err Val} (hstep : ∀ i x, f i = .ok x → ∃ x', f' i = .ok x' ∧ Reread v' x x') :
    ∀ (l : List β) r, l.mapM f = .ok r → ∃ r', l.mapM f' = .ok r' ∧ List.Forall₂ (Reread v') r r'
  | [], r, h => by
    cases h
    exact ⟨[], rfl, .nil⟩
  | i :: l, r, h => by
    rw [List.mapM_cons] at h
    obtain ⟨x, h1, h2⟩ := ebind h
    obtain ⟨xs, h3, h4⟩ := ebind h2
    cases h4
    obtain ⟨x', g1, g2⟩ := hstep i x h1
    obtain ⟨xs', g3, g4⟩ := mapM_reread hstep l xs h3
    refine ⟨x' :: xs', ?_, .cons g2 g4⟩
    rw [List.mapM_cons, g1]
    show (l.mapM f' >>= _) = _
    rw [g3]
    rfl

theorem reread_list {v' : View} : ∀ {r r' : List Val}, List.Forall₂ (Reread v') r r' → ∀ ys, Val.AgreeL false r ys →
    (∀ p ∈ storesL r ys, v'.mem p.1 = .ok p.2) → Val.AgreeL true r' ys := by
  intro r r' h
  induction h with
  | nil =>
    intro ys hy _
    cases ys with
    | nil => simp only [Val.AgreeL]
    | cons => simp only [Val.AgreeL] at hy
  | @cons x x' l l' hx _ ih =>
    intro ys hy hp
    cases ys with
    | nil => simp only [Val.AgreeL] at hy
    | cons y ys =>
      simp only [Val.AgreeL] at hy ⊢
      simp only [storesL, List.mem_append] at hp
      exact ⟨hx y hy.1 fun p hq => hp p (Or.inl hq), ih ys hy.2 fun p hq => hp p (Or.inr hq)⟩

theorem reread_members {v' : View} : ∀ {r r' : List (Str × Val)},
    List.Forall₂ (fun p q : Str × Val => p.1 = q.1 ∧ Reread v' p.2 q.2) r r' → ∀ ys, Val.AgreeM false r ys →
    (∀ p ∈ storesM r ys, v'.mem p.1 = .ok p.2) → Val.AgreeM true r' ys := by
  intro r r' h
  induction h with
  | nil => intro ys _ _; simp only [Val.AgreeM]
  | @cons p q l l' hpq _ ih =>
    obtain ⟨a, b⟩ := p
    obtain ⟨a', b'⟩ := q
    obtain ⟨e, hx⟩ := hpq
    obtain rfl : a = a' := e
    intro ys hy hp
    simp only [Val.AgreeM] at hy ⊢
    obtain ⟨⟨y, h1, h2⟩, h3⟩ := hy
    simp only [storesM, h1, List.mem_append] at hp
    exact ⟨⟨y, h1, hx y h2 fun p hq => hp p (Or.inl hq)⟩, ih ys h3 fun p hq => hp p (Or.inr hq)⟩

theorem interpret_member (m : Mode) (v v' : View) (a o : Word) :
    interpret m v [.push (.off a), .push (.off o), .add] = interpret m v' [.push (.off a), .push (.off o), .add] := rfl

theorem interpret_member_off {m : Mode} {v : View} {a o : Word} {l : Loc} (h : interpret m v [.push (.off a), .push (.off o), .add] = .ok l) :
    ∃ b, l = .off b := by
  change ((((addS m o a >>= fun w => pure (Loc.off w)) >>= fun r => pure [r]) >>= fun s => Except.ok s) >>= fun s =>
    match s with
    | [] => Except.error Err.debugger
    | x :: _ => Except.ok x) = Except.ok l at h
  cases hq : addS m o a with
  | error e => rw [hq] at h; cases h
  | ok w =>
    rw [hq] at h
    cases h
    exact ⟨w, rfl⟩

/-- Reading a value again from the same place. -/
theorem evaluateAt_reread {m : Mode} {types : Types} {v v' : View} (hkeep : ∀ a w, v.mem a = .ok w → ∃ w', v'.mem a = .ok w') :
    ∀ (fuel : Nat) (a : Word) (ty : Ty) (x : Val), evaluateAt m types v fuel (.off a) ty = .ok x →
    ∃ x', evaluateAt m types v' fuel (.off a) ty = .ok x' ∧ Reread v' x x' := by
  intro fuel
  induction fuel with
  | zero => intro a ty x hx; cases hx
  | succ fuel ih =>
    intro a ty x hx
    cases ty with
    | prim p sz =>
      simp only [evaluateAt, getRaw] at hx ⊢
      obtain ⟨raw, h1, h2⟩ := ebind hx
      obtain ⟨w', h3⟩ := hkeep a raw h1
      rw [h3]
      cases p with
      | float =>
        cases h2
        refine ⟨_, rfl, fun y hy _ => ?_⟩
        cases y <;> simp only [Val.Like, Val.Agree] at hy
      | unsigned => cases h2
      | signed =>
        cases h2
        refine ⟨_, rfl, fun y hy hp => ?_⟩
        cases y with
        | int yv l =>
          have := hp (a, yv) (by simp [stores, at'])
          rw [show v'.mem a = .ok yv from this] at h3
          injection h3 with h3
          simp only [Val.Same, Val.Agree]
          exact fun _ => h3.symm
        | _ => simp only [Val.Like, Val.Agree] at hy
      | char =>
        cases h2
        refine ⟨_, rfl, fun y hy hp => ?_⟩
        cases y with
        | char yv l =>
          have := hp (a, yv.signExtend 64) (by simp [stores, at'])
          rw [show v'.mem a = .ok _ from this] at h3
          injection h3 with h3
          simp only [Val.Same, Val.Agree]
          intro _
          subst h3
          exact low_byte yv
        | _ => simp only [Val.Like, Val.Agree] at hy
    | ptr t sz =>
      simp only [evaluateAt, getRaw] at hx ⊢
      obtain ⟨raw, h1, h2⟩ := ebind hx
      obtain ⟨w', h3⟩ := hkeep a raw h1
      rw [h3]
      cases h2
      refine ⟨_, rfl, fun y hy hp => ?_⟩
      cases y with
      | ptr t' sz' yv l =>
        have := hp (a, yv) (by simp [stores, at'])
        rw [show v'.mem a = .ok yv from this] at h3
        injection h3 with h3
        simp only [Val.Same, Val.Like, Val.Agree] at hy ⊢
        exact ⟨hy.1, fun _ => h3.symm⟩
      | _ => simp only [Val.Like, Val.Agree] at hy
    | struct n sz ms =>
      simp only [evaluateAt] at hx ⊢
      obtain ⟨vs, h1, h2⟩ := ebind hx
      cases h2
      obtain ⟨vs', g1, g2⟩ := members_reread (v' := v') (f' := fun acc mem => do
          let ml ← interpret m v' [.push (.off a), .push (.off mem.offset), .add]
          match types.find mem.typeId with
          | none => .error .debugger
          | some mt => do
            let mv ← evaluateAt m types v' fuel ml mt
            return Map.emplace acc mem.name (mv.setLoc ml)) (by
        intro mem acc acc' r hr hf
        obtain ⟨ml, h3, h4⟩ := ebind hf
        obtain ⟨b, rfl⟩ := interpret_member_off h3
        rw [interpret_member m v v'] at h3
        rw [h3]
        cases ht : types.find mem.typeId with
        | none => rw [ht] at h4; cases h4
        | some mt =>
          rw [ht] at h4
          obtain ⟨mv, h5, h6⟩ := ebind h4
          cases h6
          obtain ⟨mv', h7, h8⟩ := ih b mt mv h5
          refine ⟨Map.emplace acc' mem.name (mv'.setLoc (.off b)), ?_, ?_⟩
          · show (evaluateAt m types v' fuel (.off b) mt >>= _) = _
            rw [h7]
            rfl
          · rw [setLoc_same (evaluateAt_loc h5), setLoc_same (evaluateAt_loc h7)]
            unfold Map.emplace
            rcases forall₂_find (n := mem.name) hr with ⟨e1, e2⟩ | ⟨e1, e2⟩
            · rw [e1, e2]
              exact List.rel_append hr (.cons ⟨rfl, h8⟩ .nil)
            · obtain ⟨u, e1⟩ := Option.isSome_iff_exists.1 e1
              obtain ⟨u', e2⟩ := Option.isSome_iff_exists.1 e2
              rw [e1, e2]
              exact hr) ms [] [] vs .nil h1
      refine ⟨.struct n sz vs' (some (.off a)), ?_, fun y hy hp => ?_⟩
      · exact (ebind_eq g1).trans rfl
      · cases y with
        | struct n' sz' ms' l' =>
          simp only [Val.Same, Val.Like, Val.Agree] at hy ⊢
          simp only [stores] at hp
          exact ⟨hy.1, reread_members g2 ms' hy.2 hp⟩
        | _ => simp only [Val.Like, Val.Agree] at hy
    | arr t cnt =>
      simp only [evaluateAt] at hx ⊢
      cases ht : types.find t with
      | none => rw [ht] at hx; cases hx
      | some mt =>
        rw [ht] at hx
        obtain ⟨vs, h1, h2⟩ := ebind hx
        cases h2
        obtain ⟨vs', g1, g2⟩ := mapM_reread (v' := v') (f' := fun i => do
            let size ← getTypeSize types t
            let ml := Loc.off (a + BitVec.ofNat 64 i * size)
            let mv ← evaluateAt m types v' fuel ml mt
            return mv.setLoc ml) (by
          intro i x hf
          obtain ⟨size, h3, h4⟩ := ebind hf
          obtain ⟨mv, h5, h6⟩ := ebind h4
          cases h6
          obtain ⟨mv', h7, h8⟩ := ih _ mt mv h5
          refine ⟨mv', ?_, ?_⟩
          · rw [h3]
            show (evaluateAt m types v' fuel _ mt >>= _) = _
            rw [h7]
            show Except.ok (mv'.setLoc _) = _
            rw [setLoc_same (evaluateAt_loc h7)]
          · rw [setLoc_same (evaluateAt_loc h5)]
            exact h8) _ vs h1
        refine ⟨.arr t cnt a vs' (some (.off a)), ?_, fun y hy hp => ?_⟩
        · exact (ebind_eq g1).trans rfl
        · cases y with
          | arr t' cnt' st' ms' l' =>
            simp only [Val.Same, Val.Like, Val.Agree] at hy ⊢
            simp only [stores] at hp
            exact ⟨hy.1, reread_list g2 ms' hy.2 hp⟩
          | _ => simp only [Val.Like, Val.Agree] at hy

/-! ## Where a value is -/

theorem locatedL_iff : ∀ {l : List Val}, LocatedL l ↔ ∀ x ∈ l, Located x
  | [] => by simp [LocatedL]
  | x :: l => by simp [LocatedL, locatedL_iff (l := l)]

theorem locatedM_iff : ∀ {l : List (Str × Val)}, LocatedM l ↔ ∀ p ∈ l, Located p.2
  | [] => by simp [LocatedM]
  | (n, x) :: l => by simp [LocatedM, locatedM_iff (l := l)]

theorem mem_placesL {q : Option Loc} : ∀ {l : List Val}, q ∈ Val.placesL l ↔ ∃ x ∈ l, q ∈ x.places
  | [] => by simp [Val.placesL]
  | x :: l => by simp [Val.placesL, mem_placesL (l := l)]

theorem mem_placesM {q : Option Loc} : ∀ {l : List (Str × Val)}, q ∈ Val.placesM l ↔ ∃ p ∈ l, q ∈ p.2.places
  | [] => by simp [Val.placesM]
  | (n, x) :: l => by simp [Val.placesM, mem_placesM (l := l)]

theorem foldlM_inv {α β : Type} {f : α → β → Except Err α} {P : α → Prop} (hf : ∀ a b r, P a → f a b = .ok r → P r) :
    ∀ (l : List β) a r, P a → l.foldlM f a = .ok r → P r
  | [], a, r, ha, h => by cases h; exact ha
  | b :: l, a, r, ha, h => by
    rw [List.foldlM_cons] at h
    obtain ⟨a', h1, h2⟩ := ebind h
    exact foldlM_inv hf l a' r (hf a b a' ha h1) h2

theorem mapM_inv {α β : Type} {f : α → Except Err β} {P : β → Prop} (hf : ∀ a r, f a = .ok r → P r) :
    ∀ (l : List α) r, l.mapM f = .ok r → ∀ x ∈ r, P x
  | [], r, h => by cases h; intro x hx; cases hx
  | a :: l, r, h => by
    rw [List.mapM_cons] at h
    obtain ⟨x, h1, h2⟩ := ebind h
    obtain ⟨xs, h3, h4⟩ := ebind h2
    cases h4
    intro y hy
    rcases List.mem_cons.1 hy with rfl | hy
    · exact hf a y h1
    · exact mapM_inv hf l xs h3 y hy

theorem mem_emplace {m : Map Str Val} {k : Str} {v : Val} {p : Str × Val} (h : p ∈ m.emplace k v) : p ∈ m ∨ p = (k, v) := by
  unfold Map.emplace at h
  split at h
  · exact Or.inl h
  · rcases List.mem_append.1 h with h | h
    · exact Or.inl h
    · exact Or.inr (List.mem_singleton.1 h)

/-- Every part of a value that has been read has a location, and its numbers are in memory cells that have been read. -/
theorem evaluateAt_places {m : Mode} {types : Types} {v : View} : ∀ (fuel : Nat) (a : Word) (ty : Ty) (x : Val),
    evaluateAt m types v fuel (.off a) ty = .ok x →
    Located x ∧ ∀ q ∈ x.places, ∃ b w, q = some (.off b) ∧ v.mem b = .ok w := by
  intro fuel
  induction fuel with
  | zero => intro a ty x hx; cases hx
  | succ fuel ih =>
    intro a ty x hx
    cases ty with
    | prim p sz =>
      simp only [evaluateAt, getRaw] at hx
      obtain ⟨raw, h1, h2⟩ := ebind hx
      cases p <;> simp only [primitive] at h2 <;> cases h2 <;>
        exact ⟨rfl, fun q hq => ⟨a, raw, by simpa [Val.places] using hq, h1⟩⟩
    | ptr t sz =>
      simp only [evaluateAt, getRaw] at hx
      obtain ⟨raw, h1, h2⟩ := ebind hx
      cases h2
      exact ⟨rfl, fun q hq => ⟨a, raw, by simpa [Val.places] using hq, h1⟩⟩
    | struct n sz ms =>
      simp only [evaluateAt] at hx
      obtain ⟨vs, h1, h2⟩ := ebind hx
      cases h2
      have h3 := foldlM_inv (P := fun l : Map Str Val => ∀ p ∈ l, Located p.2 ∧ ∀ q ∈ p.2.places, ∃ b w, q = some (.off b) ∧ v.mem b = .ok w)
        (by
          intro acc mem r hacc hf p hp
          obtain ⟨ml, h3, h4⟩ := ebind hf
          obtain ⟨b, rfl⟩ := interpret_member_off h3
          cases ht : types.find mem.typeId with
          | none => rw [ht] at h4; cases h4
          | some mt =>
            rw [ht] at h4
            obtain ⟨mv, h5, h6⟩ := ebind h4
            cases h6
            rcases mem_emplace hp with hp | rfl
            · exact hacc p hp
            · rw [setLoc_same (evaluateAt_loc h5)]
              exact ih b mt mv h5) ms [] vs (by intro p hp; cases hp) h1
      refine ⟨?_, fun q hq => ?_⟩
      · simp only [Located]
        exact ⟨rfl, locatedM_iff.2 fun p hp => (h3 p hp).1⟩
      · simp only [Val.places] at hq
        obtain ⟨p, hp, hq⟩ := mem_placesM.1 hq
        exact (h3 p hp).2 q hq
    | arr t cnt =>
      simp only [evaluateAt] at hx
      cases ht : types.find t with
      | none => rw [ht] at hx; cases hx
      | some mt =>
        rw [ht] at hx
        obtain ⟨vs, h1, h2⟩ := ebind hx
        cases h2
        have h3 := mapM_inv (P := fun x : Val => Located x ∧ ∀ q ∈ x.places, ∃ b w, q = some (.off b) ∧ v.mem b = .ok w) (by
          intro i x hf
          obtain ⟨size, h3, h4⟩ := ebind hf
          obtain ⟨mv, h5, h6⟩ := ebind h4
          cases h6
          rw [setLoc_same (evaluateAt_loc h5)]
          exact ih _ mt mv h5) _ vs h1
        refine ⟨?_, fun q hq => ?_⟩
        · simp only [Located]
          exact ⟨rfl, locatedL_iff.2 fun x hx => (h3 x hx).1⟩
        · simp only [Val.places] at hq
          obtain ⟨x, hx, hq⟩ := mem_placesL.1 hq
          exact (h3 x hx).2 q hq

/-- A structure whose address is in a register is the one at that address. -/
theorem evaluateAt_reg {m : Mode} {types : Types} {v : View} {fuel : Nat} {r nm : Str} {sz : Word} {ms : List Member} {x : Val}
    (hx : evaluateAt m types v (fuel + 1) (.reg r) (.struct nm sz ms) = .ok x) :
    ∃ b, ∀ v' : View, v'.reg r = v.reg r → evaluateAt m types v' (fuel + 1) (.reg r) (.struct nm sz ms) =
      (evaluateAt m types v' (fuel + 1) (.off b) (.struct nm sz ms)).map (Val.setLoc (.reg r)) := by
  have key : ∀ (b : Word) (v' : View), v'.reg r = .ok b → evaluateAt m types v' (fuel + 1) (.reg r) (.struct nm sz ms) =
      (evaluateAt m types v' (fuel + 1) (.off b) (.struct nm sz ms)).map (Val.setLoc (.reg r)) := by
    intro b v' hb
    have hi : ∀ o, interpret m v' [.push (.reg r), .push (.off o), .add] = interpret m v' [.push (.off b), .push (.off o), .add] := by
      intro o
      simp [interpret, locRun, locStep, addOperands, Loc.value, hb, bind, Except.bind]
    simp only [evaluateAt, hi]
    have hz : ∀ z : Except Err (Map Str Val), (z >>= fun vs => pure (Val.struct nm sz vs (some (.reg r)))) =
        (z >>= fun vs => pure (Val.struct nm sz vs (some (.off b)))).map (Val.setLoc (.reg r)) := by
      intro z
      cases z <;> rfl
    exact hz _
  cases hr : v.reg r with
  | ok b => exact ⟨b, fun v' hv => key b v' hv⟩
  | error e =>
    cases ms with
    | nil => exact ⟨0, fun v' _ => by simp only [evaluateAt, List.foldlM]; rfl⟩
    | cons mem ms =>
      simp only [evaluateAt, List.foldlM_cons] at hx
      obtain ⟨vs, h1, _⟩ := ebind hx
      obtain ⟨acc, h2, _⟩ := ebind h1
      obtain ⟨ml, h3, _⟩ := ebind h2
      simp [interpret, locRun, locStep, addOperands, Loc.value, hr, bind, Except.bind] at h3

theorem setLoc_agree {x y : Val} {l : Loc} {eq : Bool} : (x.setLoc l).Agree eq y ↔ x.Agree eq y := by
  cases x <;> cases y <;> simp [Val.setLoc, Val.Agree]

/-- What is in memory has been read from there, also when its address is in a register. -/
theorem evaluateAt_inMemory {m : Mode} {types : Types} {v : View} {fuel : Nat} {p : Loc} {ty : Ty} {x : Val}
    (hx : evaluateAt m types v fuel p ty = .ok x) (hm : ∀ q ∈ x.places, ∃ b, q = some (.off b)) :
    (Located x ∧ ∀ q ∈ x.places, ∃ b w, q = some (.off b) ∧ v.mem b = .ok w) ∧
    ∀ v' : View, (∀ r, v'.reg r = v.reg r) → (∀ a w, v.mem a = .ok w → ∃ w', v'.mem a = .ok w') →
      ∃ x', evaluateAt m types v' fuel p ty = .ok x' ∧ Reread v' x x' := by
  cases p with
  | off a => exact ⟨evaluateAt_places fuel a ty x hx, fun v' _ hk => evaluateAt_reread hk fuel a ty x hx⟩
  | reg r =>
    cases fuel with
    | zero => cases hx
    | succ fuel =>
      cases ty with
      | prim k sz =>
        simp only [evaluateAt] at hx
        obtain ⟨raw, _, hx⟩ := ebind hx
        cases k <;> simp only [primitive] at hx <;> cases hx <;>
          obtain ⟨b, hb⟩ := hm (some (.reg r)) (by simp [Val.places]) <;> cases hb
      | ptr t sz =>
        simp only [evaluateAt] at hx
        obtain ⟨raw, _, hx⟩ := ebind hx
        cases hx
        obtain ⟨b, hb⟩ := hm (some (.reg r)) (by simp [Val.places])
        cases hb
      | arr t cnt => simp only [evaluateAt] at hx; cases hx
      | struct nm sz ms =>
        obtain ⟨b, hb⟩ := evaluateAt_reg hx
        rw [hb v rfl] at hx
        cases h0 : evaluateAt m types v (fuel + 1) (.off b) (.struct nm sz ms) with
        | error e => rw [h0] at hx; cases hx
        | ok x0 =>
          rw [h0] at hx
          cases hx
          have hst : ∃ vs, x0 = .struct nm sz vs (some (.off b)) := by
            simp only [evaluateAt] at h0
            obtain ⟨vs, _, h0⟩ := ebind h0
            cases h0
            exact ⟨vs, rfl⟩
          obtain ⟨vs, rfl⟩ := hst
          obtain ⟨g1, g2⟩ := evaluateAt_places _ _ _ _ h0
          refine ⟨⟨?_, ?_⟩, fun v' hr hk => ?_⟩
          · simp only [Val.setLoc, Located] at g1 ⊢
            exact ⟨rfl, g1.2⟩
          · simpa [Val.setLoc, Val.places] using g2
          · obtain ⟨x', k1, k2⟩ := evaluateAt_reread hk _ _ _ _ h0
            refine ⟨x'.setLoc (.reg r), by rw [hb v' (hr r), k1]; rfl, fun y hy hp => ?_⟩
            refine setLoc_agree.2 (k2 y (setLoc_agree.1 hy) fun q hq => hp q ?_)
            cases y with
            | struct => simpa [Val.setLoc, stores] using hq
            | _ => simp [stores] at hq

mutual
/-- The cells written are those of the value. -/
theorem stores_places : (x y : Val) → x.Like y → (∀ q ∈ x.places, ∃ b, q = some (.off b)) →
    (stores x y).map (fun p => some (Loc.off p.1)) = x.places
  | .int v l, y, hl, hc => by
    obtain ⟨b, rfl⟩ := hc l (by simp [Val.places])
    cases y with
    | int w l' => simp [stores, at', Val.places]
    | _ => simp only [Val.Like, Val.Agree] at hl
  | .float v l, y, hl, hc => by
    cases y <;> simp only [Val.Like, Val.Agree] at hl
  | .char v l, y, hl, hc => by
    obtain ⟨b, rfl⟩ := hc l (by simp [Val.places])
    cases y with
    | char w l' => simp [stores, at', Val.places]
    | _ => simp only [Val.Like, Val.Agree] at hl
  | .ptr t sz v l, y, hl, hc => by
    obtain ⟨b, rfl⟩ := hc l (by simp [Val.places])
    cases y with
    | ptr t' sz' w l' => simp [stores, at', Val.places]
    | _ => simp only [Val.Like, Val.Agree] at hl
  | .arr t cnt st ms l, y, hl, hc => by
    cases y with
    | arr t' cnt' st' ms' l' =>
      simp only [Val.Like, Val.Agree] at hl
      simp only [stores, Val.places] at hc ⊢
      exact storesL_places ms ms' hl.2 hc
    | _ => simp only [Val.Like, Val.Agree] at hl
  | .struct nm sz ms l, y, hl, hc => by
    cases y with
    | struct nm' sz' ms' l' =>
      simp only [Val.Like, Val.Agree] at hl
      simp only [stores, Val.places] at hc ⊢
      exact storesM_places ms ms' hl.2 hc
    | _ => simp only [Val.Like, Val.Agree] at hl

theorem storesL_places : (l l' : List Val) → Val.AgreeL false l l' → (∀ q ∈ Val.placesL l, ∃ b, q = some (.off b)) →
    (storesL l l').map (fun p => some (Loc.off p.1)) = Val.placesL l
  | [], [], _, _ => by simp [storesL, Val.placesL]
  | [], _ :: _, hl, _ => by simp only [Val.AgreeL] at hl
  | _ :: _, [], hl, _ => by simp only [Val.AgreeL] at hl
  | x :: l, y :: l', hl, hc => by
    simp only [Val.AgreeL] at hl
    simp only [Val.placesL, List.mem_append] at hc ⊢
    simp only [storesL, List.map_append]
    rw [stores_places x y hl.1 fun q hq => hc q (Or.inl hq), storesL_places l l' hl.2 fun q hq => hc q (Or.inr hq)]

theorem storesM_places : (l l' : List (Str × Val)) → Val.AgreeM false l l' → (∀ q ∈ Val.placesM l, ∃ b, q = some (.off b)) →
    (storesM l l').map (fun p => some (Loc.off p.1)) = Val.placesM l
  | [], _, _, _ => by simp [storesM, Val.placesM]
  | (nm, x) :: l, l', hl, hc => by
    simp only [Val.AgreeM] at hl
    simp only [Val.placesM, List.mem_append] at hc ⊢
    obtain ⟨⟨y, hy, hxy⟩, hl⟩ := hl
    simp only [storesM, hy, List.map_append]
    rw [stores_places x y hxy fun q hq => hc q (Or.inl hq), storesM_places l l' hl fun q hq => hc q (Or.inr hq)]
end

/-! ## The view of the debugger -/

section
variable {h : Host} {c : Client} {n n' : Native} {s s' : State}

theorem view_cell (hs : Native.Shows h n s) (hsz : c.size < 2 ^ 63) {a w : Word} (ha : a.toNat < c.size) (hw : s.mem a = some w) :
    ((target h c).view n).mem a = .ok w := by
  have := readMemory_shows (c := c) (a := a) (m := 1) (l := [w]) hs rfl (show a.toNat + 1 ≤ c.size from ha) hsz (by
    intro j w' hj
    cases j with
    | zero =>
      cases hj
      simpa using hw
    | succ j => cases hj)
  show ((readMemory h c a 1 n).1 >>= fun l => match l[0]? with | some w => .ok w | none => .error .ub) = _
  rw [this]
  rfl

theorem cell_of_view (hs : Native.Shows h n s) (hsz : c.size < 2 ^ 63) {a w : Word} (hv : ((target h c).view n).mem a = .ok w) :
    a.toNat < c.size ∧ s.mem a = some w := by
  obtain ⟨l, h1, _⟩ := ebind hv
  have h2 : a.toNat < c.size ∧ (s.mem a).isSome = true := by
    have hr : readMemory h c a 1 n = (.ok l, (readMemory h c a 1 n).2) := Prod.ext h1 rfl
    obtain ⟨l', hp⟩ : ∃ l', Proc.readMemory h c a 1 n.link = (.ok l, l') := by
      exact ⟨(Proc.readMemory h c a 1 n.link).2, Prod.ext (show (readMemory h c a 1 n).1 = _ from h1) rfl⟩
    unfold Proc.readMemory at hp
    by_cases e : (a + 1).toNat > c.size
    · rw [if_pos e] at hp
      cases hp
    · rw [if_neg e] at hp
      obtain ⟨why, hw⟩ := hs.live.stopped
      obtain ⟨k, str, t, h3, h4, _⟩ := Link.ask_answer ⟨hs.live.toVm, hs.live.toDbg, by rw [hw]; simp⟩ hp
      rw [Proto.parse_peekData] at h3
      obtain ⟨i, h5, h3⟩ := ebind h3
      have hi : a.toNat < 2 ^ 63 := by
        by_contra hc
        rw [Proto.index_large hc] at h5
        cases h5
      rw [Proto.index_ofNat hi] at h5
      cases h5
      change (do let m ← Proto.index (ofNat 1); return Cmd.peekData a.toNat m) = _ at h3
      rw [Proto.index_ofNat (by decide)] at h3
      cases h3
      refine ⟨?_, ?_⟩
      · have e1 : (1 : Word).toNat = 1 := rfl
        rw [BitVec.toNat_add, e1, Nat.mod_eq_of_lt (by omega)] at e
        omega
      · rcases h4 with ⟨why', c', rep, nx, h6, h7, _⟩ | ⟨h6, _⟩
        · change (Cpu.peekData n.link.vm.cpu a.toNat 1 >>= _) = _ at h7
          obtain ⟨d, h8, _⟩ := ebind h7
          unfold Cpu.peekData at h8
          rw [show List.range 1 = [0] from rfl, List.mapM_cons] at h8
          obtain ⟨w, h9, _⟩ := ebind h8
          unfold Ram.get at h9
          have : (BitVec.ofNat 64 (a.toNat + 0)) = a := by simp
          rw [this, hs.machine.mem] at h9
          cases hm : s.mem a with
          | none => rw [hm] at h9; cases h9
          | some w => rfl
        · rw [hw] at h6
          cases h6
  obtain ⟨w', hw'⟩ := Option.isSome_iff_exists.1 h2.2
  have := view_cell hs hsz h2.1 hw'
  rw [hv] at this
  injection this with this
  subst this
  exact ⟨h2.1, hw'⟩

theorem view_reg (hs : Native.Shows h n s) (hs' : Native.Shows h n' s') (hl : ∀ r, s'.look (.int r) = s.look (.int r)) (name : Str) :
    ((target h c).view n').reg name = ((target h c).view n).reg name := by
  show (getRegister h name n').1 = (getRegister h name n).1
  by_cases hn : ∃ r ∈ shown h.cfg, name = r.print
  · obtain ⟨r, hr, rfl⟩ := hn
    rw [(C49_read_register hs').1 r hr, (C49_read_register hs).1 r hr, hl]
  · rw [(C49_read_register hs').2 name fun r hr e => hn ⟨r, hr, e⟩, (C49_read_register hs).2 name fun r hr e => hn ⟨r, hr, e⟩]

theorem target_ip (hs : Native.Shows h n s) : (target h c).ip n = .ok s.pc.toNat := by
  show ((getRegister h "IP".toList n).1 >>= fun w => .ok w.toNat) = _
  have : getRegister h (Reg.pc).print n = (.ok (s.look (.int .pc)), n) := hs.regs .pc (by simp [shown])
  rw [show "IP".toList = (Reg.pc).print from rfl, this]
  rfl

end

/-- A location expression without DEREFERENCE looks at registers only. -/
theorem locRun_regs {m : Mode} {v v' : View} (hv : ∀ r, v'.reg r = v.reg r) : ∀ (l : List LocIns) (st : List Loc), (∀ i ∈ l, i ≠ .deref) →
    locRun m v' st l = locRun m v st l
  | [], st, _ => rfl
  | i :: l, st, hd => by
    have h1 : locStep m v' st i = locStep m v st i := by
      cases i with
      | push x => rfl
      | add =>
        have hval : ∀ x : Loc, x.value v' = x.value v := fun x => by cases x <;> simp only [Loc.value, hv]
        simp only [locStep, addOperands, hval]
      | baseOffset o => simp only [locStep, hv]
      | deref => exact absurd rfl (hd _ (List.mem_cons_self ..))
    simp only [locRun, h1]
    cases locStep m v st i with
    | error e => rfl
    | ok st' => exact locRun_regs hv l st' fun j hj => hd j (List.mem_cons_of_mem _ hj)

theorem interpret_regs {m : Mode} {v v' : View} (hv : ∀ r, v'.reg r = v.reg r) (l : List LocIns) (hd : ∀ i ∈ l, i ≠ .deref) :
    interpret m v' l = interpret m v l := by
  unfold interpret
  rw [locRun_regs hv l [] hd]

end Ex
section
open Ex
variable {fo : Floats}

mutual
/-- What is assigned has the shape of the place. -/
theorem assign_takes {σ : Type} {t : Target σ} : (x y : Val) → ∀ {v : Val} {s s' : σ}, assign t fo x y s = (.ok v, s') → x.Takes y
  | .arr a p q ms l, y, v, s, s', h => by
    cases l with
    | none => cases (congrArg Prod.fst h : _ = _)
    | some l =>
      cases y with
      | arr a' p' q' ms' l' =>
        simp only [assign] at h
        by_cases e : a = a'
        · rw [if_neg (by simp [e])] at h
          by_cases e' : ms.length = ms'.length
          · rw [if_neg (by simp [e'])] at h
            obtain ⟨vs, s1, h1, _⟩ := Job.bind_ok h
            exact ⟨by simp, e, assignList_takes ms ms' e' h1⟩
          · rw [if_pos e'] at h
            cases (congrArg Prod.fst h : _ = _)
        · rw [if_pos e] at h
          cases (congrArg Prod.fst h : _ = _)
      | _ => cases (congrArg Prod.fst h : _ = _)
  | .struct a p ms l, y, v, s, s', h => by
    cases l with
    | none => cases (congrArg Prod.fst h : _ = _)
    | some l =>
      cases y with
      | struct a' p' ms' l' =>
        simp only [assign] at h
        by_cases e : a = a'
        · rw [if_neg (by simp [e])] at h
          obtain ⟨vs, s1, h1, _⟩ := Job.bind_ok h
          exact ⟨by simp, e, assignMembers_takes ms ms' h1⟩
        · rw [if_pos e] at h
          cases (congrArg Prod.fst h : _ = _)
      | _ => cases (congrArg Prod.fst h : _ = _)
  | .ptr a p w l, y, v, s, s', h => by
    cases l with
    | none => cases (congrArg Prod.fst h : _ = _)
    | some l =>
      cases y with
      | ptr a' p' w' l' =>
        simp only [assign] at h
        by_cases e : a = a'
        · exact ⟨by simp, e⟩
        · rw [if_pos e] at h
          cases (congrArg Prod.fst h : _ = _)
      | _ => cases (congrArg Prod.fst h : _ = _)
  | .int w l, y, v, s, s', h => by
    cases l <;> cases y <;> first | cases (congrArg Prod.fst h : _ = _) | simp [Val.Takes]
  | .float w l, y, v, s, s', h => by
    cases l <;> cases y <;> first | cases (congrArg Prod.fst h : _ = _) | simp [Val.Takes]
  | .char w l, y, v, s, s', h => by
    cases l <;> cases y <;> first | cases (congrArg Prod.fst h : _ = _) | simp [Val.Takes]

theorem assignList_takes {σ : Type} {t : Target σ} : (l l' : List Val) → l.length = l'.length → ∀ {v : List Val} {s s' : σ},
    assignList t fo l l' s = (.ok v, s') → Val.TakesL l l'
  | [], [], _, _, _, _, _ => trivial
  | [], _ :: _, e, _, _, _, _ => by cases e
  | _ :: _, [], e, _, _, _, _ => by cases e
  | x :: l, y :: l', e, v, s, s', h => by
    simp only [assignList] at h
    obtain ⟨v1, s1, h1, h⟩ := Job.bind_ok h
    obtain ⟨vs, s2, h2, h⟩ := Job.bind_ok h
    exact ⟨assign_takes x y h1, assignList_takes l l' (by simpa using e) h2⟩

theorem assignMembers_takes {σ : Type} {t : Target σ} : (l l' : List (Str × Val)) → ∀ {v : List (Str × Val)} {s s' : σ},
    assignMembers t fo l l' s = (.ok v, s') → Val.TakesM l l'
  | [], _, _, _, _, _ => trivial
  | (n, x) :: l, l', v, s, s', h => by
    simp only [assignMembers] at h
    cases hf : Map.find l' n with
    | none =>
      rw [hf] at h
      cases (congrArg Prod.fst h : _ = _)
    | some y =>
      rw [hf] at h
      obtain ⟨v1, s1, h1, h⟩ := Job.bind_ok h
      obtain ⟨vs, s2, h2, h⟩ := Job.bind_ok h
      exact ⟨⟨y, hf, assign_takes x y h1⟩, assignMembers_takes l l' h2⟩
end

end

end T86
