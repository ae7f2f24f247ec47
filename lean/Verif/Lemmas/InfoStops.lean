import Verif.Lemmas.InfoAsm

/-! # Reading debugging information terminates -/

set_option linter.unusedSimpArgs false
set_option linter.unusedVariables false

namespace T86
open Dbg Str

namespace Reader

/-- With at most `n` more tokens before the end, the reader does not run out of its bounds, and when it has asked for the rest
of the text it has finished. -/
def Stops {α : Type} : Nat → Reader α → Prop
  | _, .pure _ => True
  | _, .fail e => e ≠ .diverge
  | n, .next _ k => Stops n (k .eof) ∧ ∀ m, n = m + 1 → ∀ t, t ≠ .eof → Stops m (k t)
  | _, .raw k => ∀ t, ∃ a, k t = .pure a

theorem Live.stops {α β : Type} {Q : Nat → α → Prop} {x : Reader α} {f : α → Reader β} {n : Nat} (h : x.Live Q n)
    (hf : ∀ m a, Q m a → Stops m (f a)) : Stops n (x.bind f) := by
  induction x generalizing n with
  | pure a => exact hf n a h
  | fail e => exact h
  | next i k ih => exact ⟨ih _ h.1, fun m hm t ht => ih t (h.2 m hm t ht)⟩
  | raw k ih => exact h.elim

theorem Live.stops0 {α : Type} {Q : Nat → α → Prop} {x : Reader α} {n : Nat} (h : x.Live Q n) : Stops n x := by
  induction x generalizing n with
  | pure a => trivial
  | fail e => exact h
  | next i k ih => exact ⟨ih _ h.1, fun m hm t ht => ih t (h.2 m hm t ht)⟩
  | raw k ih => exact h.elim

theorem Stops.map {α β : Type} {x : Reader α} {f : α → β} {n : Nat} (h : Stops n x) : Stops n (x.bind fun a => .pure (f a)) := by
  induction x generalizing n with
  | pure a => trivial
  | fail e => exact h
  | next i k ih => exact ⟨ih _ h.1, fun m hm t ht => ih t (h.2 m hm t ht)⟩
  | raw k ih =>
    intro t
    obtain ⟨a, ha⟩ := h t
    exact ⟨f a, by show (k t).bind _ = _; rw [ha]; rfl⟩

theorem Stops.run {α : Type} {stod : Str → Except Err Word} (hst : ∀ w, stod w ≠ .error .diverge) {x : Reader α}
    {n : Nat} (h : Stops n x) {s : Str} (hs : s.length ≤ n) : x.run stod s ≠ .error .diverge := by
  induction x generalizing n s with
  | pure a => intro h; cases h
  | fail e => intro he; cases he; exact h rfl
  | next i k ih =>
    rw [Reader.run]
    cases hl : Lexer.lex stod i s with
    | error e => intro he; cases he; exact Lexer.lex_error hst hl
    | ok p =>
      obtain ⟨t, r⟩ := p
      rcases Lexer.lex_length hl with ⟨rfl, rfl⟩ | hlt
      · exact ih _ h.1 (by simp)
      · by_cases ht : t = .eof
        · subst ht
          exact ih _ h.1 (by omega)
        · obtain ⟨m, rfl⟩ : ∃ m, n = m + 1 := ⟨n - 1, by omega⟩
          exact ih t (h.2 m rfl t ht) (by omega)
  | raw k ih =>
    obtain ⟨a, ha⟩ := h (s.drop 1)
    rw [Reader.run, ha]
    intro h; cases h

end Reader

namespace Info
open Pars
variable {α β : Type}

/-- When at most so much is left, does not go back. -/
def Stay (W : Nat) (x : Pars α) : Prop := ∀ n s, weight n s ≤ W → (x s).Live (fun n' r => weight n' r.2 ≤ weight n s) n

/-- Reads at least one token, if there is one. -/
def Move (W : Nat) (x : Pars α) : Prop := ∀ n s, weight n s ≤ W → (x s).Live (fun n' r => weight n' r.2 ≤ 2 * n) n

/-- Reads at least one token. -/
def Eat (W : Nat) (x : Pars α) : Prop := ∀ n s, weight n s ≤ W → (x s).Live (fun n' r => weight n' r.2 < weight n s) n

variable {W : Nat}

theorem Move.stay {x : Pars α} (h : Move W x) : Stay W x := fun n s hw =>
  (h n s hw).mono fun m r hr => Nat.le_trans hr (by unfold weight; omega)

theorem Eat.stay {x : Pars α} (h : Eat W x) : Stay W x := fun n s hw =>
  (h n s hw).mono fun m r hr => Nat.le_of_lt hr

theorem Stay.bind {x : Pars α} {f : α → Pars β} (h : Stay W x) (hf : ∀ a, Stay W (f a)) : Stay W (x >>= f) := fun n s hw =>
  (h n s hw).bind fun m r hr => (hf r.1 m r.2 (by omega)).mono fun m' r' hr' => Nat.le_trans hr' hr

theorem Move.bind {x : Pars α} {f : α → Pars β} (h : Move W x) (hf : ∀ a, Stay W (f a)) : Move W (x >>= f) := fun n s hw =>
  (h n s hw).bind fun m r hr => (hf r.1 m r.2 (by unfold weight at hw ⊢ hr; omega)).mono fun m' r' hr' => Nat.le_trans hr' hr

theorem Eat.bind {x : Pars α} {f : α → Pars β} (h : Eat W x) (hf : ∀ a, Stay W (f a)) : Eat W (x >>= f) := fun n s hw =>
  (h n s hw).bind fun m r hr => (hf r.1 m r.2 (by omega)).mono fun m' r' hr' => Nat.lt_of_le_of_lt hr' hr

theorem Stay.tok {f : Tok → Pars β} (h : ∀ t, Stay W (f t)) : Stay W (tok >>= f) := fun n s hw => h s.tok n s hw

theorem Move.tok {f : Tok → Pars β} (h : ∀ t, Move W (f t)) : Move W (tok >>= f) := fun n s hw => h s.tok n s hw

theorem Eat.tok {f : Tok → Pars β} (he : f .eof = Pars.throw Err.parser) (h : ∀ t, t ≠ .eof → Move W (f t)) : Eat W (tok >>= f) := by
  intro n s hw
  show (f s.tok s).Live _ n
  by_cases ht : s.tok = .eof
  · rw [ht, he]
    intro h
    cases h
  · refine (h s.tok ht n s hw).mono fun m r hr => ?_
    rw [Asm.weight_pos ht]
    omega

theorem Move.throw : Move W (throw .parser : Pars α) := fun n s _ h => by cases h
theorem Stay.throw : Stay W (Pars.throw .parser : Pars α) := fun n s _ h => by cases h
theorem Stay.pure (a : α) : Stay W (pure a) := fun n s _ => Nat.le_refl _
theorem Move.next (i : Bool) : Move W (next i) := fun n s _ => Moves.next i n s
theorem Stay.next (i : Bool) : Stay W (Pars.next i) := (Move.next i).stay

theorem Stay.ite {c : Prop} [Decidable c] {x y : Pars α} (h1 : Stay W x) (h2 : Stay W y) : Stay W (if c then x else y) := by
  by_cases h : c
  · rw [if_pos h]; exact h1
  · rw [if_neg h]; exact h2

theorem move_expect (t : Tok) : Move W (expect t) := by
  unfold expect
  refine Move.bind (Move.next _) fun _ => Stay.tok fun u => Stay.ite (Stay.pure _) Stay.throw

theorem move_expectNum : Move W expectNum := by
  unfold expectNum
  refine Move.bind (Move.next _) fun _ => Stay.tok fun u => ?_
  split
  · exact Stay.pure _
  · exact Stay.throw

theorem move_expectId : Move W expectId := by
  unfold expectId
  refine Move.bind (Move.next _) fun _ => Stay.tok fun u => ?_
  split
  · exact Stay.pure _
  · exact Stay.throw

theorem eat_member : Eat W member := by
  unfold member
  refine Eat.tok rfl fun t _ => ?_
  split
  · refine Move.bind (move_expect _) fun _ => Stay.bind (move_expect _).stay fun _ => Stay.bind move_expectNum.stay fun _ =>
      Stay.bind (move_expect _).stay fun _ => Stay.bind move_expectId.stay fun _ => Stay.bind (move_expect _).stay fun _ =>
      Stay.bind (Stay.next _) fun _ => Stay.pure _
  · exact Move.throw

/-- A separator is a token. -/
theorem live_separator (n : Nat) (s : PState) :
    (separator s).Live (fun n' r => weight n' r.2 ≤ weight n s ∧ s.tok ≠ .eof) n := by
  unfold separator
  refine Asm.LiveAt.tok fun t ht => ?_
  split
  · exact (Stay.next (W := weight n s) false n s (Nat.le_refl _)).mono fun m r hr => ⟨hr, by rw [ht]; simp⟩
  · exact ⟨Nat.le_refl _, by rw [ht]; simp⟩
  · intro h; cases h

theorem stay_separator : Stay W separator := fun n s _ => (live_separator n s).mono fun _ _ h => h.1

theorem stay_members : ∀ (fuel : Nat) (acc : List Member), Stay fuel (members (fuel + 1) acc) := by
  intro fuel
  induction fuel with
  | zero =>
    intro acc n s hw
    unfold members
    refine Asm.LiveAt.tok fun t ht => ?_
    have : s.tok = .eof := by
      by_contra h
      rw [Asm.weight_pos h] at hw
      omega
    rw [← ht, this]
    refine Reader.Live.bind (eat_member (W := 0) n s hw) fun m r hr => ?_
    omega
  | succ fuel ih =>
    intro acc n s hw
    unfold members
    refine Asm.LiveAt.tok fun t ht => ?_
    split
    · exact (Stay.next (W := fuel + 1) false n s hw).bind fun m r hr => hr
    · refine Reader.Live.bind (eat_member (W := fuel + 1) n s hw) fun m r hr => ?_
      refine Reader.Live.bind (stay_separator (W := fuel + 1) m r.2 (by omega)) fun m' r' hr' => ?_
      exact (ih _ m' r'.2 (by omega)).mono fun _ _ h => by omega

theorem stay_debugLine : ∀ (fuel : Nat) (l : LineMapping), Stay fuel (debugLine (fuel + 1) l) := by
  have he : ∀ W, Eat W lineEntry := by
    intro W
    unfold lineEntry
    refine Eat.tok rfl fun t _ => ?_
    split
    · exact Move.bind (move_expect _) fun _ => Stay.bind move_expectNum.stay fun _ => Stay.bind (Stay.next _) fun _ => Stay.pure _
    · exact Move.throw
  intro fuel
  induction fuel with
  | zero =>
    intro acc n s hw
    unfold debugLine
    refine Asm.LiveAt.tok fun t ht => ?_
    split
    · exact Nat.le_refl _
    · exact Nat.le_refl _
    · refine Reader.Live.bind (he 0 n s hw) fun m r hr => ?_
      omega
  | succ fuel ih =>
    intro acc n s hw
    unfold debugLine
    refine Asm.LiveAt.tok fun t ht => ?_
    split
    · exact Nat.le_refl _
    · exact Nat.le_refl _
    · refine Reader.Live.bind (he (fuel + 1) n s hw) fun m r hr => ?_
      exact (ih _ m r.2 (by omega)).mono fun _ _ h => by omega

theorem stay_dieTag (v : Str) : Stay W (dieTag v) := by
  unfold dieTag
  repeat' (first | exact Stay.pure _ | exact Stay.throw | refine Stay.ite ?_ ?_)

theorem stay_offsetNum (b : Bool) : Stay W (offsetNum b) := by
  unfold offsetNum
  refine Stay.tok fun t => ?_
  split
  · exact Stay.bind (Stay.next _) fun _ => Stay.pure _
  · exact Stay.throw

theorem stay_offset : Stay W offset := by
  unfold offset
  refine Stay.tok fun t => ?_
  split
  · exact Stay.bind (Stay.next _) fun _ => stay_offsetNum _
  · exact stay_offsetNum _

theorem stay_operand : Stay W operand := by
  unfold operand
  refine Stay.tok fun t => ?_
  split
  · exact Stay.bind stay_offset fun _ => Stay.pure _
  · exact Stay.bind stay_offset fun _ => Stay.pure _
  · exact Stay.bind (Stay.next _) fun _ => Stay.pure _
  · exact Stay.throw

theorem eat_oneLoc : Eat W oneLoc := by
  unfold oneLoc
  refine Eat.tok rfl fun t _ => ?_
  split
  · refine Move.bind (Move.next _) fun _ => ?_
    exact Stay.ite (Stay.bind stay_offset fun _ => Stay.pure _) (Stay.ite (Stay.bind stay_operand fun _ => Stay.pure _)
      (Stay.ite (Stay.pure _) (Stay.ite (Stay.pure _) Stay.throw)))
  · exact Move.throw

theorem stay_locList : ∀ (fuel : Nat) (acc : List LocIns), Stay fuel (locList (fuel + 1) acc) := by
  intro fuel
  induction fuel with
  | zero =>
    intro acc n s hw
    unfold locList
    refine Asm.LiveAt.tok fun t ht => ?_
    split
    · exact (Stay.next (W := 0) false n s hw).bind fun m r hr => hr
    · refine Reader.Live.bind (eat_oneLoc (W := 0) n s hw) fun m r hr => ?_
      omega
  | succ fuel ih =>
    intro acc n s hw
    unfold locList
    refine Asm.LiveAt.tok fun t ht => ?_
    split
    · exact (Stay.next (W := fuel + 1) false n s hw).bind fun m r hr => hr
    · refine Reader.Live.bind (eat_oneLoc (W := fuel + 1) n s hw) fun m r hr => ?_
      refine Asm.LiveAt.tok fun t ht => ?_
      split
      · refine Reader.Live.bind (Stay.next (W := fuel + 1) false m r.2 (by omega)) fun m' r' hr' => ?_
        exact (ih _ m' r'.2 (by omega)).mono fun _ _ h => by omega
      · exact (ih _ m r.2 (by omega)).mono fun _ _ h => by omega
      · intro h; cases h

theorem Stay.le {x : Pars α} {V : Nat} (h : Stay V x) (hv : W ≤ V) : Stay W x := fun n s hw => h n s (by omega)

theorem stay_exprLoc {n : Nat} (h : W < n) : Stay W (exprLoc n) := by
  obtain ⟨m, rfl⟩ : ∃ m, n = m + 1 := ⟨n - 1, by omega⟩
  unfold exprLoc
  refine Stay.tok fun t => ?_
  split
  · refine Stay.bind (Stay.next _) fun _ => Stay.tok fun t => ?_
    split
    · exact Stay.bind (Stay.next _) fun _ => Stay.pure _
    · exact Stay.bind eat_oneLoc.stay fun _ => Stay.bind (Stay.next _) fun _ => Stay.pure _
  · exact Stay.bind (Stay.next _) fun _ => (stay_locList m []).le (by omega)
  · exact Stay.throw

theorem stay_attrValue {n : Nat} (h : W < n) (v : Str) : Stay W (attrValue n v) := by
  have hn : ∀ f, Stay W (attrNum f) := by
    intro f
    unfold attrNum
    refine Stay.tok fun t => ?_
    split
    · exact Stay.bind (Stay.next _) fun _ => Stay.pure _
    · exact Stay.throw
  unfold attrValue
  refine Stay.ite ?_ ?_
  · unfold attrName
    refine Stay.tok fun t => ?_
    split
    · exact Stay.bind (Stay.next _) fun _ => Stay.pure _
    · exact Stay.bind (Stay.next _) fun _ => Stay.pure _
    · exact Stay.throw
  iterate 5
    refine Stay.ite (hn _) ?_
  refine Stay.ite ?_ (Stay.ite (Stay.bind (stay_exprLoc h) fun _ => Stay.pure _) Stay.throw)
  unfold attrMembers
  obtain ⟨m, rfl⟩ : ∃ m, n = m + 1 := ⟨n - 1, by omega⟩
  refine Stay.tok fun t => ?_
  split
  · exact Stay.bind (Stay.next _) fun _ => Stay.bind ((stay_members m []).le (by omega)) fun _ => Stay.pure _
  · exact Stay.throw

theorem eat_attr {n : Nat} (h : W < n) (v : Str) : Eat W (attr n v) := by
  unfold attr
  refine Eat.tok rfl fun t _ => ?_
  split
  · exact Move.bind (Move.next _) fun _ => stay_attrValue h v
  · exact Move.throw

theorem stay_dieBody {n : Nat} {D : Str → Pars Die} (hn : W < n) (hD : ∀ v, Eat W (D v)) :
    ∀ (fuel : Nat) (as : List Attr) (ds : List Die), Stay (min fuel W) (dieBody n D (fuel + 1) as ds) := by
  intro fuel
  induction fuel with
  | zero =>
    intro as ds k s hw
    have hk : weight k s = 0 := by omega
    have hk0 : k = 0 := by unfold weight at hk; omega
    subst hk0
    unfold dieBody
    refine Asm.LiveAt.tok fun t ht => ?_
    split
    · exact (Stay.next (W := W) false 0 s (by omega)).bind fun m r hr => hr
    · show Reader.Live _ _ ((next >>= fun _ => _ : Pars (List Attr × List Die)) s)
      refine Reader.Live.bind (Move.next (W := W) false 0 s (by omega)) fun m r hr => ?_
      show Asm.LiveAt (if _ then _ else _ : Pars (List Attr × List Die)) m r.2 _
      split
      · exact Reader.Live.bind (eat_attr hn _ m r.2 (by omega)) fun m' r' hr' => by omega
      · split
        · exact Reader.Live.bind (hD _ m r.2 (by omega)) fun m' r' hr' => by omega
        · refine Reader.Live.bind (live_separator m r.2) fun m' r' hr' => ?_
          have := Asm.weight_pos (n := m) hr'.2
          omega
  | succ fuel ih =>
    intro as ds k s hw
    unfold dieBody
    refine Asm.LiveAt.tok fun t ht => ?_
    split
    · exact (Stay.next (W := W) false k s (by omega)).bind fun m r hr => hr
    · show Reader.Live _ _ ((next >>= fun _ => _ : Pars (List Attr × List Die)) s)
      refine Reader.Live.bind (Move.next (W := W) false k s (by omega)) fun m r hr => ?_
      have hk : 2 * k ≤ weight k s := by unfold weight; omega
      show Asm.LiveAt (if _ then _ else _ : Pars (List Attr × List Die)) m r.2 _
      split
      · refine Reader.Live.bind (eat_attr hn _ m r.2 (by omega)) fun m' r' hr' => ?_
        refine Reader.Live.bind (stay_separator (W := W) m' r'.2 (by omega)) fun m2 r2 hr2 => ?_
        exact (ih _ _ m2 r2.2 (by omega)).mono fun _ _ h => by omega
      · split
        · refine Reader.Live.bind (hD _ m r.2 (by omega)) fun m' r' hr' => ?_
          refine Reader.Live.bind (stay_separator (W := W) m' r'.2 (by omega)) fun m2 r2 hr2 => ?_
          exact (ih _ _ m2 r2.2 (by omega)).mono fun _ _ h => by omega
        · refine Reader.Live.bind (live_separator m r.2) fun m' r' hr' => ?_
          have := Asm.weight_pos (n := m) hr'.2
          have h2 : weight m' r'.2 ≤ fuel := by omega
          exact (ih _ _ m' r'.2 (by omega)).mono fun _ _ h => by omega

theorem eat_die (n : Nat) : ∀ (f : Nat), f < n → ∀ v, Eat f (die n (f + 1) v) := by
  intro f
  induction f with
  | zero =>
    intro hf v k s hw
    unfold die
    have : s.tok = .eof := by
      by_contra h
      rw [Asm.weight_pos h] at hw
      omega
    refine Asm.LiveAt.tok fun t ht => ?_
    rw [← ht, this]
    intro h
    cases h
  | succ f ih =>
    intro hf v k s hw
    unfold die
    refine Asm.LiveAt.tok fun t ht => ?_
    split
    · have hp := Asm.weight_pos (n := k) (s := s) (by rw [ht]; simp)
      refine Reader.Live.bind (move_expect (W := f + 1) _ k s hw) fun m r hr => ?_
      refine Reader.Live.bind (Stay.next (W := f + 1) false m r.2 (by omega)) fun m' r' hr' => ?_
      refine Reader.Live.bind (stay_dieTag (W := f + 1) _ m' r'.2 (by omega)) fun m2 r2 hr2 => ?_
      obtain ⟨N, rfl⟩ : ∃ N, n = N + 1 := ⟨n - 1, by omega⟩
      refine Reader.Live.bind (stay_dieBody (W := f) (by omega) (ih (by omega)) N [] [] m2 r2.2 (by omega)) fun m3 r3 hr3 => ?_
      show weight m3 r3.2 < _
      omega
    · intro h; cases h

theorem stay_debugInfo {n : Nat} (h : W < n) : Stay W (debugInfo n) := by
  unfold debugInfo
  refine Stay.tok fun t => ?_
  split
  · exact Stay.pure _
  · exact Stay.pure _
  · obtain ⟨N, rfl⟩ : ∃ N, n = N + 1 := ⟨n - 1, by omega⟩
    exact Stay.bind (Stay.next _) fun _ => (eat_die (N + 1) N (by omega) _).stay.le (by omega)
  · exact Stay.throw

theorem stay_skip : ∀ (fuel : Nat), Stay fuel (skipSection (fuel + 1)) := by
  intro fuel
  induction fuel with
  | zero =>
    intro n s hw
    unfold skipSection
    have : s.tok = .eof := by
      by_contra h
      rw [Asm.weight_pos h] at hw
      omega
    refine Asm.LiveAt.tok fun t ht => ?_
    rw [← ht, this]
    exact Nat.le_refl _
  | succ fuel ih =>
    intro n s hw
    unfold skipSection
    refine Asm.LiveAt.tok fun t ht => ?_
    split
    · exact Nat.le_refl _
    · exact Nat.le_refl _
    · rename_i h1 h2
      have hp := Asm.weight_pos (n := n) (s := s) (by rw [ht]; exact h2)
      refine Reader.Live.bind (Move.next (W := fuel + 1) true n s hw) fun m r hr => ?_
      exact (ih m r.2 (by omega)).mono fun _ _ h => by omega

theorem stay_section {n : Nat} (h : W < n) (name : Str) (u : Infos) : Stay W (section' n name u) := by
  obtain ⟨N, rfl⟩ : ∃ N, n = N + 1 := ⟨n - 1, by omega⟩
  unfold section'
  exact Stay.ite (Stay.bind ((stay_debugLine N []).le (by omega)) fun _ => Stay.pure _)
    (Stay.ite (Stay.bind (stay_debugInfo (by omega)) fun _ => Stay.pure _)
      (Stay.bind ((stay_skip N).le (by omega)) fun _ => Stay.pure _))

/-- See `Reader.Stops`. -/
def StopsAt (x : Pars α) (n : Nat) (s : PState) : Prop := Reader.Stops n (x s)

theorem StopsAt.tok {f : Tok → Pars β} {n : Nat} {s : PState} (h : ∀ t, s.tok = t → StopsAt (f t) n s) :
    StopsAt (Pars.tok >>= f) n s := h s.tok rfl

theorem stops_sections (n : Nat) : ∀ (fuel : Nat) (u : Infos) (k : Nat) (s : PState), weight k s < fuel → weight k s < n →
    Reader.Stops k (sections n fuel u s)
  | 0, _, _, _, h, _ => by omega
  | fuel + 1, u, k, s, h, hn => by
    unfold sections
    refine StopsAt.tok fun t ht => ?_
    split
    · trivial
    · have hp := Asm.weight_pos (n := k) (s := s) (by rw [ht]; simp)
      refine Reader.Live.stops (Move.next (W := fuel) false k s (by omega)) fun m r hr => ?_
      refine StopsAt.tok fun t ht => ?_
      split
      · split
        · exact fun _ => ⟨_, rfl⟩
        · refine Reader.Live.stops (Stay.next (W := fuel) false m r.2 (by omega)) fun m' r' hr' => ?_
          refine Reader.Live.stops (stay_section (W := n - 1) (by omega) _ u m' r'.2 (by omega)) fun m2 r2 hr2 => ?_
          exact stops_sections n fuel _ m2 r2.2 (by omega) (by omega)
      · intro h; cases h
    · intro h; cases h

theorem stops_read (s : Str) : Reader.Stops s.length (start (sections (2 * s.length + 2) (2 * s.length + 2) {})) := by
  have key : ∀ m st, weight m st < 2 * s.length + 2 → Reader.Stops m ((sections (2 * s.length + 2) (2 * s.length + 2) {} st).bind
      fun r => Reader.pure r.1) := fun m st hw =>
    (stops_sections _ _ _ m st hw hw).map
  refine ⟨?_, ?_⟩
  · exact key _ _ (by simp [weight, advance])
  · intro m hm t ht
    refine key _ _ ?_
    unfold weight
    split <;> omega

theorem read_terminates {stod : Str → Except Err Word} (hst : ∀ w, stod w ≠ .error .diverge) (s : Str) :
    Info.read stod s ≠ .error .diverge := by
  unfold Info.read
  split
  · intro h; cases h
  exact (stops_read s).run hst (Nat.le_refl _)

end Info
end T86
