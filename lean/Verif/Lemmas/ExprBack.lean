import Verif.Spec.Expr
import Verif.Lemmas.AsmBack
import Verif.Lemmas.AsmFuel
import Mathlib.Tactic.IntervalCases

/-! # The expression parser and the grammar of expressions -/

set_option linter.unusedSimpArgs false
set_option linter.unusedVariables false

namespace T86
open Dbg Str Pars
namespace Ex

/-! ## The levels -/

/-- The operators of a level. -/
def opsAt : Nat → Tok → Option BOp
  | 0 => assignOps | 1 => equalityOps | 2 => logicalOps | 3 => comparisonOps | 4 => shiftOps | 5 => bitOps | 6 => termOps
  | 7 => factorOps | _ => fun _ => none

/-- The function for a level. -/
def lvl (n f : Nat) : Pars Expr :=
  match n with
  | 0 => assignment f (unary f) | 1 => equality f (unary f) | 2 => logical f (unary f) | 3 => comparison f (unary f)
  | 4 => shifts f (unary f) | 5 => bits f (unary f) | 6 => term f (unary f) | 7 => factor f (unary f) | 8 => unary f
  | 9 => postfix' f (expr f) | _ => primary (expr f)

theorem lvl_bin {n : Nat} (hn : n < 8) (f : Nat) : lvl n f = level (opsAt n) f (lvl (n + 1) f) := by
  interval_cases n <;> rfl

theorem opsAt_tok {o : BOp} (h1 : o ≠ .leq) (h2 : o ≠ .geq) : opsAt o.prec o.tok = some o := by
  cases o <;> first | rfl | exact absurd rfl h1 | exact absurd rfl h2

theorem opsAt_some {n : Nat} {t : Tok} {o : BOp} (h : opsAt n t = some o) : o.tok = t ∧ o.prec = n := by
  have : n < 8 := by
    by_contra hn
    obtain ⟨m, rfl⟩ : ∃ m, n = m + 8 := ⟨n - 8, by omega⟩
    cases h
  interval_cases n <;> cases t <;> cases h <;> exact ⟨rfl, rfl⟩

/-- The token does not continue an expression of this level. -/
def Stops (n : Nat) (t : Tok) : Prop :=
  (∀ m, n ≤ m → opsAt m t = none) ∧ (n ≤ 9 → t ≠ .lbrack ∧ t ≠ .dot ∧ t ≠ .arrow)

theorem Stops.mono {n m : Nat} (h : n ≤ m) {t : Tok} (hs : Stops n t) : Stops m t :=
  ⟨fun k hk => hs.1 k (Nat.le_trans h hk), fun hm => hs.2 (Nat.le_trans h hm)⟩

theorem stops_tok {o : BOp} {m : Nat} (hm : o.prec < m) : Stops m o.tok := by
  refine ⟨fun k hk => ?_, fun _ => ?_⟩
  · cases h : opsAt k o.tok with
    | none => rfl
    | some o' =>
      obtain ⟨h1, h2⟩ := opsAt_some h
      have : o' = o := by cases o <;> cases o' <;> first | rfl | cases h1
      subst this
      omega
  · cases o <;> exact ⟨by decide, by decide, by decide⟩

theorem stops_post {t : Tok} (h : t = .lbrack ∨ t = .dot ∨ t = .arrow) (m : Nat) : Stops (m + 10) t := by
  refine ⟨fun k hk => ?_, fun h => absurd h (by omega)⟩
  cases h' : opsAt k t with
  | none => rfl
  | some o =>
    obtain ⟨h1, h2⟩ := opsAt_some h'
    subst h1
    cases o <;> rcases h with h | h | h <;> cases h

theorem stops_close {t : Tok} (h : t = .eof ∨ t = .rparen ∨ t = .rbrack) (n : Nat) : Stops n t := by
  refine ⟨fun k hk => ?_, fun _ => ?_⟩
  · cases h' : opsAt k t with
    | none => rfl
    | some o =>
      obtain ⟨h1, h2⟩ := opsAt_some h'
      subst h1
      cases o <;> rcases h with h | h | h <;> cases h
  · rcases h with rfl | rfl | rfl <;> exact ⟨by decide, by decide, by decide⟩

/-! ## Derivations, with the loops unrolled -/

theorem Gram.pos {n : Nat} {ts : List Tok} {e : Expr} (h : Gram n ts e) : 0 < ts.length := by
  induction h with
  | up hn h ih => exact ih
  | bin | un | index | member | arrow | int | float | ident | evaluated | paren => simp; try omega

theorem Gram.le {n : Nat} {ts : List Tok} {e : Expr} (h : Gram n ts e) : n ≤ 10 := by
  induction h with
  | up hn h ih => omega
  | @bin n o => rename_i ho _ _ _ _; subst ho; cases o <;> decide
  | _ => omega

/-- An expression, followed by operators of a level and their right operands. -/
inductive Chain (n : Nat) : Expr → List Tok → Expr → Prop
  | nil {e : Expr} : Chain n e [] e
  | cons {o : BOp} {e b e' : Expr} {r ts : List Tok} (ho : o.prec = n) (hb : Gram (n + 1) r b)
      (h : Chain n (.bin o e b) ts e') : Chain n e (o.tok :: (r ++ ts)) e'

theorem Chain.snoc {n : Nat} {o : BOp} {e a b : Expr} {ts r : List Tok} (h : Chain n e ts a) (ho : o.prec = n)
    (hb : Gram (n + 1) r b) : Chain n e (ts ++ o.tok :: r) (.bin o a b) := by
  induction h with
  | nil =>
    have := Chain.cons (e := ‹Expr›) ho hb .nil
    simpa using this
  | cons ho' hb' h ih =>
    have := Chain.cons ho' hb' ih
    simpa using this

theorem Gram.chain {n : Nat} {ts : List Tok} {e : Expr} (h : Gram n ts e) (hn : n < 8) :
    ∃ t0 e0 t1, ts = t0 ++ t1 ∧ Gram (n + 1) t0 e0 ∧ Chain n e0 t1 e := by
  induction h with
  | @up n ts e _ h ih => exact ⟨ts, e, [], by simp, h, .nil⟩
  | bin ho ha hb iha ihb =>
    obtain ⟨t0, e0, t1, rfl, h1, h2⟩ := iha hn
    exact ⟨t0, e0, _, by rw [List.append_assoc], h1, h2.snoc ho hb⟩
  | _ => omega

theorem Chain.known {n : Nat} {e e' : Expr} {ts : List Tok} (h : Chain n e ts e') (hk : e'.Known) : e.Known := by
  induction h with
  | nil => exact hk
  | cons ho hb h ih => exact (ih hk).2.2.1

/-- An expression, followed by indices and members. -/
inductive Post : Expr → List Tok → Expr → Prop
  | nil {e : Expr} : Post e [] e
  | index {e i e' : Expr} {r ts : List Tok} (hi : Gram 0 r i) (h : Post (.index e i) ts e') :
      Post e (.lbrack :: (r ++ .rbrack :: ts)) e'
  | member {e e' : Expr} {s : Str} {ts : List Tok} (h : Post (.member e s) ts e') : Post e (.dot :: .id s :: ts) e'
  | arrow {e e' : Expr} {s : Str} {ts : List Tok} (h : Post (.arrow e s) ts e') : Post e (.arrow :: .id s :: ts) e'

theorem Post.append {e e' e'' : Expr} {ts us : List Tok} (h : Post e ts e') (h' : Post e' us e'') : Post e (ts ++ us) e'' := by
  induction h with
  | nil => exact h'
  | index hi h ih => simpa using Post.index hi (ih h')
  | member h ih => exact Post.member (ih h')
  | arrow h ih => exact Post.arrow (ih h')

theorem Gram.post {n : Nat} {ts : List Tok} {e : Expr} (h : Gram n ts e) (hn : n = 9) :
    ∃ t0 e0 t1, ts = t0 ++ t1 ∧ Gram 10 t0 e0 ∧ Post e0 t1 e := by
  induction h with
  | @up n ts e _ h ih => subst hn; exact ⟨ts, e, [], by simp, h, .nil⟩
  | @bin n o => rename_i ho _ _ _ _; subst ho; cases o <;> cases hn
  | un => cases hn
  | index ha hi iha ihi =>
    obtain ⟨t0, e0, t1, rfl, h1, h2⟩ := iha rfl
    exact ⟨t0, e0, _, by rw [List.append_assoc], h1, h2.append (.index hi .nil)⟩
  | member ha iha =>
    obtain ⟨t0, e0, t1, rfl, h1, h2⟩ := iha rfl
    exact ⟨t0, e0, _, by rw [List.append_assoc], h1, h2.append (.member .nil)⟩
  | arrow ha iha =>
    obtain ⟨t0, e0, t1, rfl, h1, h2⟩ := iha rfl
    exact ⟨t0, e0, _, by rw [List.append_assoc], h1, h2.append (.arrow .nil)⟩
  | _ => cases hn

theorem Post.known {e e' : Expr} {ts : List Tok} (h : Post e ts e') (hk : e'.Known) : e.Known := by
  induction h with
  | nil => exact hk
  | index hi h ih => exact (ih hk).1
  | member h ih => exact ih hk
  | arrow h ih => exact ih hk

/-! ## What the grammar allows is parsed -/

theorem binTail_parses {n : Nat} (hn : n < 8) {sub : Pars Expr} {N : Nat}
    (hsub : ∀ r b, r.length < N → b.Known → Gram (n + 1) r b → Parses sub r b (Stops (n + 1)))
    {e0 e : Expr} {ts : List Tok} (h : Chain n e0 ts e) : ∀ {f : Nat}, ts.length ≤ N → e.Known → ts.length < f →
    Parses (binTail (opsAt n) sub f e0) ts e (Stops n) := by
  induction h with
  | @nil e =>
    intro f _ _ hf
    obtain ⟨f, rfl⟩ : ∃ g, f = g + 1 := ⟨f - 1, by simp at hf; omega⟩
    refine Parses.tokNil fun t ht => ?_
    simp only [ht.1 n (Nat.le_refl _)]
  | @cons o e b e' r ts ho hb h ih =>
    intro f hN hk hf
    obtain ⟨f, rfl⟩ : ∃ g, f = g + 1 := ⟨f - 1, by simp at hf; omega⟩
    simp only [List.length_cons, List.length_append] at hN hf
    have hk' := h.known hk
    refine Parses.tok ?_
    subst ho
    simp only [opsAt_tok hk'.1 hk'.2.1]
    refine Parses.next ?_
    refine Parses.bind (hsub r b (by omega) hk'.2.2.2 hb) (ih (by omega) hk (by omega)) ?_
    cases h with
    | nil => exact fun t ht => ht.mono (by omega)
    | cons ho' hb' h' => exact stops_tok (by omega)

theorem memberName_parses {s : Str} {ts : List Tok} {t : Tok} {β : Type} {g : Str → Pars β} {b : β} {look : Tok → Prop}
    (h : Parses (g s) ts b look) : Parses (memberName >>= g) (t :: .id s :: ts) b look := by
  have h1 : Parses memberName [t, .id s] s (fun _ => True) :=
    Parses.next (Parses.tok (Parses.next (Parses.pure _ _)))
  refine Parses.bind h1 h ?_
  cases ts with
  | nil => exact fun _ _ => trivial
  | cons => trivial

theorem postfixTail_parses {ex : Pars Expr} {N : Nat}
    (hex : ∀ r b, r.length < N → b.Known → Gram 0 r b → Parses ex r b (Stops 0))
    {e0 e : Expr} {ts : List Tok} (h : Post e0 ts e) : ∀ {f : Nat}, ts.length ≤ N → e.Known → ts.length < f →
    Parses (postfixTail ex f e0) ts e (Stops 9) := by
  induction h with
  | @nil e =>
    intro f _ _ hf
    obtain ⟨f, rfl⟩ : ∃ g, f = g + 1 := ⟨f - 1, by simp at hf; omega⟩
    refine Parses.tokNil fun t ht => ?_
    obtain ⟨h1, h2, h3⟩ := ht.2 (Nat.le_refl _)
    cases t <;> first | rfl | exact absurd rfl h1 | exact absurd rfl h2 | exact absurd rfl h3
  | @index e i e' r ts hi h ih =>
    intro f hN hk hf
    obtain ⟨f, rfl⟩ : ∃ g, f = g + 1 := ⟨f - 1, by simp at hf; omega⟩
    simp only [List.length_cons, List.length_append] at hN hf
    refine Parses.tok ?_
    refine Parses.next ?_
    refine Parses.bind (hex r i (by omega) (h.known hk).2 hi) ?_ (stops_close (by simp) 0)
    refine Parses.tok ?_
    refine Parses.next ?_
    exact ih (by omega) hk (by omega)
  | @member e e' s ts h ih =>
    intro f hN hk hf
    obtain ⟨f, rfl⟩ : ∃ g, f = g + 1 := ⟨f - 1, by simp at hf; omega⟩
    simp only [List.length_cons] at hN hf
    refine Parses.tok ?_
    exact memberName_parses (ih (by omega) hk (by omega))
  | @arrow e e' s ts h ih =>
    intro f hN hk hf
    obtain ⟨f, rfl⟩ : ∃ g, f = g + 1 := ⟨f - 1, by simp at hf; omega⟩
    simp only [List.length_cons] at hN hf
    refine Parses.tok ?_
    exact memberName_parses (ih (by omega) hk (by omega))

/-- The bound a level needs. -/
def need (n : Nat) (ts : List Tok) : Nat := ts.length + if n ≤ 8 then 1 else 0

theorem Gram.primary_cases {n : Nat} {ts : List Tok} {e : Expr} (h : Gram n ts e) (hn : n = 8) :
    Gram 9 ts e ∨ ∃ o t us e', o.tok = some t ∧ Gram 8 us e' ∧ ts = t :: us ∧ e = .un o e' := by
  cases h with
  | up _ h => subst hn; exact .inl h
  | @bin n o => rename_i ho _ _; subst ho; cases o <;> cases hn
  | un ho h => exact .inr ⟨_, _, _, _, ho, h, rfl, rfl⟩
  | _ => cases hn

theorem Gram.first {n : Nat} {ts : List Tok} {e : Expr} (h : Gram n ts e) (hn : 9 ≤ n) : ∃ t us, ts = t :: us ∧ unaryOps t = none := by
  induction h with
  | up _ h ih => exact ih (by omega)
  | @bin n o => rename_i ho _ _ _ _; subst ho; cases o <;> simp [BOp.prec] at hn
  | un => omega
  | index ha hi ih =>
    obtain ⟨t, us, rfl, h⟩ := ih (by omega)
    exact ⟨t, _, rfl, h⟩
  | member ha ih =>
    obtain ⟨t, us, rfl, h⟩ := ih (by omega)
    exact ⟨t, _, rfl, h⟩
  | arrow ha ih =>
    obtain ⟨t, us, rfl, h⟩ := ih (by omega)
    exact ⟨t, _, rfl, h⟩
  | int => exact ⟨_, _, rfl, rfl⟩
  | float => exact ⟨_, _, rfl, rfl⟩
  | ident => exact ⟨_, _, rfl, rfl⟩
  | evaluated => exact ⟨_, _, rfl, rfl⟩
  | paren => exact ⟨_, _, rfl, rfl⟩

theorem unaryOps_tok {o : UOp} {t : Tok} (h : o.tok = some t) : unaryOps t = some o := by
  cases o <;> cases h <;> rfl

theorem lvl_parses (k : Nat) : ∀ (n : Nat) (ts : List Tok) (e : Expr) (f : Nat), 12 * ts.length + (10 - n) = k → Gram n ts e →
    e.Known → need n ts ≤ f → Parses (lvl n f) ts e (Stops n) := by
  induction k using Nat.strongRecOn with
  | _ k ih =>
  intro n ts e f hk h hkn hf
  subst hk
  have hle := h.le
  have hpos := h.pos
  rcases Nat.lt_or_ge n 8 with hn | hn
  · rw [lvl_bin hn]
    obtain ⟨t0, e0, t1, rfl, h0, h1⟩ := h.chain hn
    have hp := h0.pos
    simp only [need, List.length_append, show n ≤ 8 by omega, if_true] at hf
    simp only [List.length_append] at ih hpos
    refine Parses.bind (a := e0) (look1 := Stops (n + 1)) ?_ ?_ ?_
    · refine ih _ ?_ (n + 1) t0 e0 f rfl h0 (h1.known hkn) ?_
      · omega
      · simp only [need]; split <;> omega
    · refine binTail_parses (N := t0.length + t1.length) hn (fun r b hr hb hg => ?_) h1 (by omega) hkn (by omega)
      refine ih _ ?_ (n + 1) r b f rfl hg hb ?_
      · omega
      · simp only [need]; split <;> omega
    · cases h1 with
      | nil => exact fun t ht => ht.mono (by omega)
      | cons ho' hb' h' => exact stops_tok (by omega)
  · rcases (by omega : n = 8 ∨ n = 9 ∨ n = 10) with rfl | rfl | rfl
    · simp only [need, Nat.le_refl, if_true] at hf
      obtain ⟨f, rfl⟩ : ∃ g, f = g + 1 := ⟨f - 1, by omega⟩
      rcases h.primary_cases rfl with h' | ⟨o, t, us, e', ho, h', rfl, rfl⟩
      · have h9 := ih _ (by omega) 9 ts e f rfl h' hkn (by simp [need]; omega)
        obtain ⟨t, us, rfl, hu⟩ := h'.first (by omega)
        refine Parses.tok ?_
        simp only [hu]
        exact h9.mono fun t ht => ht.mono (by omega)
      · simp only [List.length_cons] at hf ih
        have h8 := ih _ (by omega) 8 us e' f rfl h' hkn (by simp [need]; omega)
        refine Parses.tok ?_
        simp only [unaryOps_tok ho]
        refine Parses.next ?_
        have := Parses.bind (us := []) (look2 := Stops 8) (f := fun e => (pure (Expr.un o e) : Pars Expr)) h8
          (Parses.pure (Expr.un o e') (Stops 8)) (fun t ht => ht)
        rw [List.append_nil] at this
        exact this
    · obtain ⟨t0, e0, t1, rfl, h0, h1⟩ := h.post rfl
      have hp := h0.pos
      simp only [need, List.length_append] at hf
      simp only [List.length_append] at ih
      simp only [show ¬ 9 ≤ 8 by omega, if_false] at hf
      refine Parses.bind (a := e0) (look1 := Stops 10) ?_ ?_ ?_
      · exact ih _ (by omega) 10 t0 e0 f rfl h0 (h1.known hkn) (by simp [need]; omega)
      · refine postfixTail_parses (N := t1.length) (fun r b hr hb hg => ?_) h1 (by omega) hkn (by omega)
        refine ih _ (by omega) 0 r b f rfl hg hb ?_
        simp [need]; omega
      · cases h1 with
        | nil => exact fun t ht => ht.mono (by omega)
        | index => exact stops_post (by simp) 0
        | member => exact stops_post (by simp) 0
        | arrow => exact stops_post (by simp) 0
    · simp only [need] at hf
      simp only [show ¬ 10 ≤ 8 by omega, if_false] at hf
      cases h with
      | up h => omega
      | @bin _ o => rename_i ho _ _; cases o <;> cases ho
      | @int n =>
        refine Parses.tok (Parses.lastNum (Parses.next ?_))
        have : (BitVec.ofInt 64 (n : Int)) = BitVec.ofNat 64 n := by simp
        rw [this]
        exact Parses.pure _ _
      | float => exact Parses.tok (Parses.next (Parses.pure _ _))
      | ident => exact Parses.tok (Parses.next (Parses.pure _ _))
      | evaluated => exact Parses.tok (Parses.next (Parses.tok (Parses.lastNum (Parses.next (Parses.pure _ _)))))
      | @paren ts e h =>
        simp only [List.length_cons, List.length_append] at hf ih
        have h0 := ih _ (by omega) 0 ts e f rfl h hkn (by simp [need]; omega)
        refine Parses.tok (Parses.next ?_)
        refine Parses.bind h0 ?_ (stops_close (by simp) 0)
        exact Parses.tok (Parses.next (Parses.pure _ _))

/-- What the grammar allows is parsed, if the bound is large enough. -/
theorem expr_parses {ts : List Tok} {e : Expr} {f : Nat} (h : Gram 0 ts e) (hk : e.Known) (hf : ts.length < f) :
    (start (expr f)).onToks ts = .ok e :=
  Parses.start (lvl_parses _ 0 ts e f rfl h hk (by simp [need]; omega)) (stops_close (by simp) 0)

/-! ## Expressions that are written down -/

theorem Gram.down {n : Nat} {ts : List Tok} {e : Expr} (h : Gram n ts e) : ∀ {m : Nat}, m ≤ n → Gram m ts e := by
  intro m hm
  obtain ⟨k, rfl⟩ : ∃ k, n = m + k := ⟨n - m, by omega⟩
  induction k generalizing m with
  | zero => exact h
  | succ k ih =>
    have h1 : m < 10 := by have := h.le; omega
    exact .up h1 (ih (m := m + 1) (by rw [Nat.add_right_comm]; exact h) (by omega))

theorem gram_wrap {n p : Nat} {ts : List Tok} {e : Expr} (hn : n ≤ 10) (h : Gram p ts e) : Gram n (wrap n p ts) e := by
  unfold wrap
  split
  · exact (Gram.paren (h.down (Nat.zero_le _))).down hn
  · exact h.down (by omega)

theorem prec_le (o : BOp) : o.prec ≤ 7 := by cases o <;> decide

theorem gram_toks : ∀ {e : Expr}, e.Writable → Gram e.prec e.toks e
  | .int v, _ => by
    have := Gram.int (n := v.toNat)
    rwa [BitVec.ofNat_toNat, BitVec.setWidth_eq] at this
  | .float w, _ => .float
  | .char c, h => h.elim
  | .ident s, _ => .ident
  | .evaluated n, _ => .evaluated
  | .un o e, h => by
    obtain ⟨h1, h2⟩ := h
    obtain ⟨t, ht⟩ := Option.isSome_iff_exists.1 h1
    show Gram 8 (o.tok.toList ++ _) _
    rw [ht]
    exact .un ht (gram_wrap (by decide) (gram_toks h2))
  | .bin o a b, h => .bin rfl (gram_wrap (by have := prec_le o; show o.prec ≤ 10; omega) (gram_toks h.1))
      (gram_wrap (by have := prec_le o; show o.prec + 1 ≤ 10; omega) (gram_toks h.2))
  | .index a i, h => .index (gram_wrap (by decide) (gram_toks h.1)) ((gram_toks h.2).down (Nat.zero_le _))
  | .member a s, h => .member (gram_wrap (by decide) (gram_toks (e := a) h))
  | .arrow a s, h => .arrow (gram_wrap (by decide) (gram_toks (e := a) h))

/-! ## The parser stops -/

/-- With at most this weight the function stops, and has read something if it succeeds. -/
def Stop (W : Nat) (x : Pars Expr) : Prop :=
  ∀ n s, weight n s ≤ W → (x s).Live (fun n' r => weight n' r.2 < weight n s) n

theorem weight_le {n : Nat} {s : PState} : 2 * n ≤ weight n s := by unfold weight; omega

/-- After a token that is not the end. -/
theorem live_next {β : Type} {f : Unit → Pars β} {n : Nat} {s : PState} {Q : Nat → β × PState → Prop} (hs : s.tok ≠ .eof)
    (h : ∀ n' s', weight n' s' < weight n s → (f () s').Live Q n') : ((next >>= f) s).Live Q n := by
  have hm := Moves.next false n s
  refine Reader.Live.bind hm fun m r hr => h m r.2 ?_
  rw [Asm.weight_pos hs]
  exact Nat.lt_succ_of_le hr

theorem stop_binTail {ops : Tok → Option BOp} (ho : ops .eof = none) {sub : Pars Expr} {W : Nat} (hsub : Stop W sub) :
    ∀ (f : Nat) (l : Expr) (n : Nat) (s : PState), weight n s ≤ W → weight n s < f →
    (binTail ops sub f l s).Live (fun n' r => weight n' r.2 ≤ weight n s) n
  | 0, _, _, _, _, h => absurd h (Nat.not_lt_zero _)
  | f + 1, l, n, s, hW, hf => by
    show Reader.Live _ _ ((match ops s.tok with
      | none => (pure l : Pars Expr)
      | some o => next >>= fun _ => sub >>= fun r => binTail ops sub f (.bin o l r)) s)
    cases h : ops s.tok with
    | none => exact Nat.le_refl _
    | some o =>
      have hne : s.tok ≠ .eof := fun he => by rw [he, ho] at h; cases h
      refine live_next hne fun n' s' hw => ?_
      refine Reader.Live.bind (hsub n' s' (by omega)) fun m r hr => ?_
      exact (stop_binTail ho hsub f _ m r.2 (by omega) (by omega)).mono fun m' a ha => by omega

theorem stop_level {ops : Tok → Option BOp} (ho : ops .eof = none) {sub : Pars Expr} {W f : Nat} (hsub : Stop W sub) (hf : W < f) :
    Stop W (level ops f sub) := fun n s hw =>
  Reader.Live.bind (hsub n s hw) fun m r hr =>
    (stop_binTail ho hsub f _ m r.2 (by omega) (by omega)).mono fun m' a ha => by omega

theorem stop_assignment {u : Pars Expr} {W f : Nat} (hf : W < f) (h : Stop W u) : Stop W (assignment f u) :=
  stop_level rfl (stop_level rfl (stop_level rfl (stop_level rfl (stop_level rfl (stop_level rfl (stop_level rfl (stop_level rfl
    h hf) hf) hf) hf) hf) hf) hf) hf

/-- Looking at the token. -/
theorem live_tok {β : Type} {f : Tok → Pars β} {n : Nat} {s : PState} {Q : Nat → β × PState → Prop}
    (h : ∀ t, s.tok = t → (f t s).Live Q n) : ((tok >>= f) s).Live Q n := h s.tok rfl

theorem live_lastNum {β : Type} {f : Int → Pars β} {n : Nat} {s : PState} {Q : Nat → β × PState → Prop}
    (h : ∀ k, (f k s).Live Q n) : ((lastNum >>= f) s).Live Q n := h s.num

theorem live_throw {β : Type} {n : Nat} {s : PState} {Q : Nat → β × PState → Prop} : (throw .parser s : Reader (β × PState)).Live Q n :=
  fun h => Err.noConfusion h

theorem live_memberName {n : Nat} {s : PState} (hs : s.tok ≠ .eof) :
    (memberName s).Live (fun n' r => weight n' r.2 < weight n s) n := by
  refine live_next hs fun n' s' hw => live_tok fun t ht => ?_
  cases t with
  | id w => exact live_next (by simp [ht]) fun n'' s'' hw' => Nat.lt_trans hw' hw
  | _ => exact live_throw

theorem stop_primary {e : Pars Expr} {W : Nat} (he : ∀ w, w < W → Stop w e) : Stop W (primary e) := by
  intro n s hw
  refine live_tok fun t ht => ?_
  cases t with
  | num k => exact live_lastNum fun _ => live_next (s := s) (by simp [ht]) fun n' s' h => h
  | float w => exact live_next (s := s) (by simp [ht]) fun n' s' h => h
  | id w => exact live_next (s := s) (by simp [ht]) fun n' s' h => h
  | lparen =>
    refine live_next (s := s) (by simp [ht]) fun n' s' h => ?_
    refine Reader.Live.bind (he _ (Nat.lt_of_lt_of_le h hw) n' s' (Nat.le_refl _)) fun m r hr => live_tok fun t ht => ?_
    cases t with
    | rparen => exact live_next (by simp [ht]) fun n'' s'' hw' => by show weight n'' s'' < _; omega
    | _ => exact live_throw
  | dollar =>
    refine live_next (s := s) (by simp [ht]) fun n' s' h => live_tok fun t ht => ?_
    cases t with
    | num k => exact live_lastNum fun _ => live_next (s := s') (by simp [ht]) fun n'' s'' hw' => by show weight n'' s'' < _; omega
    | _ => exact live_throw
  | _ => exact live_throw

theorem stop_postfixTail {e : Pars Expr} {W : Nat} (he : ∀ w, w < W → Stop w e) :
    ∀ (f : Nat) (p : Expr) (n : Nat) (s : PState), weight n s ≤ W → weight n s < f →
    (postfixTail e f p s).Live (fun n' r => weight n' r.2 ≤ weight n s) n
  | 0, _, _, _, _, h => absurd h (Nat.not_lt_zero _)
  | f + 1, p, n, s, hW, hf => by
    refine live_tok fun t ht => ?_
    cases t with
    | lbrack =>
      refine live_next (s := s) (by simp [ht]) fun n' s' h => ?_
      refine Reader.Live.bind (he _ (Nat.lt_of_lt_of_le h hW) n' s' (Nat.le_refl _)) fun m r hr => live_tok fun t ht => ?_
      cases t with
      | rbrack =>
        exact live_next (by simp [ht]) fun n'' s'' hw' =>
          (stop_postfixTail he f _ n'' s'' (by omega) (by omega)).mono fun m' a ha => by omega
      | _ => exact live_throw
    | dot =>
      exact Reader.Live.bind (live_memberName (by simp [ht])) fun m r hr =>
        (stop_postfixTail he f _ m r.2 (by omega) (by omega)).mono fun m' a ha => by omega
    | arrow =>
      exact Reader.Live.bind (live_memberName (by simp [ht])) fun m r hr =>
        (stop_postfixTail he f _ m r.2 (by omega) (by omega)).mono fun m' a ha => by omega
    | _ => exact Nat.le_refl _

theorem stop_postfix {e : Pars Expr} {W f : Nat} (he : ∀ w, w < W → Stop w e) (hf : W ≤ f) : Stop W (postfix' f e) := fun n s hw =>
  Reader.Live.bind (stop_primary he n s hw) fun m r hr =>
    (stop_postfixTail he f _ m r.2 (by omega) (by omega)).mono fun m' a ha => by omega

theorem stop_unary : ∀ (f W : Nat), W < f → Stop W (unary f)
  | 0, _, h => absurd h (Nat.not_lt_zero _)
  | f + 1, W, hf => by
    intro n s hw
    show Reader.Live _ _ ((match unaryOps s.tok with
      | some o => next >>= fun _ => unary f >>= fun e => pure (Expr.un o e)
      | none => postfix' f (assignment f (unary f))) s)
    cases h : unaryOps s.tok with
    | none =>
      refine stop_postfix (W := W) (fun w hw' => ?_) (by omega) n s hw
      exact stop_assignment (by omega) (stop_unary f w (by omega))
    | some o =>
      have hne : s.tok ≠ .eof := fun he => by rw [he] at h; cases h
      refine live_next hne fun n' s' hw' => ?_
      refine Reader.Live.bind (stop_unary f (weight n' s') (by omega) n' s' (Nat.le_refl _)) fun m r hr => ?_
      show weight m r.2 < _
      omega

theorem stop_expr {f W : Nat} (h : W < f) : Stop W (expr f) := stop_assignment h (stop_unary f W h)

theorem live_start {f n : Nat} (h : 2 * n + 2 < f) : (start (expr f)).Live (fun _ _ => True) n := by
  refine ⟨?_, fun m hm t ht => ?_⟩
  · exact Reader.Live.bind (stop_expr (W := 2 * n + 1) (by omega) n _ (by unfold weight; split <;> omega)) fun _ _ _ => trivial
  · exact Reader.Live.bind (stop_expr (W := 2 * m + 1) (by omega) m _ (by unfold weight; split <;> omega)) fun _ _ _ => trivial

theorem _root_.T86.Reader.Live.layout {α : Type} {Q : Nat → α → Prop} {stod : Str → Except Err Word} {x : Reader α} :
    ∀ {n : Nat} {ts : List Tok} {s : Str}, x.Live Q n → Layout stod ts s → ts.length ≤ n → x.run stod s = x.onToks ts := by
  induction x with
  | pure a => intro n ts s h hl hn; cases ts <;> rfl
  | fail e => intro n ts s h hl hn; cases ts <;> rfl
  | next i k ih =>
    intro n ts s h hl hn
    cases ts with
    | nil =>
      rw [Reader.run, Lexer.lex_nil i hl]
      exact ih _ h.1 (.nil (.gap .nil)) (Nat.zero_le _)
    | cons t ts =>
      obtain ⟨rest, h1, h2⟩ := Lexer.lex_cons i hl
      obtain ⟨m, rfl⟩ : ∃ m, n = m + 1 := ⟨n - 1, by simp at hn; omega⟩
      have ht : t ≠ .eof := by
        cases hl with
        | cons hg hw hr hs =>
          rintro rfl
          cases hw with
          | symbol h => cases h
      rw [Reader.run, h1]
      exact ih t (h.2 m rfl t ht) h2 (by simpa using hn)
  | raw k ih => intro n ts s h; exact h.elim

theorem _root_.T86.Layout.length {stod : Str → Except Err Word} : ∀ {ts : List Tok} {s : Str}, Layout stod ts s → ts.length ≤ s.length
  | [], _, _ => by simp
  | t :: ts, s, h => by
    cases h with
    | @cons _ _ g w rest hg hw hr hs =>
      have := Layout.length hr
      have hw' := Lexer.spells_cons hw
      have : 0 < w.length := List.length_pos_iff.2 hw'
      simp only [List.length_cons, List.length_append]
      omega

theorem parse_layout {stod : Str → Except Err Word} {ts : List Tok} {s : Str} (h : Layout stod ts s) :
    parse stod s = (start (expr (2 * s.length + 4))).onToks ts :=
  (live_start (n := s.length) (by omega)).layout h h.length

/-! ## What is parsed is in the grammar -/

/-- The list goes on until the end of the input. -/
def Ends (l : List Tok) : Prop := ∃ p, l = p ++ [.eof] ∧ .eof ∉ p

theorem Ends.suffix {l ts rest : List Tok} {t : Tok} (h : Ends l) (e : l = ts ++ t :: rest) : Ends (t :: rest) := by
  obtain ⟨p, rfl, hp⟩ := h
  have hc : ∃ q, t :: rest = q ++ [.eof] ∧ p = ts ++ q := by
    rcases List.append_eq_append_iff.1 e.symm with ⟨q, h1, h2⟩ | ⟨q, h1, h2⟩
    · exact ⟨q, h2, h1⟩
    · cases q with
      | nil => exact ⟨[], by simpa using h2.symm, by simpa using h1.symm⟩
      | cons a q => simp at h2
  obtain ⟨q, h1, rfl⟩ := hc
  exact ⟨q, h1, fun h => hp (by simp [h])⟩

/-- When the function succeeds, started at a token with the property `P`, the tokens it has read and its result are related. -/
def Yields {α : Type} (P : Tok → Prop) (x : Pars α) (Q : List Tok → α → Prop) : Prop :=
  ∀ s l a s' rest, P s.tok → Num s → Ends (s.tok :: l) → (x s).left l = .ok ((a, s'), rest) →
    ∃ ts, s.tok :: l = ts ++ s'.tok :: rest ∧ Num s' ∧ Q ts a

theorem Yields.bind {α β : Type} {P : Tok → Prop} {x : Pars α} {f : α → Pars β} {Q : List Tok → α → Prop}
    {R : List Tok → β → Prop} (h1 : Yields P x Q)
    (h2 : ∀ t1 a, Q t1 a → Yields (fun _ => True) (f a) fun t2 b => R (t1 ++ t2) b) : Yields P (x >>= f) R := by
  intro s l b s' rest hP hn he h
  change ((x s).bind fun r => f r.1 r.2).left l = _ at h
  rw [Reader.left_bind] at h
  cases hx : (x s).left l with
  | error e => rw [hx] at h; cases h
  | ok r =>
    obtain ⟨⟨a, s1⟩, l1⟩ := r
    rw [hx] at h
    obtain ⟨t1, e1, n1, q1⟩ := h1 s l a s1 l1 hP hn he hx
    obtain ⟨t2, e2, n2, q2⟩ := h2 t1 a q1 s1 l1 b s' rest trivial n1 (he.suffix e1) h
    exact ⟨t1 ++ t2, by rw [e1, e2, List.append_assoc], n2, q2⟩

theorem Yields.mono {α : Type} {P : Tok → Prop} {x : Pars α} {Q R : List Tok → α → Prop} (h : Yields P x Q)
    (hq : ∀ ts a, Q ts a → R ts a) : Yields P x R := fun s l a s' rest hP hn he hx =>
  (h s l a s' rest hP hn he hx).imp fun ts ht => ⟨ht.1, ht.2.1, hq _ _ ht.2.2⟩

theorem Yields.pure {α : Type} (P : Tok → Prop) {a : α} {Q : List Tok → α → Prop} (h : Q [] a) :
    Yields P (Pure.pure a) Q := by
  intro s l b s' rest _ hn _ hx
  have : (Except.ok ((a, s), l) : Except Err _) = .ok ((b, s'), rest) := by cases l <;> exact hx
  cases this
  exact ⟨[], rfl, hn, h⟩

theorem Yields.throw {α : Type} (P : Tok → Prop) {e : Err} {Q : List Tok → α → Prop} : Yields P (throw e) Q := by
  intro s l b s' rest _ hn _ hx
  cases l <;> cases hx

theorem Yields.tok {β : Type} {P : Tok → Prop} {f : Tok → Pars β} {Q : List Tok → β → Prop}
    (h : ∀ t, P t → Yields (· = t) (f t) Q) : Yields P (Pars.tok >>= f) Q := by
  intro s l b s' rest hP hn he hx
  exact h s.tok hP s l b s' rest rfl hn he hx

theorem Yields.next {β : Type} {t : Tok} (ht : t ≠ .eof) {f : Unit → Pars β} {Q : List Tok → β → Prop}
    (h : Yields (fun _ => True) (f ()) fun ts b => Q (t :: ts) b) : Yields (· = t) (Pars.next >>= f) Q := by
  intro s l b s' rest hP hn he hx
  cases l with
  | nil =>
    obtain ⟨p, h1, h2⟩ := he
    cases p with
    | nil => simp at h1; exact absurd (hP.symm.trans h1) ht
    | cons a p => simp at h1
  | cons u l =>
    obtain ⟨ts, e1, n1, q1⟩ := h (advance s u) l b s' rest trivial (num_advance s u) (he.suffix (ts := [s.tok]) rfl) hx
    refine ⟨t :: ts, ?_, n1, q1⟩
    rw [hP, List.cons_append, ← e1]
    rfl

theorem Yields.lastNum {β : Type} {n : Nat} {f : Int → Pars β} {Q : List Tok → β → Prop}
    (h : Yields (· = .num n) (f n) Q) : Yields (· = .num n) (Pars.lastNum >>= f) Q := by
  intro s l b s' rest hP hn he hx
  change (f s.num s).left l = _ at hx
  rw [hn.1 n hP] at hx
  exact h s l b s' rest hP hn he hx

theorem yields_binTail {n : Nat} {sub : Pars Expr} (hsub : Yields (fun _ => True) sub (Gram (n + 1))) :
    ∀ (f : Nat) (ts : List Tok) (l : Expr), Gram n ts l →
    Yields (fun _ => True) (binTail (opsAt n) sub f l) fun us e => Gram n (ts ++ us) e
  | 0, _, _, _ => Yields.throw _
  | f + 1, ts, l, h => by
    refine Yields.tok fun t _ => ?_
    cases ho : opsAt n t with
    | none => exact Yields.pure _ (by simpa using h)
    | some o =>
      obtain ⟨rfl, rfl⟩ := opsAt_some ho
      refine Yields.next (by cases o <;> decide) ?_
      refine Yields.bind hsub fun t1 a ha => ?_
      refine (yields_binTail hsub f _ _ (Gram.bin rfl h ha)).mono fun us e he => ?_
      simpa using he

theorem yields_level {n : Nat} (hn : n < 8) {sub : Pars Expr} (hsub : Yields (fun _ => True) sub (Gram (n + 1))) (f : Nat) :
    Yields (fun _ => True) (level (opsAt n) f sub) (Gram n) :=
  Yields.bind hsub fun t1 a ha => yields_binTail hsub f t1 a (.up (by omega) ha)

theorem yields_memberName {t : Tok} (ht : t ≠ .eof) : Yields (· = t) memberName fun ts s => ts = [t, .id s] := by
  refine Yields.next ht ?_
  refine Yields.tok fun u _ => ?_
  cases u with
  | id s => exact Yields.next (by simp) (Yields.pure _ rfl)
  | _ => exact Yields.throw _

theorem yields_primary {e : Pars Expr} (he : Yields (fun _ => True) e (Gram 0)) : Yields (fun _ => True) (primary e) (Gram 10) := by
  refine Yields.tok fun t _ => ?_
  cases t with
  | num n =>
    refine Yields.lastNum (Yields.next (by simp) (Yields.pure _ ?_))
    have : (BitVec.ofInt 64 (n : Int)) = BitVec.ofNat 64 n := by simp
    rw [this]
    exact .int
  | float w => exact Yields.next (by simp) (Yields.pure _ .float)
  | id s => exact Yields.next (by simp) (Yields.pure _ .ident)
  | lparen =>
    refine Yields.next (by simp) (Yields.bind he fun t1 a ha => Yields.tok fun u _ => ?_)
    cases u with
    | rparen => exact Yields.next (by simp) (Yields.pure _ (.paren ha))
    | _ => exact Yields.throw _
  | dollar =>
    refine Yields.next (by simp) (Yields.tok fun u _ => ?_)
    cases u with
    | num n => exact Yields.lastNum (Yields.next (by simp) (Yields.pure _ .evaluated))
    | _ => exact Yields.throw _
  | _ => exact Yields.throw _

theorem yields_postfixTail {e : Pars Expr} (he : Yields (fun _ => True) e (Gram 0)) :
    ∀ (f : Nat) (ts : List Tok) (p : Expr), Gram 9 ts p →
    Yields (fun _ => True) (postfixTail e f p) fun us e => Gram 9 (ts ++ us) e
  | 0, _, _, _ => Yields.throw _
  | f + 1, ts, p, h => by
    refine Yields.tok fun t _ => ?_
    cases t with
    | lbrack =>
      refine Yields.next (by simp) (Yields.bind he fun t1 a ha => Yields.tok fun u _ => ?_)
      cases u with
      | rbrack =>
        refine Yields.next (by simp) ((yields_postfixTail he f _ _ (Gram.index h ha)).mono fun us e he => ?_)
        simpa using he
      | _ => exact Yields.throw _
    | dot =>
      refine Yields.bind (yields_memberName (by simp)) fun t1 a ha => ?_
      subst ha
      refine (yields_postfixTail he f _ _ (Gram.member (s := a) h)).mono fun us e he => ?_
      simpa using he
    | arrow =>
      refine Yields.bind (yields_memberName (by simp)) fun t1 a ha => ?_
      subst ha
      refine (yields_postfixTail he f _ _ (Gram.arrow (s := a) h)).mono fun us e he => ?_
      simpa using he
    | _ => exact Yields.pure _ (by simpa using h)

theorem yields_postfix {e : Pars Expr} (he : Yields (fun _ => True) e (Gram 0)) (f : Nat) :
    Yields (fun _ => True) (postfix' f e) (Gram 9) :=
  Yields.bind (yields_primary he) fun t1 a ha => yields_postfixTail he f t1 a (.up (by omega) ha)

theorem yields_assignment {u : Pars Expr} (h : Yields (fun _ => True) u (Gram 8)) (f : Nat) :
    Yields (fun _ => True) (assignment f u) (Gram 0) :=
  yields_level (n := 0) (by omega) (yields_level (n := 1) (by omega) (yields_level (n := 2) (by omega)
    (yields_level (n := 3) (by omega) (yields_level (n := 4) (by omega) (yields_level (n := 5) (by omega)
    (yields_level (n := 6) (by omega) (yields_level (n := 7) (by omega) h f) f) f) f) f) f) f) f

theorem yields_unary : ∀ f : Nat, Yields (fun _ => True) (unary f) (Gram 8)
  | 0 => Yields.throw _
  | f + 1 => by
    refine Yields.tok fun t _ => ?_
    cases ho : unaryOps t with
    | none =>
      have := yields_postfix (yields_assignment (yields_unary f) f) f
      exact fun s l a s' rest _ => (this.mono fun ts e he => Gram.up (by omega) he) s l a s' rest trivial
    | some o =>
      have ht : o.tok = some t ∧ t ≠ .eof := by
        unfold unaryOps at ho
        split at ho <;> cases ho <;> exact ⟨rfl, by decide⟩
      refine Yields.next ht.2 (Yields.bind (yields_unary f) fun t1 a ha => Yields.pure _ ?_)
      simpa using Gram.un ht.1 ha

theorem yields_expr (f : Nat) : Yields (fun _ => True) (expr f) (Gram 0) := yields_assignment (yields_unary f) f

/-- What is parsed is the beginning of the tokens. -/
theorem expr_sound {ts : List Tok} {e : Expr} {f : Nat} (he : .eof ∉ ts) (h : (start (expr f)).onToks ts = .ok e) :
    ∃ us vs, ts = us ++ vs ∧ Gram 0 us e := by
  rw [← Reader.onToks_eof] at h
  have key : ∃ u l, ts ++ [.eof] = u :: l := by cases ts <;> simp
  obtain ⟨u, l, hl⟩ := key
  rw [hl, Reader.onToks_eq] at h
  change ((((expr f (advance ⟨.eof, -1, []⟩ u)).bind fun r => Reader.pure r.1).left l).map (·.1)) = _ at h
  rw [Reader.left_bind] at h
  cases hx : (expr f (advance ⟨.eof, -1, []⟩ u)).left l with
  | error e => rw [hx] at h; cases h
  | ok r =>
    obtain ⟨⟨a, s1⟩, l1⟩ := r
    rw [hx] at h
    have ha : a = e := by
      cases l1 <;> · simp only [Reader.left] at h; cases h; rfl
    subst ha
    obtain ⟨us, e1, _, hg⟩ := yields_expr f _ l a s1 l1 trivial (num_advance _ u) ⟨ts, hl.symm, he⟩ hx
    change u :: l = us ++ s1.tok :: l1 at e1
    rw [← hl] at e1
    have hc : ∃ q, ts = us ++ q := by
      rcases List.append_eq_append_iff.1 e1 with ⟨q, h1, h2⟩ | ⟨q, h1, h2⟩
      · cases q with
        | nil => exact ⟨[], by simpa using h1.symm⟩
        | cons a q => simp at h2
      · exact ⟨q, h1⟩
    obtain ⟨q, rfl⟩ := hc
    exact ⟨us, q, rfl, hg⟩

end Ex
end T86
