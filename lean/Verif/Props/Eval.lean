import Verif.Lemmas.Eval
import Verif.Props.Expr
import Verif.Props.Source

/-! # Values of debugger expressions (C43)

`Ex.eval` evaluates an expression in a debugger session, `Expr.meaning` (`Verif/Spec/Eval.lean`) says what an expression over
integers means. -/

set_option linter.unusedSimpArgs false
set_option linter.unusedVariables false

namespace T86
open Dbg Str Spec

namespace Ex
section
variable {σ : Type} {t : Target σ} {m : Mode} {fo : Floats} {env : Env} {s s1 s2 : σ}

theorem eval_un {o : UOp} {e : Expr} : eval t m fo env (.un o e) =
    (eval t m fo env e >>= fun a => reading t fun v => unaryValue m env v o a) := rfl

theorem eval_bin {o : BOp} (ho : o ≠ .assign) {a b : Expr} : eval t m fo env (.bin o a b) =
    (eval t m fo env a >>= fun x => eval t m fo env b >>= fun y => reading t fun _ => binaryValue m fo env o x y) := by
  cases o <;> first | rfl | exact absurd rfl ho

theorem eval_assign {a b : Expr} : eval t m fo env (.bin .assign a b) =
    (eval t m fo env a >>= fun x => eval t m fo env b >>= fun y => assign t fo x y) := rfl

theorem eval_index {a i : Expr} : eval t m fo env (.index a i) =
    (eval t m fo env i >>= fun k => eval t m fo env a >>= fun x => reading t fun v => indexValue m fo env v x k) := rfl

theorem job_ok {α β : Type} {x : Job σ α} {f : α → Job σ β} {a : α} (h : x s = (.ok a, s1)) : (x >>= f) s = f a s1 := by
  show Job.bind x f s = _
  unfold Job.bind
  rw [h]

theorem job_error {α β : Type} {x : Job σ α} {f : α → Job σ β} {e : Err} (h : x s = (.error e, s1)) : (x >>= f) s = (.error e, s1) := by
  show Job.bind x f s = _
  unfold Job.bind
  rw [h]

theorem bin_values {o : BOp} (ho : o ≠ .assign) {a b : Expr} {x y : Val} (ha : eval t m fo env a s = (.ok x, s1))
    (hb : eval t m fo env b s1 = (.ok y, s2)) : eval t m fo env (.bin o a b) s = (binaryValue m fo env o x y, s2) := by
  rw [eval_bin ho, job_ok ha, job_ok hb]
  rfl

end
end Ex

open Ex

section
variable {σ : Type} (t : Target σ) (m : Mode) (fo : Floats) (env : Env) (s : σ)

/-- C43, integers. Take any expression of literals, variables and operators without side effects, and let its variables be
integers with the values `ρ`. If its meaning in 64-bit arithmetic is a number, then evaluating it yields this number; if a division
by zero comes first, evaluating it is rejected; if a signed overflow or a shift by an impossible amount comes first, evaluating it
is undefined behaviour of the debugger itself. Nothing is changed. -/
theorem C43_integers (ρ : Str → Int) (e : Expr) (he : e.Arithmetic)
    (hv : ∀ x ∈ e.vars, ∃ w l, eval t m fo env (.ident x) s = (.ok (.int w l), s) ∧ w.toInt = ρ x) :
    match e.meaning ρ with
    | .number v => ∃ w l, eval t m fo env e s = (.ok (.int w l), s) ∧ w.toInt = v
    | .rejected => eval t m fo env e s = (.error .debugger, s)
    | .undefined => m = .strict → eval t m fo env e s = (.error .ub, s) := by
  suffices h : ∃ r, eval t m fo env e s = (r, s) ∧ Agrees m r (e.meaning ρ) by
    obtain ⟨r, h1, h2⟩ := h
    cases hm : e.meaning ρ with
    | number v =>
      rw [hm] at h2
      obtain ⟨w, l, h3, h4⟩ := h2
      exact ⟨w, l, by rw [h1, h3], h4⟩
    | rejected =>
      rw [hm] at h2
      show eval t m fo env e s = _
      rw [h1, show r = _ from h2]
    | undefined =>
      rw [hm] at h2
      intro hs
      rw [h1, h2 hs]
  induction e with
  | int v => exact ⟨_, rfl, v, none, rfl, rfl⟩
  | ident n =>
    obtain ⟨w, l, h1, h2⟩ := hv n (List.mem_singleton.2 rfl)
    exact ⟨_, h1, w, l, rfl, h2⟩
  | un o e ih =>
    obtain ⟨r, h1, h2⟩ := ih he hv
    simp only [Expr.meaning]
    cases hm : e.meaning ρ with
    | number v =>
      rw [hm] at h2
      obtain ⟨w, l, rfl, rfl⟩ := h2
      refine ⟨unaryValue m env (t.view s) o (.int w l), ?_, unary_agrees m env _ o w l⟩
      rw [eval_un, job_ok h1]
      rfl
    | rejected =>
      rw [hm] at h2
      cases h2
      exact ⟨.error .debugger, job_error h1, rfl⟩
    | undefined =>
      rw [hm] at h2
      cases r with
      | error er => exact ⟨.error er, job_error h1, h2⟩
      | ok x =>
        refine ⟨unaryValue m env (t.view s) o x, ?_, fun hs => by cases h2 hs⟩
        rw [eval_un, job_ok h1]
        rfl
  | bin o a b iha ihb =>
    obtain ⟨ho, ha, hb⟩ := he
    obtain ⟨r, h1, h2⟩ := iha ha (fun x hx => hv x (List.mem_append.2 (Or.inl hx)))
    obtain ⟨r', h1', h2'⟩ := ihb hb (fun x hx => hv x (List.mem_append.2 (Or.inr hx)))
    simp only [Expr.meaning]
    cases hm : a.meaning ρ with
    | number v =>
      rw [hm] at h2
      obtain ⟨w, l, rfl, rfl⟩ := h2
      cases hm' : b.meaning ρ with
      | number v' =>
        rw [hm'] at h2'
        obtain ⟨w', l', rfl, rfl⟩ := h2'
        exact ⟨_, bin_values ho h1 h1', binary_agrees m fo env o ho w w' l l'⟩
      | rejected =>
        rw [hm'] at h2'
        cases h2'
        refine ⟨.error .debugger, ?_, rfl⟩
        rw [eval_bin ho, job_ok h1]
        exact job_error h1'
      | undefined =>
        rw [hm'] at h2'
        cases r' with
        | error er =>
          refine ⟨.error er, ?_, h2'⟩
          rw [eval_bin ho, job_ok h1]
          exact job_error h1'
        | ok x => exact ⟨_, bin_values ho h1 h1', fun hs => by cases h2' hs⟩
    | rejected =>
      rw [hm] at h2
      cases h2
      exact ⟨.error .debugger, (by rw [eval_bin ho]; exact job_error h1), by cases hm' : b.meaning ρ <;> rfl⟩
    | undefined =>
      rw [hm] at h2
      have hu : ∀ r, (m = .strict → r = .error .ub) → Agrees m r (match Meaning.undefined, b.meaning ρ with
          | .number x, .number y => o.meaning x y
          | .number _, r => r
          | r, _ => r) := by
        intro r hr
        cases hm' : b.meaning ρ <;> exact hr
      cases r with
      | error er => exact ⟨.error er, (by rw [eval_bin ho]; exact job_error h1), hu _ h2⟩
      | ok x =>
        cases r' with
        | error er =>
          refine ⟨.error er, ?_, hu _ fun hs => by cases h2 hs⟩
          rw [eval_bin ho, job_ok h1]
          exact job_error h1'
        | ok y => exact ⟨_, bin_values ho h1 h1', hu _ fun hs => by cases h2 hs⟩
  | _ => exact he.elim

/-- C43, division by zero is rejected, whatever is divided: also characters and floating point numbers. -/
theorem C43_zero_divisor (a b : Expr) (o : BOp) (ho : o = .div ∨ o = .mod) (x y : Val) {s1 s2 : σ} (ha : eval t m fo env a s = (.ok x, s1))
    (hb : eval t m fo env b s1 = (.ok y, s2))
    (hy : (∃ l, y = .int 0 l) ∨ (∃ l, y = .char 0 l) ∨ ∃ w l, y = .float w l ∧ fo.eqZero w = true) :
    eval t m fo env (.bin o a b) s = (.error .debugger, s2) := by
  have hz : checkZero fo y = false := by
    rcases hy with ⟨l, rfl⟩ | ⟨l, rfl⟩ | ⟨w, l, rfl, hw⟩
    · rfl
    · rfl
    · simp [checkZero, hw]
  rcases ho with rfl | rfl <;> rw [bin_values (by decide) ha hb] <;> simp [binaryValue, hz]

/-- C43, pointers advance by the size of what they point to: `p + i`, `i + p` and `p - i` are the addresses `n * i` cells after or
before the one of `p`, modulo 2^64, `n` being the size of the type pointed to. -/
theorem C43_pointer_advance (p i : Expr) (id n : Nat) (size a k : Word) (lp li : Option Loc) {s1 s2 : σ}
    (hn : SizeOf env.types id n) :
    (eval t m fo env p s = (.ok (.ptr id size a lp), s1) → eval t m fo env i s1 = (.ok (.int k li), s2) →
      (∃ w, eval t m fo env (.bin .add p i) s = (.ok (.ptr id size w none), s2) ∧ WordOf w (a.toNat + k.toInt * n)) ∧
      ∃ w, eval t m fo env (.bin .sub p i) s = (.ok (.ptr id size w none), s2) ∧ WordOf w (a.toNat - k.toInt * n)) ∧
    (eval t m fo env i s = (.ok (.int k li), s1) → eval t m fo env p s1 = (.ok (.ptr id size a lp), s2) →
      ∃ w, eval t m fo env (.bin .add i p) s = (.ok (.ptr id size w none), s2) ∧ WordOf w (a.toNat + k.toInt * n)) := by
  have hsz := C41_size env.types id n hn
  have hmul : ∀ k : Word, ∃ q : Int, ((k * BitVec.ofNat 64 n).toNat : Int) = k.toInt * n + 2 ^ 64 * q := by
    intro k
    rw [BitVec.toNat_mul, BitVec.toNat_ofNat]
    have h1 : (k.toNat * (n % 2 ^ 64)) % 2 ^ 64 = (k.toNat * n) % 2 ^ 64 := by rw [Nat.mul_mod_mod]
    rw [h1]
    have h2 := Nat.div_add_mod (k.toNat * n) (2 ^ 64)
    have h3 : (2 ^ 64 : Int) * ((k.toNat * n / 2 ^ 64 : Nat) : Int) + ((k.toNat * n % 2 ^ 64 : Nat) : Int) = (k.toNat : Int) * (n : Int) := by
      have := congrArg (fun z : Nat => (z : Int)) h2
      simp only [Int.natCast_add, Int.natCast_mul] at this
      exact this
    rcases toInt_cases k with ⟨h4, _⟩ | ⟨h4, _⟩
    · refine ⟨-((k.toNat * n / 2 ^ 64 : Nat) : Int), ?_⟩
      rw [h4]
      omega
    · refine ⟨(n : Int) - ((k.toNat * n / 2 ^ 64 : Nat) : Int), ?_⟩
      rw [h4, Int.sub_mul, Int.mul_sub]
      omega
  obtain ⟨q, hq⟩ := hmul k
  have hadd : WordOf (a + k * BitVec.ofNat 64 n) (a.toNat + k.toInt * n) := by
    unfold WordOf
    rw [BitVec.toNat_add]
    omega
  have hsub : WordOf (a - k * BitVec.ofNat 64 n) (a.toNat - k.toInt * n) := by
    unfold WordOf
    rw [BitVec.toNat_sub]
    omega
  refine ⟨fun hp hi => ⟨⟨_, ?_, hadd⟩, ⟨_, ?_, hsub⟩⟩, fun hi hp => ⟨_, ?_, hadd⟩⟩
  · rw [bin_values (by decide) hp hi]
    simp only [binaryValue, addValues, hsz]
    rfl
  · rw [bin_values (by decide) hp hi]
    simp only [binaryValue, subValues, hsz]
    rfl
  · rw [bin_values (by decide) hi hp]
    simp only [binaryValue, addValues, hsz, BitVec.add_comm a]
    rfl

/-- C43, indexing: for a pointer `p`, `p[i]` is `*(p + i)`. -/
theorem C43_pointer_index (p i : Expr) (id : Nat) (size a k : Word) (lp li : Option Loc)
    (hp : eval t m fo env p s = (.ok (.ptr id size a lp), s)) (hi : eval t m fo env i s = (.ok (.int k li), s)) :
    eval t m fo env (.index p i) s = eval t m fo env (.un .deref (.bin .add p i)) s := by
  rw [eval_index, job_ok hi, job_ok hp, eval_un]
  show (indexValue m fo env (t.view s) (.ptr id size a lp) (.int k li), s) = _
  have h1 := bin_values (o := .add) (by decide) hp hi
  have h2 : binaryValue m fo env .add (.ptr id size a lp) (.int k li) = addValues m fo env.types (.ptr id size a lp) (.int k li) := rfl
  rw [h2] at h1
  have h3 : indexValue m fo env (t.view s) (.ptr id size a lp) (.int k li) =
      (addValues m fo env.types (.ptr id size a lp) (.int k li) >>= fun x => dereference m env (t.view s) x) := rfl
  rw [h3]
  cases hx : addValues m fo env.types (.ptr id size a lp) (.int k li) with
  | error e =>
    rw [hx] at h1
    exact (job_error h1).symm
  | ok x =>
    rw [hx] at h1
    rw [job_ok h1]
    rfl

/-- C43, indexing of arrays: the elements count from 0, and an index that is not less than their number is rejected. (A negative
index is not, see `C43_negative_index`.) -/
theorem C43_array_index_partial (x i : Expr) (id : Nat) (cnt start k : Word) (ms : List Val) (lx li : Option Loc)
    (hi : eval t m fo env i s = (.ok (.int k li), s)) (hx : eval t m fo env x s = (.ok (.arr id cnt start ms lx), s)) :
    (∀ v, 0 ≤ k.toInt → ms[k.toInt.toNat]? = some v → eval t m fo env (.index x i) s = (.ok v, s)) ∧
    (ms.length ≤ k.toInt → eval t m fo env (.index x i) s = (.error .debugger, s)) := by
  have h : eval t m fo env (.index x i) s = (indexValue m fo env (t.view s) (.arr id cnt start ms lx) (.int k li), s) := by
    rw [eval_index, job_ok hi, job_ok hx]
    rfl
  rw [h]
  refine ⟨fun v hk hv => ?_, fun hk => ?_⟩
  · obtain ⟨hlt, _⟩ := List.getElem?_eq_some_iff.1 hv
    have e : k.toInt.toNat = k.toNat := by
      rcases toInt_cases k with ⟨h4, _⟩ | ⟨h4, _⟩ <;> have := k.isLt <;> omega
    rw [e] at hv
    simp only [indexValue]
    rw [if_neg (by omega), hv]
  · simp only [indexValue]
    rw [if_pos (by omega)]

end

/-- If a text is read as an expression, evaluating the text is evaluating the expression. -/
theorem evaluate_parsed {σ : Type} {t : Target σ} {m : Mode} {fo : Floats} {stod : Str → Except Err Word} {env : Env} {text : Str} {e : Expr}
    {s : σ} {ip : Nat} (hp : parse stod text = .ok e) (hip : t.ip s = .ok ip) :
    evaluate t m fo stod env text s = eval t m fo env e s := by
  have h0 : ∃ tk, (Reader.next false fun tk => .pure tk : Reader Tok).run stod text = .ok tk := by
    unfold parse Pars.start at hp
    simp only [Reader.run] at hp ⊢
    cases hl : Lexer.lex stod false text with
    | error er => rw [hl] at hp; cases hp
    | ok r => exact ⟨r.1, rfl⟩
  obtain ⟨tk, h0⟩ := h0
  unfold evaluate
  rw [job_ok (a := tk) (s1 := s) (by rw [h0]; rfl), hp, job_ok (x := parsed (.ok e)) (a := e) (s1 := s) rfl,
    job_ok (x := t.address) (a := ip) (s1 := s) (by unfold Target.address; rw [hip])]

/-- C43 from the text on: for every arithmetic expression written down with the parentheses its operators require (and without `<=`
and `>=`, see `C42_comparison_lost`), what the user types evaluates to what the expression means. -/
theorem C43_text_partial {σ : Type} (t : Target σ) (m : Mode) (fo : Floats) (stod : Str → Except Err Word) (env : Env) (s : σ) (ip : Nat)
    (hip : t.ip s = .ok ip) (ρ : Str → Int) (e : Expr) (text : Str) (hw : e.Writable) (hk : e.Known) (hl : Layout stod e.toks text)
    (he : e.Arithmetic) (hv : ∀ x ∈ e.vars, ∃ w l, eval t m fo env (.ident x) s = (.ok (.int w l), s) ∧ w.toInt = ρ x) :
    match e.meaning ρ with
    | .number v => ∃ w l, evaluate t m fo stod env text s = (.ok (.int w l), s) ∧ w.toInt = v
    | .rejected => evaluate t m fo stod env text s = (.error .debugger, s)
    | .undefined => m = .strict → evaluate t m fo stod env text s = (.error .ub, s) := by
  rw [evaluate_parsed (C42_round_trip_partial hw hk hl) hip]
  exact C43_integers t m fo env s ρ e he hv

/-! ## Examples and counterexamples -/

namespace Sample

/-- Floating point operations that are not used. -/
def floats : Floats := ⟨⟨fun x _ => x, fun x _ => x, fun x _ => x, fun x _ => x, fun _ => false, fun _ => false, fun _ => false,
  fun x => x, fun x => some x⟩, fun _ _ => false, fun _ _ => false, fun x => some x⟩

/-- Memory with 100 in cell 0, 101 in cell 1 and so on, base pointer 20. -/
def memory : Target Unit := ⟨fun _ => ⟨fun r => if r = "BP".toList then .ok 20 else .error .debugger, fun a => .ok (a + 100)⟩, fun _ => .ok 3,
  fun _ _ => pure (), fun _ _ => pure ()⟩

/-- `struct s { int a; int b; }`, pointers to it, and arrays of five integers. -/
def types : Types := [(0, .prim .signed 1), (1, .struct "s".toList 2 [⟨"a".toList, 0, 0⟩, ⟨"b".toList, 0, 1⟩]), (2, .ptr 1 1), (3, .arr 0 5),
  (4, .ptr 0 1)]

/-- A unit with `int x` at BP - 2, `struct s *p` at BP - 1 and `int v[5]` at BP + 1. -/
def scope : Die := .mk .unit []
  [.mk .variable [.name "x".toList, .type 0, .location [.baseOffset (-2)]] [],
   .mk .variable [.name "p".toList, .type 2, .location [.baseOffset (-1)]] [],
   .mk .variable [.name "v".toList, .type 3, .location [.baseOffset 1]] []]

def env : Env := ⟨some scope, types, []⟩

/-- The value of an integer or pointer, an element of an array. -/
def show' : Except Err Val → Except Err Word
  | .ok (.int v _) => .ok v
  | .ok (.ptr _ _ v _) => .ok v
  | .ok _ => .error .runtime
  | .error e => .error e

/-- Evaluating a text. -/
def of (text : String) : Except Err Word := show' (evaluate memory .strict floats (fun _ => .error .invalid) env text.toList ()).1

end Sample

/-- Non-vacuity: the variable `x` is an integer, 118; the meaning of `x / (x - 118)` is an error, the one of `x << 1` a number. -/
example : (∃ w l, eval Sample.memory .strict Sample.floats Sample.env (.ident "x".toList) () = (.ok (.int w l), ()) ∧ w.toInt = 118) ∧
    Expr.meaning (fun _ => 118) (.bin .div (.ident "x".toList) (.bin .sub (.ident "x".toList) (.int 118))) = .rejected ∧
    Expr.meaning (fun _ => 118) (.bin .lshift (.ident "x".toList) (.int 1)) = .number 236 ∧
    Expr.meaning (fun _ => 118) (.bin .mod (.un .negate (.ident "x".toList)) (.int 7)) = .number (-6) :=
  ⟨⟨118, some (.off 18), rfl, rfl⟩, by decide +kernel, by decide +kernel, by decide +kernel⟩

set_option maxRecDepth 100000 in
/-- From the text. -/
example : Sample.of "x / (x - 118)" = .error .debugger ∧ Sample.of "x << 1" = .ok 236 ∧ Sample.of "-x % 7" = .ok (-6) ∧
    Sample.of "p" = .ok 119 ∧ Sample.of "p + 3" = .ok 125 ∧ Sample.of "3 + p" = .ok 125 ∧ Sample.of "p - 3" = .ok 113 ∧
    Sample.of "p[1].b" = .ok 222 ∧ Sample.of "p->b" = .ok 220 ∧ Sample.of "v[4]" = .ok 125 ∧ Sample.of "v[5]" = .error .debugger ∧
    Sample.of "y" = .error .debugger ∧ Sample.of "x + p" = .ok 355 := by
  decide +kernel

/-- Non-vacuity of `C43_pointer_advance`: structures have size two. -/
example : SizeOf Sample.env.types 1 2 := .struct 1 _ 2 _ rfl

set_option maxRecDepth 100000 in
/-- The difference of two pointers is not divided by the size of what they point to: `(p + 3) - p` is 6. -/
theorem C43_pointer_difference : Sample.of "(p + 3) - p" = .ok 6 := by decide +kernel

set_option maxRecDepth 100000 in
/-- A negative index into an array passes the check and reads outside of the vector of the elements. -/
theorem C43_negative_index : Sample.of "v[-1]" = .error .ub := by decide +kernel

set_option maxRecDepth 100000 in
/-- The smallest integer divided by -1 ends the debugger; so do overflowing sums. -/
theorem C43_overflow : Sample.of "(1 << 63) / -1" = .error .ub ∧ Sample.of "(1 << 62) + (1 << 62)" = .error .ub := by
  decide +kernel

set_option maxRecDepth 100000 in
/-- The right operand of `&&` and `||` is evaluated in any case: a guard does not help. -/
theorem C43_no_short_circuit : Sample.of "0 && 1 / 0" = .error .debugger ∧ Sample.of "1 || y" = .error .debugger := by
  decide +kernel

end T86
