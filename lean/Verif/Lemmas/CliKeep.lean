import Verif.Lemmas.Cli
import Verif.Spec.Observe

/-! A command of the command line is a sequence of calls of a session. -/

namespace T86
open Dbg Str

/-- What is kept by some of the calls of a session. -/
structure Closed (h : Host) (c : Client) (A : Op → Prop) (I : Native → Prop) : Prop where
  op : ∀ o n n', A o → I n → o.run h c n = (.ok (), n') → I n'
  size : ∀ n w n', I n → Native.textSize h n = (.ok w, n') → I n'

/-- The calls that do not write text. -/
def Op.notText : Op → Prop
  | .write _ _ => False
  | _ => True

/-- The calls that write neither text nor memory. -/
def Op.quiet : Op → Prop
  | .write _ _ => False
  | .writeMemory _ _ => False
  | _ => True

namespace Native
open Job
variable {α : Type} {h : Host} {c : Client} {A : Op → Prop} {I : Native → Prop}

/-- `x` keeps `I` if it succeeds. -/
abbrev Holds (I : Native → Prop) (x : N α) : Prop := Triple I x fun _ => I

theorem holds_op (H : Closed h c A I) {o : Op} (ha : A o) : Holds I (o.run h c) := fun n _ n' hi hr => H.op o n n' ha hi hr

/-- A call whose result is used. -/
theorem holds_of {x : N α} {y : N Unit} (hy : y = (do let _ ← x)) (hI : Holds I y) : Holds I x := fun n a n' hi hr => by
  refine hI n () n' hi ?_
  rw [hy]
  exact bind_eq (f := fun _ => pure ()) hr

theorem holds_registers (H : Closed h c A I) (ha : A .registers) : Holds I (getRegisters h) := holds_of rfl (holds_op H ha)

theorem holds_register (H : Closed h c A I) (ha : A .registers) (r : Str) : Holds I (getRegister h r) := by
  unfold getRegister
  refine Triple.bind (holds_registers H ha) fun m => ?_
  cases m.find r with
  | none => exact Triple.throw
  | some v => exact Triple.pure fun _ hi => hi

theorem holds_ip (H : Closed h c A I) (ha : A .registers) : Holds I (getIP h) := holds_register H ha _

theorem holds_float (H : Closed h c A I) (ha : A .floats) (r : Str) : Holds I (getFloatRegister h r) := by
  unfold getFloatRegister
  refine Triple.bind (holds_of rfl (holds_op H ha)) fun m => ?_
  cases m.find r with
  | none => exact Triple.throw
  | some v => exact Triple.pure fun _ hi => hi

theorem holds_read (H : Closed h c A I) {a m : Word} (ha : A (.read a m)) : Holds I (readText h a m) := holds_of rfl (holds_op H ha)

theorem holds_memory (H : Closed h c A I) {a m : Word} (ha : A (.readMemory a m)) : Holds I (readMemory h c a m) :=
  holds_of rfl (holds_op H ha)

theorem holds_step (H : Closed h c A I) (ha : A .step) : Holds I (singleStep h c) := holds_of rfl (holds_op H ha)
theorem holds_raw (H : Closed h c A I) (ha : A .raw) : Holds I (rawStep h c) := holds_of rfl (holds_op H ha)
theorem holds_over (H : Closed h c A I) {f : Nat} {b : Bool} (ha : A (.over f b)) : Holds I (stepOver h c f b) :=
  holds_of rfl (holds_op H ha)
theorem holds_out (H : Closed h c A I) {f : Nat} (ha : A (.out f)) : Holds I (stepOut h c f) := holds_of rfl (holds_op H ha)

theorem holds_go (H : Closed h c A I) (ha : A .go) : Holds I (do
    continue' h c
    waitEvent h c) := by
  refine holds_of (y := Op.go.run h c) ?_ (holds_op H ha)
  funext n
  change Job.bind (continue' h c) (fun _ => Job.bind (waitEvent h c) fun _ => pure ()) n =
    Job.bind (Job.bind (continue' h c) fun _ => waitEvent h c) (fun _ => pure ()) n
  unfold Job.bind
  cases continue' h c n with
  | mk r n1 => cases r <;> rfl

theorem holds_loop (H : Closed h c A I) (ha : A .registers) (s : Src.Source) {more : N Event} (hm : Holds I more) :
    ∀ (fuel : Nat) (e : Event), Holds I (Src.stepLoop h s more fuel e)
  | 0, e => Triple.throw
  | fuel + 1, e => by
    unfold Src.stepLoop
    split
    · refine Triple.bind (holds_ip H ha) fun ip => ?_
      cases addrToLine s.lines ip.toNat with
      | some l => exact Triple.pure fun _ hi => hi
      | none => exact Triple.bind hm fun e' => holds_loop H ha s hm fuel e'
    · exact Triple.pure fun _ hi => hi

theorem holds_stepIn (H : Closed h c A I) (ha : A .registers) (h1 : A .step) (h2 : A .raw) (s : Src.Source) (fuel : Nat) :
    Holds I (Src.stepIn h c s fuel) := Triple.bind (holds_step H h1) fun e => holds_loop H ha s (holds_raw H h2) fuel e

theorem holds_srcOver (H : Closed h c A I) (ha : A .registers) (h1 : ∀ f b, A (.over f b)) (s : Src.Source) (fuel : Nat) :
    Holds I (Src.stepOver h c s fuel) :=
  Triple.bind (holds_over H (h1 fuel true)) fun e => holds_loop H ha s (holds_over H (h1 fuel false)) fuel e

theorem holds_string (H : Closed h c A I) (ha : ∀ a m, A (.readMemory a m)) : ∀ (fuel : Nat) (a : Word), Holds I (Src.readString h c fuel a)
  | 0, a => Triple.throw
  | fuel + 1, a => by
    unfold Src.readString
    refine Triple.bind (holds_memory H (ha a 1)) fun l => Triple.bind (Triple.ofExcept (q := fun _ => I) fun _ _ _ hi => hi) fun w => ?_
    split
    · exact Triple.pure fun _ hi => hi
    · exact Triple.bind (holds_string H ha fuel (a + 1)) fun r => Triple.pure fun _ hi => hi

mutual
theorem holds_value (H : Closed h c A I) (ha : ∀ a m, A (.readMemory a m)) (types : Types) (fuel : Nat) :
    ∀ (v : Ex.Val), Holds I (Src.showValue h c types fuel v)
  | .ptr t _ v _ => by
    rw [Src.showValue]
    split
    · exact Triple.bind (holds_string H ha fuel v) fun r => Triple.pure fun _ hi => hi
    · exact Triple.pure fun _ hi => hi
  | .int _ _ => by rw [Src.showValue]; exact Triple.pure fun _ hi => hi
  | .float _ _ => by rw [Src.showValue]; exact Triple.pure fun _ hi => hi
  | .char _ _ => by rw [Src.showValue]; exact Triple.pure fun _ hi => hi
  | .arr _ _ a ms _ => by
    rw [Src.showValue]
    split
    · exact Triple.bind (holds_string H ha fuel a) fun r => Triple.pure fun _ hi => hi
    · exact Triple.bind (holds_values H ha types fuel ms) fun r => Triple.pure fun _ hi => hi
  | .struct _ _ ms _ => by
    rw [Src.showValue]
    exact Triple.bind (holds_members H ha types fuel ms) fun r => Triple.pure fun _ hi => hi
theorem holds_values (H : Closed h c A I) (ha : ∀ a m, A (.readMemory a m)) (types : Types) (fuel : Nat) :
    ∀ (l : List Ex.Val), Holds I (Src.showValues h c types fuel l)
  | [] => by rw [Src.showValues]; exact Triple.pure fun _ hi => hi
  | v :: l => by
    rw [Src.showValues]
    exact Triple.bind (holds_value H ha types fuel v) fun s => Triple.bind (holds_values H ha types fuel l) fun r =>
      Triple.pure fun _ hi => hi
theorem holds_members (H : Closed h c A I) (ha : ∀ a m, A (.readMemory a m)) (types : Types) (fuel : Nat) :
    ∀ (l : List (Str × Ex.Val)), Holds I (Src.showMembers h c types fuel l)
  | [] => by rw [Src.showMembers]; exact Triple.pure fun _ hi => hi
  | (n, v) :: l => by
    rw [Src.showMembers]
    exact Triple.bind (holds_value H ha types fuel v) fun s => Triple.bind (holds_members H ha types fuel l) fun r =>
      Triple.pure fun _ hi => hi
end

/-! ## Expressions -/

theorem holds_raw_set (H : Closed h c A I) (h1 : ∀ r v, A (.setRegister r v)) (h2 : ∀ a l, A (.writeMemory a l)) (l : Loc) (w : Word) :
    Holds I (Ex.setRaw (Ex.target h c) l w) := by
  cases l with
  | reg n => exact holds_op H (h1 n w)
  | off a => exact holds_op H (h2 a [w])

mutual
theorem holds_assign (H : Closed h c A I) (h1 : ∀ r v, A (.setRegister r v)) (h2 : ∀ a l, A (.writeMemory a l)) (fo : Ex.Floats) :
    ∀ (x y : Ex.Val), Holds I (Ex.assign (Ex.target h c) fo x y)
  | .int _ l, y => by
    cases l <;> cases y <;> unfold Ex.assign <;> first
      | exact Triple.throw
      | exact Triple.bind (holds_raw_set H h1 h2 _ _) fun _ => Triple.pure fun _ hi => hi
  | .float _ l, y => by
    cases l <;> cases y <;> unfold Ex.assign <;> first
      | exact Triple.throw
      | skip
    rename_i w _
    cases fo.toUnsigned w with
    | none => exact Triple.throw
    | some w => exact Triple.bind (holds_raw_set H h1 h2 _ w) fun _ => Triple.pure fun _ hi => hi
  | .char _ l, y => by
    cases l <;> cases y <;> unfold Ex.assign <;> first
      | exact Triple.throw
      | exact Triple.bind (holds_raw_set H h1 h2 _ _) fun _ => Triple.pure fun _ hi => hi
  | .ptr _ _ _ l, y => by
    cases l <;> cases y <;> unfold Ex.assign <;> first
      | exact Triple.throw
      | skip
    split
    · exact Triple.throw
    · exact Triple.bind (holds_raw_set H h1 h2 _ _) fun _ => Triple.pure fun _ hi => hi
  | .arr _ _ _ ms l, y => by
    cases l <;> cases y <;> unfold Ex.assign <;> first
      | exact Triple.throw
      | skip
    split
    · exact Triple.throw
    · split
      · exact Triple.throw
      · exact Triple.bind (holds_assignList H h1 h2 fo ms _) fun _ => Triple.pure fun _ hi => hi
  | .struct _ _ ms l, y => by
    cases l <;> cases y <;> unfold Ex.assign <;> first
      | exact Triple.throw
      | skip
    split
    · exact Triple.throw
    · exact Triple.bind (holds_assignMembers H h1 h2 fo ms _) fun _ => Triple.pure fun _ hi => hi
theorem holds_assignList (H : Closed h c A I) (h1 : ∀ r v, A (.setRegister r v)) (h2 : ∀ a l, A (.writeMemory a l)) (fo : Ex.Floats) :
    ∀ (x y : List Ex.Val), Holds I (Ex.assignList (Ex.target h c) fo x y)
  | x :: l, y :: l' => by
    rw [Ex.assignList]
    exact Triple.bind (holds_assign H h1 h2 fo x y) fun v => Triple.bind (holds_assignList H h1 h2 fo l l') fun r =>
      Triple.pure fun _ hi => hi
  | [], _ => by unfold Ex.assignList; exact Triple.pure fun _ hi => hi
  | _ :: _, [] => by unfold Ex.assignList; exact Triple.pure fun _ hi => hi
theorem holds_assignMembers (H : Closed h c A I) (h1 : ∀ r v, A (.setRegister r v)) (h2 : ∀ a l, A (.writeMemory a l)) (fo : Ex.Floats) :
    ∀ (x : List (Str × Ex.Val)) (y : Map Str Ex.Val), Holds I (Ex.assignMembers (Ex.target h c) fo x y)
  | [], y => by rw [Ex.assignMembers]; exact Triple.pure fun _ hi => hi
  | (n, x) :: l, y => by
    rw [Ex.assignMembers]
    cases Map.find y n with
    | none => exact Triple.throw
    | some z => exact Triple.bind (holds_assign H h1 h2 fo x z) fun v => Triple.bind (holds_assignMembers H h1 h2 fo l y) fun r =>
      Triple.pure fun _ hi => hi
end

theorem holds_reading {t : Ex.Target Native} (f : View → Except Err α) : Holds I (Ex.reading t f) := fun n a n' hi hr => by
  have : n' = n := (congrArg Prod.snd hr).symm
  rw [this]
  exact hi

theorem holds_eval (H : Closed h c A I) (m : Mode) (fo : Ex.Floats) (e : Ex.Env) : ∀ (x : Ex.Expr),
    (x.Assigns → (∀ r v, A (.setRegister r v)) ∧ ∀ a l, A (.writeMemory a l)) → Holds I (Ex.eval (Ex.target h c) m fo e x) := by
  intro x hx
  induction x with
  | int v => exact Triple.pure fun _ hi => hi
  | float v => exact Triple.pure fun _ hi => hi
  | char v => exact Triple.pure fun _ hi => hi
  | ident nm =>
    intro n a n' hi hr
    have : n' = n := (congrArg Prod.snd hr).symm
    rw [this]
    exact hi
  | evaluated i =>
    have : Holds I (match e.evaluated[i]? with
      | some v => pure v
      | none => Job.throw .debugger : N Ex.Val) := by
      cases e.evaluated[i]? with
      | none => exact Triple.throw
      | some v => exact Triple.pure fun _ hi => hi
    exact this
  | un o x ih => exact Triple.bind (ih hx) fun a => holds_reading _
  | bin o x y ih1 ih2 =>
    have ih1 := ih1 fun h => hx (.inr (.inl h))
    have ih2 := ih2 fun h => hx (.inr (.inr h))
    cases o <;> first
      | exact Triple.bind ih1 fun a => Triple.bind ih2 fun b => holds_reading _
      | exact Triple.bind ih1 fun a => Triple.bind ih2 fun b => holds_assign H (hx (.inl rfl)).1 (hx (.inl rfl)).2 fo a b
  | index x i ih1 ih2 => exact Triple.bind (ih2 fun h => hx (.inr h)) fun a => Triple.bind (ih1 fun h => hx (.inl h)) fun b => holds_reading _
  | member x n ih => exact Triple.bind (ih hx) fun a => holds_reading _
  | arrow x n ih => exact Triple.bind (ih hx) fun a => holds_reading _

theorem holds_evaluate (H : Closed h c A I) (m : Mode) (fo : Ex.Floats) (text : Str) (b : Bool) (s : Src.Source)
    (hx : Ex.Assigns h.stod text → (∀ r v, A (.setRegister r v)) ∧ ∀ a l, A (.writeMemory a l)) : Holds I (Src.evaluateExpression h c m fo text b s) := by
  unfold Src.evaluateExpression
  have h3 : Holds I (Ex.evaluate (Ex.target h c) m fo h.stod s.env text) := by
    unfold Ex.evaluate
    refine Triple.bind (Triple.ofExcept (q := fun _ => I) fun _ _ _ hi => hi) fun _ => ?_
    refine Triple.bind (q := fun x n => I n ∧ Ex.parse h.stod text = .ok x) ?_ fun x => ?_
    · unfold Ex.parsed
      split
      · rename_i hq
        exact Triple.pure fun _ hi => ⟨hi, hq⟩
      · exact Triple.throw
      · exact Triple.throw
    · intro n a n' hi hr
      refine Triple.bind (p := I) (q := fun _ => I) ?_ (fun _ => holds_eval H m fo s.env x fun ha => hx ⟨x, hi.2, ha⟩) n a n' hi.1 hr
      intro n a n' hi hr
      have : n' = n := (congrArg Prod.snd hr).symm
      rw [this]
      exact hi
  refine Triple.bind h3 fun v => ?_
  split
  · exact Triple.pure fun _ hi => hi
  · exact Triple.pure fun _ hi => hi

end Native

namespace Cli
open Job
variable {α β : Type} {h : Host} {c : Client} {A : Op → Prop} {I : Native → Prop}

/-- There is a process, of which `I` holds. -/
def On (h : Host) (c : Client) (I : Native → Prop) (s : Cli) : Prop := ∃ n, s.process = some n ∧ I n ∧ s.host = h ∧ s.client = c

/-- `x` keeps this if it succeeds. -/
abbrev Fix (h : Host) (c : Client) (I : Native → Prop) (x : C α) : Prop := Triple (On h c I) x fun _ => On h c I

theorem Fix.bind {x : C α} {f : α → C β} (hx : Fix h c I x) (hf : ∀ a, Fix h c I (f a)) : Fix h c I (x >>= f) := Triple.bind hx hf
theorem Fix.pure {a : α} : Fix h c I (Pure.pure a : C α) := Triple.pure fun _ hi => hi
theorem Fix.throw {e : Err} : Fix h c I (Job.throw e : C α) := Triple.throw
theorem Fix.get : Fix h c I (Job.get : C Cli) := Triple.get fun _ hi => hi
theorem Fix.except {x : Except Err α} : Fix h c I (Job.ofExcept x : C α) := Triple.ofExcept fun _ _ _ hi => hi
theorem Fix.out {f : Cli → List Out} : Fix h c I (Job.modify fun s => { s with out := f s }) := Triple.modify fun _ hi => hi
theorem Fix.run {f : Cli → Bool} : Fix h c I (Job.modify fun s => { s with running := f s }) := Triple.modify fun _ hi => hi
theorem Fix.put {o : Out} : Fix h c I (put o) := Fix.out
theorem Fix.error : Fix h c I (error : C α) := Fix.throw

theorem Fix.call {x : Host → Client → Native.N α} (hx : Native.Holds I (x h c)) : Fix h c I (call x) := by
  intro s a s' ⟨n, hn, hi, h1, h2⟩ hr
  unfold Cli.call at hr
  rw [hn, h1, h2] at hr
  injection hr with h3 h4
  refine ⟨_, by rw [← h4], hx n a _ hi (Prod.ext h3 rfl), ?_, ?_⟩
  · rw [← h4]
  · rw [← h4]

/-- Taking a command apart. -/
macro "fix" : tactic => `(tactic| repeat' first
  | exact Fix.pure | exact Fix.throw | exact Fix.error | exact Fix.get | exact Fix.except | exact Fix.put | exact Fix.out | exact Fix.run
  | assumption
  | refine Fix.bind ?_ fun _ => ?_
  | split)

theorem fix_needProcess : Fix h c I needProcess := by unfold needProcess; fix
theorem fix_needRunning : Fix h c I needRunning := by unfold needRunning; fix
theorem fix_address {l : List Str} {i : Nat} : Fix h c I (address l i) := by unfold address; fix

section
variable (H : Closed h c A I) (hr : A .registers) (ht : ∀ a m, A (.read a m))
include H hr

theorem fix_ip : Fix h c I (call fun h _ => Native.getIP h) := Fix.call (Native.holds_ip H hr)

theorem fix_printText (a : Word) (l : List Str) : Fix h c I (printText a l) := by
  have := fix_ip H hr
  unfold printText; fix

theorem fix_printCode (a d : Nat) : Fix h c I (printCode a d) := by
  have := fix_ip H hr
  unfold printCode; fix

omit H hr in
theorem fix_printFunction (e : Env) (a : Word) : Fix h c I (printFunction e a false) := by
  unfold printFunction; fix

theorem fix_prettyCode (e : Env) (l : Nat) : Fix h c I (prettyCode e l) := by
  have := fix_ip H hr
  unfold prettyCode
  exact this.bind fun ip => (fix_printFunction e ip).bind fun _ => fix_printCode H hr _ _

omit hr in
theorem fix_size : Fix h c I (call fun h _ => Native.textSize h) := Fix.call fun n w n' hi e => H.size n w n' hi e

include ht

omit hr in
theorem fix_read (a m : Word) : Fix h c I (call fun h _ => Native.readText h a m) := Fix.call (Native.holds_read H (ht a m))

theorem fix_prettyText (e : Env) (a : Word) : Fix h c I (prettyText e a) := by
  unfold prettyText
  refine (fix_size H).bind fun size => ?_
  split
  · exact Fix.pure
  · exact (fix_read H ht _ _).bind fun l => (fix_printFunction e a).bind fun _ => fix_printText H hr _ _

theorem fix_showPlace (e : Env) : Fix h c I (showPlace e) := by
  unfold showPlace
  refine (fix_ip H hr).bind fun ip => Fix.get.bind fun s => ?_
  split
  · exact fix_prettyCode H hr e _
  · exact fix_prettyText H hr ht e _

omit ht in
theorem fix_report (ev : Event) : Fix h c I (report ev) := by
  have := fix_ip H hr
  unfold report; fix

omit ht in
theorem fix_showLine (e : Env) : Fix h c I (showLine e) := by
  unfold showLine
  refine (fix_ip H hr).bind fun ip => Fix.get.bind fun s => ?_
  split
  · exact fix_prettyCode H hr e _
  · exact Fix.pure

omit ht in
theorem fix_afterStep (ev : Event) {x : C Unit} (hx : Fix h c I x) : Fix h c I (afterStep ev x) := by
  have := fix_report H hr ev
  unfold afterStep reportStop; fix

theorem fix_reportBreak (e : Env) (ev : Event) : Fix h c I (reportBreak e ev) := by
  have := fix_showPlace H hr ht e
  unfold reportBreak; fix

end

/-! ## Memory and expressions -/

section
variable (H : Closed h c A I)
include H

theorem fix_getCells (hr : ∀ a m, A (.readMemory a m)) (l : List Str) : Fix h c I (getCells l) := by
  unfold getCells
  refine Fix.except.bind fun t => Fix.except.bind fun u => ?_
  split
  · refine (Fix.call (Native.holds_memory H (hr _ _))).bind fun r => Fix.except.bind fun w => ?_
    fix
  · exact Fix.error

theorem fix_memory (hr : ∀ a m, A (.readMemory a m)) (l : Str)
    (hw : check (split l ' ') "set" 3 = true ∨ check (split l ' ') "setstr" 3 = true → ∀ a l, A (.writeMemory a l)) : Fix h c I (handleMemory l) := by
  unfold handleMemory onMemory
  refine fix_needProcess.bind fun _ => ?_
  split
  · rename_i hk
    unfold setCells
    refine Fix.except.bind fun t => Fix.except.bind fun u => ?_
    split
    · exact Fix.throw
    · exact Fix.call (Native.holds_op H (o := .writeMemory _ _) (hw (.inl hk) _ _))
  split
  · rename_i hk
    unfold setString
    refine Fix.except.bind fun t => ?_
    split
    · exact Fix.error
    · exact Fix.except.bind fun s => Fix.call (Native.holds_op H (o := .writeMemory _ _) (hw (.inr hk) _ _))
  split
  · exact fix_getCells H hr _
  · exact Fix.put

theorem fix_evaluate (e : Env) (text : Str) (b : Bool)
    (hx : Ex.Assigns h.stod text → (∀ r v, A (.setRegister r v)) ∧ ∀ a l, A (.writeMemory a l)) : Fix h c I (evaluate e text b) := by
  intro s a s' ⟨n, hn, hi, h1, h2⟩ hr
  unfold evaluate at hr
  simp only [hn, h1, h2] at hr
  cases hv : Src.evaluateExpression h c e.mode e.fo text b s.source n with
  | mk r n1 =>
    rw [hv] at hr
    cases r with
    | error er => cases hr
    | ok r =>
      obtain ⟨v, i, src⟩ := r
      have := Native.holds_evaluate H e.mode e.fo text b s.source hx n _ n1 hi hv
      cases hr
      exact ⟨n1, rfl, this, rfl, rfl⟩

theorem fix_expression (hr : ∀ a m, A (.readMemory a m)) (e : Env) (l : Str)
    (hx : Ex.Assigns h.stod l → (∀ r v, A (.setRegister r v)) ∧ ∀ a l, A (.writeMemory a l)) : Fix h c I (handleExpression e l) := by
  unfold handleExpression
  refine fix_needProcess.bind fun _ => ?_
  split
  · exact Fix.put
  · exact (fix_evaluate H e l true hx).bind fun v => Fix.get.bind fun s => Fix.except.bind fun t =>
      (Fix.call (Native.holds_value H hr _ _ _)).bind fun x => Fix.put

end

/-! ## The commands -/

section
variable (H : Closed h c A I) (hA : ∀ o, o.Looks → A o)
include H hA

theorem fix_op {x : Host → Word → Native.N Unit} {f : Word → Op} (hx : ∀ a, x h a = (f a).run h c) (hf : ∀ a, (f a).Looks) (a : Word) :
    Fix h c I (call fun h _ => x h a) := Fix.call (by rw [hx]; exact Native.holds_op H (hA _ (hf a)))

theorem fix_breakpoint (l : Str) : Fix h c I (handleBreakpoint l) := by
  have h1 := fix_op H hA (x := Native.setBreakpoint) (f := .set) (fun _ => rfl) fun _ => trivial
  have h2 := fix_op H hA (x := Native.unsetBreakpoint) (f := .unset) (fun _ => rfl) fun _ => trivial
  have h3 := fix_op H hA (x := Native.enable) (f := .enable) (fun _ => rfl) fun _ => trivial
  have h4 := fix_op H hA (x := Native.disable) (f := .disable) (fun _ => rfl) fun _ => trivial
  have hl : ∀ what a how, Fix h c I (printLine what a how) := fun what a how => by unfold printLine; fix
  have hp : ∀ subs, Fix h c I (place subs) := fun subs => by unfold place; fix
  have ho : ∀ (x : Host → Word → Native.N Unit) subs what how, (∀ a, Fix h c I (call fun h _ => x h a)) → Fix h c I (onPlace subs x what how) :=
    fun x subs what how hx => (hp subs).bind fun a => (hx a).bind fun _ => hl _ _ _
  have hi : ∀ (x : Host → Word → Native.N Unit) subs what, (∀ a, Fix h c I (call fun h _ => x h a)) → Fix h c I (onAddress subs x what) :=
    fun x subs what hx => fix_address.bind fun a => (hx a).bind fun _ => Fix.put
  unfold handleBreakpoint onBreakpoint
  refine fix_needProcess.bind fun _ => ?_
  split
  · unfold breakAt
    exact fix_address.bind fun a => (fix_read H (fun _ _ => hA _ trivial) a 1).bind fun l => (h1 a).bind fun _ => Fix.except.bind fun _ => Fix.put
  split
  · exact ho _ _ _ _ h1
  split
  · exact ho _ _ _ _ h2
  split
  · exact ho _ _ _ _ h3
  split
  · exact ho _ _ _ _ h4
  split
  · exact hi _ _ _ h4
  split
  · exact hi _ _ _ h3
  split
  · exact hi _ _ _ h2
  split
  · exact Fix.out
  · exact Fix.put

theorem fix_watchpoint (l : Str) : Fix h c I (handleWatchpoint l) := by
  have h1 := fix_op H hA (x := Native.setWatchpoint) (f := .watch) (fun _ => rfl) fun _ => trivial
  have h2 := fix_op H hA (x := Native.removeWatchpoint) (f := .unwatch) (fun _ => rfl) fun _ => trivial
  unfold handleWatchpoint onWatchpoint
  split
  · exact fix_address.bind h1
  split
  · exact fix_address.bind h2
  split
  · unfold listWatchpoints; fix
  · exact Fix.put

omit H hA in
theorem fix_stepping (l : Str) (u : Usage) {x : C Unit} (hx : Fix h c I x) : Fix h c I (stepping l u x) := by
  unfold stepping
  refine fix_needProcess.bind fun _ => fix_needRunning.bind fun _ => ?_
  fix

theorem fix_sourceStep (e : Env) (b : Bool) : Fix h c I (sourceStep e b) := by
  unfold sourceStep
  refine Fix.get.bind fun s => Fix.bind (Fix.call ?_) fun ev => fix_afterStep H (hA _ trivial) ev (fix_showLine H (hA _ trivial) e)
  cases b
  · exact Native.holds_stepIn H (hA _ trivial) (hA _ trivial) (hA _ trivial) _ _
  · exact Native.holds_srcOver H (hA _ trivial) (fun _ _ => hA _ trivial) _ _

theorem fix_nativeStep (e : Env) (b : Bool) : Fix h c I (nativeStep e b) := by
  unfold nativeStep
  refine Fix.bind (Fix.call ?_) fun ev => fix_afterStep H (hA _ trivial) ev
    ((fix_ip H (hA _ trivial)).bind fun ip => fix_prettyText H (hA _ trivial) (fun _ _ => hA _ trivial) e ip)
  cases b
  · exact Native.holds_step H (hA _ trivial)
  · exact Native.holds_over H (hA _ trivial)

theorem fix_finish (e : Env) : Fix h c I (finish e) := by
  unfold finish
  exact Fix.bind (Fix.call (Native.holds_out H (hA _ trivial))) fun ev =>
    fix_afterStep H (hA _ trivial) ev (fix_showPlace H (hA _ trivial) (fun _ _ => hA _ trivial) e)

theorem fix_disassemble (e : Env) (l : Str) : Fix h c I (handleDisassemble e l) := by
  have hr := fix_read H (fun a m => hA (.read a m) trivial)
  have hp := fix_printText H (hA .registers trivial)
  unfold handleDisassemble onDisassemble
  refine fix_needProcess.bind fun _ => ?_
  split
  · exact (fix_ip H (hA _ trivial)).bind fun ip => fix_prettyText H (hA _ trivial) (fun _ _ => hA _ trivial) e ip
  split
  · unfold disassembleRange
    exact fix_address.bind fun a => fix_address.bind fun b => (hr _ _).bind fun _ => hp _ _
  split
  · unfold disassembleFrom
    refine fix_address.bind fun a => (fix_size H).bind fun size => ?_
    split
    · exact Fix.error
    · refine Fix.bind ?_ fun n => (hr _ _).bind fun _ => hp _ _
      unfold amountText
      split
      · exact fix_address
      · exact Fix.pure
  split
  · unfold disassembleFunction
    refine Fix.except.bind fun id => Fix.get.bind fun s => ?_
    split
    · exact Fix.error
    · exact (hr _ _).bind fun _ => hp _ _
  · exact Fix.put

theorem fix_source (l : Str) : Fix h c I (handleSource l) := by
  have hc := fix_printCode H (hA .registers trivial)
  unfold handleSource onSource
  refine fix_needProcess.bind fun _ => ?_
  split
  · unfold sourceHere
    refine (fix_ip H (hA _ trivial)).bind fun ip => Fix.get.bind fun s => ?_
    split
    · exact Fix.error
    · exact hc _ _
  split
  · unfold sourceFrom
    refine fix_address.bind fun a => ?_
    split
    · exact Fix.error
    · refine Fix.bind ?_ fun n => hc _ _
      unfold amountFrom
      split
      · exact fix_address
      · fix
  · exact Fix.put

theorem fix_register (l : Str)
    (hs : check (split l ' ') "set" 3 = true ∨ check (split l ' ') "fset" 3 = true → ∀ r v, A (.setRegister r v) ∧ A (.setFloat r v)) :
    Fix h c I (handleRegister l) := by
  unfold handleRegister onRegister
  refine fix_needProcess.bind fun _ => ?_
  split
  · unfold listRegisters
    exact Fix.bind (Fix.call (Native.holds_registers H (hA _ trivial))) fun _ => Fix.out
  split
  · rename_i hw
    unfold setRegister
    refine Fix.except.bind fun r => Fix.except.bind fun t => ?_
    split
    · exact Fix.error
    · exact Fix.call (Native.holds_op H (o := .setRegister _ _) (hs (.inl hw) _ _).1)
  split
  · exact Fix.except.bind fun r => (Fix.call (Native.holds_register H (hA _ trivial) r)).bind fun _ => Fix.put
  split
  · exact Fix.except.bind fun r => (Fix.call (Native.holds_float H (hA _ trivial) r)).bind fun _ => Fix.get.bind fun _ => Fix.put
  split
  · rename_i hw
    unfold setFloat
    refine Fix.except.bind fun r => Fix.except.bind fun t => Fix.get.bind fun s => ?_
    split
    · exact Fix.error
    · exact Fix.call (Native.holds_op H (o := .setFloat _ _) (hs (.inr hw) _ _).2)
  · exact Fix.put

theorem fix_continue (e : Env) : Fix h c I (handleContinue e) := by
  unfold handleContinue
  refine fix_needProcess.bind fun _ => fix_needRunning.bind fun _ => (Fix.call (Native.holds_go H (hA _ trivial))).bind fun ev => ?_
  refine Fix.bind ?_ fun _ => (fix_report H (hA _ trivial) ev).bind fun _ => fix_reportBreak H (hA _ trivial) (fun _ _ => hA _ trivial) e ev
  unfold markEnd
  fix

/-- All commands but `run`, `attach`, `assemble` and `frame`. -/
theorem fix_perform (e : Env) {k : Option Command} (h1 : k ≠ some .assemble) (h2 : k ≠ some .frame) (l : Str)
    (h3 : k = some .register → check (split l ' ') "set" 3 = true ∨ check (split l ' ') "fset" 3 = true → ∀ r v, A (.setRegister r v) ∧ A (.setFloat r v))
    (h4 : k = some .memory → check (split l ' ') "set" 3 = true ∨ check (split l ' ') "setstr" 3 = true → ∀ a l, A (.writeMemory a l))
    (h5 : k = some .expression → Ex.Assigns h.stod l → (∀ r v, A (.setRegister r v)) ∧ ∀ a l, A (.writeMemory a l)) :
    Fix h c I (perform e k l) := by
  unfold perform
  split
  · exact fix_breakpoint H hA l
  · exact fix_stepping l _ (fix_nativeStep H hA e _)
  · exact fix_stepping l _ (fix_nativeStep H hA e _)
  · exact fix_disassemble H hA e l
  · contradiction
  · exact fix_continue H hA e
  · exact fix_register H hA l (h3 rfl)
  · exact fix_memory H (fun _ _ => hA _ trivial) l (h4 rfl)
  · exact fix_watchpoint H hA l
  · exact fix_stepping l _ (fix_sourceStep H hA e _)
  · exact fix_stepping l _ (fix_sourceStep H hA e _)
  · exact fix_stepping l _ (fix_finish H hA e)
  · contradiction
  · exact fix_source H hA l
  · exact fix_expression H (fun _ _ => hA _ trivial) e l (h5 rfl)
  · exact Fix.put

end
end Cli
end T86
