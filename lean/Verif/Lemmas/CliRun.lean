import Verif.Lemmas.CliMild
import Verif.Lemmas.CliKeep

/-! Commands that go on with the program. -/

namespace T86
open Dbg Str
namespace Cli
open Job
variable {α β : Type}

/-- `x` does not change whether the program has finished. -/
def Steady (x : C α) : Prop := ∀ s, (x s).2.running = s.running

theorem Steady.bind {x : C α} {f : α → C β} (hx : Steady x) (hf : ∀ a, Steady (f a)) : Steady (x >>= f) := by
  intro s
  change (Job.bind x f s).2.running = _
  unfold Job.bind
  have := hx s
  cases hq : x s with
  | mk r t =>
    rw [hq] at this
    cases r with
    | ok a => exact (hf a t).trans this
    | error e => exact this

theorem Steady.pure {a : α} : Steady (Pure.pure a : C α) := fun _ => rfl
theorem Steady.get : Steady (Job.get : C Cli) := fun _ => rfl
theorem Steady.out {f : Cli → List Out} : Steady (Job.modify fun s => { s with out := s.out ++ f s }) := fun _ => rfl
theorem Steady.put {o : Out} : Steady (put o) := fun _ => rfl
theorem Steady.call {x : Host → Client → Native.N α} : Steady (call x) := by
  intro s
  unfold Cli.call
  split <;> rfl

theorem steady_printFunction (e : Env) (a : Word) : Steady (printFunction e a false) := by
  unfold printFunction
  refine Steady.get.bind fun s => ?_
  split
  · exact Steady.pure
  · split
    · exact Steady.pure
    · exact Steady.put.bind fun _ => Steady.pure

theorem steady_prettyText (e : Env) (a : Word) : Steady (prettyText e a) := by
  unfold prettyText
  refine Steady.call.bind fun size => ?_
  split
  · exact Steady.pure
  · exact Steady.call.bind fun l => (steady_printFunction e a).bind fun _ => Steady.call.bind fun _ => Steady.out

theorem steady_prettyCode (e : Env) (l : Nat) : Steady (prettyCode e l) :=
  Steady.call.bind fun ip => (steady_printFunction e ip).bind fun _ => Steady.call.bind fun _ => Steady.out

theorem steady_showPlace (e : Env) : Steady (showPlace e) := by
  unfold showPlace
  refine Steady.call.bind fun ip => Steady.get.bind fun s => ?_
  split
  · exact steady_prettyCode e _
  · exact steady_prettyText e _

theorem steady_showLine (e : Env) : Steady (showLine e) := by
  unfold showLine
  refine Steady.call.bind fun ip => Steady.get.bind fun s => ?_
  split
  · exact steady_prettyCode e _
  · exact Steady.pure

theorem steady_report {ev : Event} (h : isCpuError ev = false) : Steady (report ev) := by
  unfold report
  refine Steady.get.bind fun s => Steady.put.bind fun _ => ?_
  rw [if_neg (by rw [h]; simp)]
  exact Steady.pure

theorem steady_afterStep {ev : Event} (h : isCpuError ev = false) (h' : ev ≠ .end') {x : C Unit} (hx : Steady x) : Steady (afterStep ev x) := by
  unfold afterStep reportStop
  refine Steady.bind ?_ fun _ => ?_
  · split
    · exact Steady.pure
    · exact steady_report h
  · rw [if_neg h']
    exact hx

/-! ## What a command does -/

theorem need_eq {s : Cli} {n : Native} (hn : s.process = some n) (hr : s.running = true) (x : C Unit) :
    (do
      needProcess
      needRunning
      x : C Unit) s = x s := by
  have h1 : needProcess s = (.ok (), s) := by
    unfold needProcess
    refine (bind_eq (x := Job.get) (a := s) (t := s) rfl).trans ?_
    rw [hn]
    rfl
  have h2 : needRunning s = (.ok (), s) := by
    unfold needRunning
    refine (bind_eq (x := Job.get) (a := s) (t := s) rfl).trans ?_
    rw [hr]
    rfl
  rw [bind_eq h1, bind_eq h2]

theorem need_refused {s : Cli} {n : Native} (hn : s.process = some n) (hr : s.running = false) (x : C Unit) :
    (do
      needProcess
      needRunning
      x : C Unit) s = (.error .debugger, s) := by
  have h1 : needProcess s = (.ok (), s) := by
    unfold needProcess
    refine (bind_eq (x := Job.get) (a := s) (t := s) rfl).trans ?_
    rw [hn]
    rfl
  have h2 : needRunning s = (.error .debugger, s) := by
    unfold needRunning
    refine (bind_eq (x := Job.get) (a := s) (t := s) rfl).trans ?_
    rw [hr]
    rfl
  rw [bind_eq h1, bind_error h2]

theorem call_eq {s : Cli} {n n' : Native} (hn : s.process = some n) {x : Host → Client → Native.N α} {r : Except Err α}
    (hx : x s.host s.client n = (r, n')) : call x s = (r, { s with process := some n' }) := by
  unfold call
  rw [hn]
  simp only [hx]

/-- What is done with the event. -/
def after (e : Env) (k : Command) (ev : Event) : C Unit :=
  match k with
  | .istep | .inext => afterStep ev do
      let ip ← call fun h _ => Native.getIP h
      prettyText e ip
  | .step | .next => afterStep ev (showLine e)
  | .finish => afterStep ev (showPlace e)
  | _ => do
    markEnd ev
    report ev
    reportBreak e ev

theorem motion_eq (e : Env) {k : Command} {s : Cli} {n n' : Native} {x : Native.N Event} {ev : Event} {l : Str}
    (hk : motion e s.source s.host s.client k = some x) (hl : l = [] ∨ k = .continue') (hn : s.process = some n) (hr : s.running = true)
    (hx : x n = (.ok ev, n')) : perform e (some k) l s = after e k ev { s with process := some n' } := by
  cases k <;> simp only [motion, Option.some.injEq, reduceCtorEq] at hk
  all_goals subst hk
  case istep =>
    obtain rfl : l = [] := by simpa using hl
    refine (need_eq hn hr _).trans ?_
    exact bind_eq (call_eq hn (x := fun h c => if false = true then Native.stepOver h c e.fuel true else Native.singleStep h c) hx)
  case inext =>
    obtain rfl : l = [] := by simpa using hl
    refine (need_eq hn hr _).trans ?_
    exact bind_eq (call_eq hn (x := fun h c => if true = true then Native.stepOver h c e.fuel true else Native.singleStep h c) hx)
  case step =>
    obtain rfl : l = [] := by simpa using hl
    refine (need_eq hn hr _).trans ?_
    refine (bind_eq (x := Job.get) (a := s) (t := s) rfl).trans ?_
    exact bind_eq (call_eq hn (x := fun h c => if false = true then Src.stepOver h c s.source e.fuel else Src.stepIn h c s.source e.fuel) hx)
  case next =>
    obtain rfl : l = [] := by simpa using hl
    refine (need_eq hn hr _).trans ?_
    refine (bind_eq (x := Job.get) (a := s) (t := s) rfl).trans ?_
    exact bind_eq (call_eq hn (x := fun h c => if true = true then Src.stepOver h c s.source e.fuel else Src.stepIn h c s.source e.fuel) hx)
  case finish =>
    obtain rfl : l = [] := by simpa using hl
    refine (need_eq hn hr _).trans ?_
    exact bind_eq (call_eq hn (x := fun h c => Native.stepOut h c e.fuel) hx)
  case continue' =>
    refine (need_eq hn hr _).trans ?_
    exact bind_eq (call_eq hn (x := fun h c => do
      Native.continue' h c
      Native.waitEvent h c) hx)

theorem motion_error (e : Env) {k : Command} {s : Cli} {n n' : Native} {x : Native.N Event} {er : Err} {l : Str}
    (hk : motion e s.source s.host s.client k = some x) (hl : l = [] ∨ k = .continue') (hn : s.process = some n) (hr : s.running = true)
    (hx : x n = (.error er, n')) : perform e (some k) l s = (.error er, { s with process := some n' }) := by
  cases k <;> simp only [motion, Option.some.injEq, reduceCtorEq] at hk
  all_goals subst hk
  case istep =>
    obtain rfl : l = [] := by simpa using hl
    refine (need_eq hn hr _).trans ?_
    exact bind_error (call_eq hn (x := fun h c => if false = true then Native.stepOver h c e.fuel true else Native.singleStep h c) hx)
  case inext =>
    obtain rfl : l = [] := by simpa using hl
    refine (need_eq hn hr _).trans ?_
    exact bind_error (call_eq hn (x := fun h c => if true = true then Native.stepOver h c e.fuel true else Native.singleStep h c) hx)
  case step =>
    obtain rfl : l = [] := by simpa using hl
    refine (need_eq hn hr _).trans ?_
    refine (bind_eq (x := Job.get) (a := s) (t := s) rfl).trans ?_
    exact bind_error (call_eq hn (x := fun h c => if false = true then Src.stepOver h c s.source e.fuel else Src.stepIn h c s.source e.fuel) hx)
  case next =>
    obtain rfl : l = [] := by simpa using hl
    refine (need_eq hn hr _).trans ?_
    refine (bind_eq (x := Job.get) (a := s) (t := s) rfl).trans ?_
    exact bind_error (call_eq hn (x := fun h c => if true = true then Src.stepOver h c s.source e.fuel else Src.stepIn h c s.source e.fuel) hx)
  case finish =>
    obtain rfl : l = [] := by simpa using hl
    refine (need_eq hn hr _).trans ?_
    exact bind_error (call_eq hn (x := fun h c => Native.stepOut h c e.fuel) hx)
  case continue' =>
    refine (need_eq hn hr _).trans ?_
    exact bind_error (call_eq hn (x := fun h c => do
      Native.continue' h c
      Native.waitEvent h c) hx)

theorem report_end (s : Cli) : report .end' s = (.ok (), { s with out := s.out ++ [.event "The program finished execution".toList] }) := rfl

theorem after_end (e : Env) (k : Command) (s : Cli) :
    after e k .end' s = (.ok (), { s with running := false, out := s.out ++ [.event "The program finished execution".toList] }) := by
  cases k <;> rfl

theorem after_steady (e : Env) (k : Command) {ev : Event} (h1 : isCpuError ev = false) (h2 : ev ≠ .end') : Steady (after e k ev) := by
  have hd : Steady (do
      markEnd ev
      report ev
      reportBreak e ev) := by
    refine Steady.bind ?_ fun _ => (steady_report h1).bind fun _ => ?_
    · unfold markEnd
      rw [if_neg h2]
      exact Steady.pure
    · unfold reportBreak
      rw [if_neg h2]
      exact steady_showPlace e
  cases k <;> first
    | exact hd
    | exact steady_afterStep h1 h2 (Steady.call.bind fun ip => steady_prettyText e ip)
    | exact steady_afterStep h1 h2 (steady_showLine e)
    | exact steady_afterStep h1 h2 (steady_showPlace e)

/-- Commands that are refused when the program has finished. -/
theorem perform_refused (e : Env) {k : Command} {s : Cli} {n : Native} {l : Str} (hk : (motion e s.source s.host s.client k).isSome ∨ k = .frame)
    (hn : s.process = some n) (hr : s.running = false) : perform e (some k) l s = (.error .debugger, s) := by
  cases k <;> first
    | exact need_refused hn hr _
    | (rcases hk with hk | hk <;> cases hk)

/-! ## From lines to commands -/

theorem typed_is (e : Env) {k : Command} {raw : Str} (hk : Is k raw) (h1 : k ≠ .run) (h2 : k ≠ .attach) (h3 : k ≠ .help) {s : Cli}
    (hp : s.process.isSome) : typed e raw s = caught (perform e (some k) (firstWord (squashStrip raw)).2 s) := by
  rw [typed_eq e hk.1, handle_eq e hk.2 (by simpa using h1) (by simpa using h2) (by simpa using h3), performIfActive_eq e _ _ hp]

theorem idle_eq (e : Env) (k : Option Command) (l : Str) {s : Cli} (hp : s.process = none) : performIfActive e k l s =
    (.ok (), { s with out := s.out ++ [.usage .all, .print "Use the `run` or `attach` command to run a process first.".toList] }) := by
  unfold performIfActive
  refine (bind_eq (x := Job.get) (a := s) (t := s) rfl).trans ?_
  rw [if_neg (by rw [hp]; simp)]
  refine (bind_eq (x := put (.usage .all)) (a := ()) (t := { s with out := s.out ++ [.usage .all] }) rfl).trans ?_
  simp [put, Job.modify]

theorem process_eq {s : Cli} (hp : s.process.isSome) : needProcess s = (.ok (), s) := by
  unfold needProcess
  refine (bind_eq (x := Job.get) (a := s) (t := s) rfl).trans ?_
  rw [hp]
  rfl

/-- What is carried out has succeeded. -/
theorem Done.caught {e : Env} {raw : Str} {s s' : Cli} (hd : Done e raw s s') {r : Except Err Unit × Cli} (ht : typed e raw s = caught r)
    (hr : s.out <+: r.2.out) : r = (.ok (), s') := by
  obtain ⟨h1, ho⟩ := hd
  rw [ht] at h1
  unfold Cli.caught at h1
  split at h1
  · rename_i t
    exfalso
    have : s' = { t with out := t.out ++ [.error] } := (congrArg Prod.snd h1).symm
    rw [this] at ho
    apply ho
    rw [List.drop_append_of_le_length hr.length_le]
    simp
  · exact h1

/-- A line that is carried out. -/
theorem Done.handle {e : Env} {raw : Str} {s s' : Cli} (hd : Done e raw s s') (h1 : ¬ Is .run raw) (h2 : ¬ Is .attach raw) :
    s' = s ∨ squashStrip raw ≠ [] ∧ Cli.handle e (squashStrip raw) s = (.ok (), s') := by
  obtain ⟨ht, ho⟩ := hd
  by_cases hn : squashStrip raw = []
  · rw [typed_nil e hn] at ht
    exact .inl (congrArg Prod.snd ht).symm
  right
  refine ⟨hn, ?_⟩
  rw [typed_eq e hn] at ht
  have hm := mild_handle e (fun h => h1 ⟨hn, h⟩) (fun h => h2 ⟨hn, h⟩) s
  unfold Cli.caught at ht
  split at ht
  · rename_i t hq
    rw [hq] at hm
    exfalso
    have : s' = { t with out := t.out ++ [.error] } := (congrArg Prod.snd ht).symm
    rw [this] at ho
    apply ho
    rw [List.drop_append_of_le_length hm.out.length_le]
    simp
  · exact ht

end Cli
end T86
