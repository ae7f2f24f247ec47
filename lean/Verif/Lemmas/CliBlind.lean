import Verif.Lemmas.CliLoop

/-! # What the commands do does not depend on what has been printed and on the input to come -/

set_option linter.unusedVariables false
set_option linter.unusedSectionVars false
set_option linter.unusedTactic false
set_option linter.unreachableTactic false

namespace T86
open Dbg Str Native
namespace Cli

/-- With another rest of the input, and other things printed. -/
abbrev re (s : Cli) (i : List Str) (o : List Out) : Cli := { s with input := i, out := o }

/-- The result, the new state and what is printed are the same for any rest of the input and whatever was printed before. -/
def Blind {α : Type} (x : C α) : Prop := ∀ s : Cli, ∃ r s' d, ∀ i o, x (s.re i o) = (r, re s' i (o ++ d))

/-- It does not look at these. -/
def Agnostic {α : Type} (f : Cli → α) : Prop := ∀ s i o, f (re s i o) = f s

theorem Blind.bind {α β : Type} {x : C α} {f : α → C β} (hx : Blind x) (hf : ∀ a, Blind (f a)) : Blind (x >>= f) := by
  intro s
  obtain ⟨r, s1, d, h1⟩ := hx s
  cases r with
  | error er =>
    refine ⟨.error er, s1, d, fun i o => ?_⟩
    show Job.bind x f _ = _
    unfold Job.bind
    rw [h1]
  | ok a =>
    obtain ⟨r2, s2, d2, h2⟩ := hf a s1
    refine ⟨r2, s2, d ++ d2, fun i o => ?_⟩
    show Job.bind x f _ = _
    unfold Job.bind
    rw [h1]
    show f a (re s1 i (o ++ d)) = _
    rw [h2, List.append_assoc]

theorem Blind.get {α : Type} {f : Cli → C α} (h : Agnostic f) (hf : ∀ a, Blind (f a)) : Blind (Job.get >>= f) := by
  intro s
  obtain ⟨r, s1, d, h1⟩ := hf s s
  refine ⟨r, s1, d, fun i o => ?_⟩
  show f (re s i o) (re s i o) = _
  rw [h, h1]

/-- A step that prints `d` and does the rest without looking. -/
theorem Blind.of {α : Type} {x : C α} {r : Cli → Except Err α} {g : Cli → Cli} {d : Cli → List Out}
    (h : ∀ s i o, x (re s i o) = (r s, re (g s) i (o ++ d s))) : Blind x := fun s => ⟨r s, g s, d s, h s⟩

theorem Blind.same {α : Type} {x : C α} {r : Except Err α} (h : ∀ s, x s = (r, s)) : Blind x := fun s => ⟨r, s, [], fun i o => by rw [h, List.append_nil]⟩

theorem Blind.pure {α : Type} {a : α} : Blind (Pure.pure a : C α) := Blind.same fun _ => rfl
theorem Blind.throw {α : Type} {er : Err} : Blind (Job.throw er : C α) := Blind.same fun _ => rfl
theorem Blind.error {α : Type} : Blind (Cli.error : C α) := Blind.throw
theorem Blind.ofExcept {α : Type} {x : Except Err α} : Blind (Job.ofExcept x : C α) := Blind.same fun _ => rfl
theorem Blind.out {f : Cli → List Out} (h : Agnostic f) : Blind (Job.modify fun s => { s with out := s.out ++ f s }) :=
  fun s => ⟨.ok (), s, f s, fun i o => by
    show (Except.ok (), { re s i o with out := o ++ f (re s i o) }) = _
    rw [h]⟩
theorem Blind.put {o : Out} : Blind (Cli.put o) := Blind.out (f := fun _ => [o]) fun _ _ _ => rfl
theorem Blind.running {f : Cli → Bool} (h : Agnostic f) : Blind (Job.modify fun s => { s with running := f s }) :=
  fun s => ⟨.ok (), { s with running := f s }, [], fun i o => by
    show (Except.ok (), { re s i o with running := f (re s i o) }) = _
    rw [h, List.append_nil]⟩
theorem Blind.call {α : Type} {x : Host → Client → Native.N α} : Blind (call x) := fun s => by
  cases h : s.process with
  | none =>
    refine ⟨.error .ub, s, [], fun i o => ?_⟩
    unfold Cli.call
    show (match s.process with | none => _ | some n => _) = _
    rw [h, List.append_nil]
  | some n =>
    refine ⟨(x s.host s.client n).1, { s with process := some (x s.host s.client n).2 }, [], fun i o => ?_⟩
    unfold Cli.call
    show (match s.process with | none => _ | some n => _) = _
    rw [h, List.append_nil]
theorem Blind.evaluate (e : Env) (t : Str) (b : Bool) : Blind (evaluate e t b) := fun s => by
  cases h : s.process with
  | none =>
    refine ⟨.error .ub, s, [], fun i o => ?_⟩
    unfold Cli.evaluate
    show (match s.process with | none => _ | some n => _) = _
    rw [h, List.append_nil]
  | some n =>
    rcases hx : Src.evaluateExpression s.host s.client e.mode e.fo t b s.source n with ⟨er | ⟨v, j, src⟩, n'⟩
    · refine ⟨.error er, { s with process := some n' }, [], fun i o => ?_⟩
      unfold Cli.evaluate
      show (match s.process with | none => _ | some n => _) = _
      rw [h]
      dsimp only
      rw [hx, List.append_nil]
    · refine ⟨.ok (v, j), { s with process := some n', source := src }, [], fun i o => ?_⟩
      unfold Cli.evaluate
      show (match s.process with | none => _ | some n => _) = _
      rw [h]
      dsimp only
      rw [hx, List.append_nil]
theorem Blind.ignoring {x : C Unit} (hx : Blind x) : Blind (ignoring x) := fun s => by
  obtain ⟨r, s1, d, h⟩ := hx s
  by_cases hr : r = .error .debugger
  · refine ⟨.ok (), s1, d, fun i o => ?_⟩
    unfold Cli.ignoring
    rw [h, hr]
  · refine ⟨r, s1, d, fun i o => ?_⟩
    unfold Cli.ignoring
    rw [h]
    split
    · rename_i h1
      exact absurd (congrArg Prod.fst h1) hr
    · rfl

/-- Going through a handler. -/
local macro "blind" : tactic => `(tactic| repeat' (with_reducible first
  | assumption
  | exact Blind.pure | exact Blind.throw | exact Blind.error | exact Blind.ofExcept
  | exact Blind.put | exact Blind.call | exact Blind.evaluate _ _ _
  | refine Blind.get ?_ fun _ => ?_ | refine Blind.out ?_ | refine Blind.running ?_
  | refine Blind.bind ?_ fun _ => ?_
  | (with_unfolding_all exact fun _ _ _ => rfl)
  | split))

theorem blind_printVariable (e : Env) (n : Str) : Blind (printVariable e n) := by unfold printVariable; blind
theorem blind_printVariables (e : Env) : ∀ l, Blind (printVariables e l)
  | [] => Blind.pure
  | v :: l => Blind.bind (Blind.ignoring (blind_printVariable e v)) fun _ => blind_printVariables e l
theorem blind_printFunction (e : Env) (a : Word) (b : Bool) : Blind (printFunction e a b) := by
  have := blind_printVariables e
  unfold printFunction
  blind
  all_goals exact this _
theorem blind_printText (a : Word) (l : List Str) : Blind (printText a l) := by unfold printText; blind
theorem blind_prettyText (e : Env) (a : Word) : Blind (prettyText e a) := by
  unfold prettyText
  have h1 := blind_printFunction e a false
  have h2 := blind_printText
  blind
  all_goals exact h2 _ _
theorem blind_printCode (a b : Nat) : Blind (printCode a b) := by unfold printCode; blind
theorem blind_prettyCode (e : Env) (l : Nat) : Blind (prettyCode e l) := by
  unfold prettyCode
  exact Blind.bind (Blind.call) fun _ => Blind.bind (blind_printFunction e _ _) fun _ => blind_printCode _ _
theorem blind_report (ev : Event) : Blind (report ev) := by unfold report; blind
theorem blind_showPlace (e : Env) : Blind (showPlace e) := by
  unfold showPlace
  have h1 := blind_prettyCode e
  have h2 := blind_prettyText e
  blind
  all_goals first | exact h1 _ | exact h2 _
theorem blind_showLine (e : Env) : Blind (showLine e) := by
  unfold showLine
  have h1 := blind_prettyCode e
  blind
  all_goals exact h1 _
theorem blind_reportBreak (e : Env) (ev : Event) : Blind (reportBreak e ev) := by
  unfold reportBreak
  have h1 := blind_showPlace e
  blind
theorem blind_printLine (w : String) (a : Word) (er : Err) : Blind (printLine w a er) := by unfold printLine; blind
theorem blind_address (l : List Str) (i : Nat) : Blind (address l i) := by unfold address; blind
theorem blind_onPlace (l : List Str) (op : Host → Word → Native.N Unit) (w : String) (er : Err) : Blind (onPlace l op w er) := by
  unfold onPlace place
  have h1 := blind_printLine w
  blind
  all_goals exact h1 _ _
theorem blind_onAddress (l : List Str) (op : Host → Word → Native.N Unit) (w : String) : Blind (onAddress l op w) := by
  unfold onAddress
  have h1 := blind_address l 1
  blind
theorem blind_breakpoint (c : Str) : Blind (handleBreakpoint c) := by
  unfold handleBreakpoint needProcess onBreakpoint breakAt listBreakpoints
  have h1 := blind_address
  have h2 := blind_onPlace
  have h3 := blind_onAddress
  blind
  all_goals first | exact h1 _ _ | exact h2 _ _ _ _ | exact h3 _ _ _
theorem blind_watchpoint (c : Str) : Blind (handleWatchpoint c) := by
  unfold handleWatchpoint onWatchpoint listWatchpoints
  have h1 := blind_address
  blind
  all_goals first | exact h1 _ _
theorem blind_afterStep (ev : Event) {x : C Unit} (hx : Blind x) : Blind (afterStep ev x) := by
  unfold afterStep reportStop
  have h1 := blind_report ev
  blind
theorem blind_sourceStep (e : Env) (b : Bool) : Blind (sourceStep e b) := by
  unfold sourceStep
  exact Blind.get (fun _ _ _ => rfl) fun _ => Blind.bind (Blind.call) fun _ => blind_afterStep _ (blind_showLine e)
theorem blind_nativeStep (e : Env) (b : Bool) : Blind (nativeStep e b) := by
  unfold nativeStep
  exact Blind.bind (Blind.call) fun _ => blind_afterStep _ (Blind.bind (Blind.call) fun _ => blind_prettyText e _)
theorem blind_finish (e : Env) : Blind (finish e) := by
  unfold finish
  exact Blind.bind (Blind.call) fun _ => blind_afterStep _ (blind_showPlace e)
theorem blind_stepping (c : Str) (u : Usage) {x : C Unit} (hx : Blind x) : Blind (stepping c u x) := by
  unfold stepping needProcess needRunning
  blind
theorem blind_disassemble (e : Env) (c : Str) : Blind (handleDisassemble e c) := by
  unfold handleDisassemble needProcess onDisassemble disassembleRange disassembleFrom disassembleFunction amountText
  have h1 := blind_address
  have h2 := blind_printText
  have h3 := blind_prettyText e
  blind
  all_goals first | exact h1 _ _ | exact h2 _ _ | exact h3 _
theorem blind_source (c : Str) : Blind (handleSource c) := by
  unfold handleSource needProcess onSource sourceHere sourceFrom amountFrom
  have h1 := blind_address
  have h2 := blind_printCode
  blind
  all_goals first | exact h1 _ _ | exact h2 _ _
theorem blind_register (c : Str) : Blind (handleRegister c) := by
  unfold handleRegister needProcess onRegister listRegisters setRegister setFloat
  blind
theorem blind_memory (c : Str) : Blind (handleMemory c) := by
  unfold handleMemory needProcess onMemory setCells setString getCells
  blind
theorem blind_frame (e : Env) : Blind (handleFrame e) := by
  unfold handleFrame needProcess needRunning
  have h1 := blind_printFunction e
  blind
  all_goals exact h1 _ _
theorem blind_continue (e : Env) : Blind (handleContinue e) := by
  unfold handleContinue needProcess needRunning markEnd
  have h1 := blind_report
  have h2 := blind_reportBreak e
  blind
  all_goals first | exact h1 _ | exact h2 _
theorem blind_expression (e : Env) (c : Str) : Blind (handleExpression e c) := by
  unfold handleExpression needProcess
  blind
theorem blind_perform (e : Env) (k : Option Command) (c : Str) (hk : k = some .assemble → Blind (handleAssemble c)) : Blind (perform e k c) := by
  unfold perform
  split
  · exact blind_breakpoint c
  · exact blind_stepping c _ (blind_nativeStep e _)
  · exact blind_stepping c _ (blind_nativeStep e _)
  · exact blind_disassemble e c
  · exact hk rfl
  · exact blind_continue e
  · exact blind_register c
  · exact blind_memory c
  · exact blind_watchpoint c
  · exact blind_stepping c _ (blind_sourceStep e _)
  · exact blind_stepping c _ (blind_sourceStep e _)
  · exact blind_stepping c _ (blind_finish e)
  · exact blind_frame e
  · exact blind_source c
  · exact blind_expression e c
  · exact Blind.put
theorem blind_exit : Blind exitProcess := by unfold exitProcess; blind
theorem blind_run (e : Env) (c : Str) : Blind (handleRun e c) := by
  have h : ∀ a b d src u, Blind (attachNew e a b d src u) := by
    intro a b d src u
    unfold attachNew
    refine Blind.get (fun _ _ _ => rfl) fun s => Blind.bind (Blind.of (r := fun _ => .ok ()) (d := fun _ => []) (g := fun s =>
      { s with host := e.host a b d, client := ⟨a, b, d⟩, process := some (Native.connect (e.host a b d) u.program u.data e.inp), source := src, running := true })
      fun s i o => by rw [List.append_nil]; rfl) fun _ => ?_
    blind
  unfold handleRun launch
  blind
  all_goals exact h _ _ _ _ _
theorem blind_attach (c : Str) : Blind (handleAttach c) := by
  unfold handleAttach
  blind
theorem blind_handle (e : Env) (line : Str) (hk : dispatch (firstWord line).1 = some .assemble → Blind (handleAssemble (firstWord line).2)) :
    Blind (handle e line) := by
  unfold handle
  dsimp only
  split
  · exact Blind.bind (blind_exit) fun _ => blind_run e _
  · exact Blind.bind (blind_exit) fun _ => blind_attach _
  · exact Blind.put
  · unfold performIfActive
    have h1 := blind_perform e (dispatch (firstWord line).1) _ hk
    blind
theorem blind_typed (e : Env) (raw : Str) (hk : ¬ Is .assemble raw) : Blind (typed e raw) := by
  by_cases hn : squashStrip raw = []
  · have : typed e raw = Pure.pure () := if_pos hn
    rw [this]
    exact Blind.pure
  · have : typed e raw = fun s => match handle e (squashStrip raw) s with
        | (.error .debugger, s') => Cli.put .error s'
        | r => r := if_neg hn
    rw [this]
    intro s
    obtain ⟨r, s1, d, h⟩ := blind_handle e (squashStrip raw) (fun h => absurd ⟨hn, h⟩ hk) s
    by_cases hr : r = .error .debugger
    · refine ⟨.ok (), s1, d ++ [.error], fun i o => ?_⟩
      dsimp only
      rw [h, hr]
      show ((.ok (), { re s1 i (o ++ d) with out := o ++ d ++ [.error] }) : Except Err Unit × Cli) = _
      rw [List.append_assoc]
    · refine ⟨r, s1, d, fun i o => ?_⟩
      dsimp only
      rw [h]
      split
      · rename_i h1
        exact absurd (congrArg Prod.fst h1) hr
      · rfl

theorem exit_out (s : Cli) : (exitProcess s).2.out = s.out := by
  show ((if s.process.isSome then call fun h _ => Native.terminate h else Pure.pure () : C Unit) s).2.out = _
  split
  · unfold Cli.call
    cases s.process <;> rfl
  · rfl

end Cli
end T86
