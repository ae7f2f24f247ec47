import Verif.Spec.CliLoop
import Verif.Lemmas.CliRun

/-! # What the commands do to the output and to the input -/

set_option linter.unusedVariables false
set_option linter.unusedSectionVars false
set_option linter.unusedTactic false
set_option linter.unreachableTactic false

namespace T86
open Dbg Str Native
namespace Cli

/-- Nothing that was printed is lost, and the rest of the input is as `P` says. -/
def Flow (P : List Str → List Str → Prop) {α : Type} (x : C α) : Prop := ∀ s : Cli, s.out <+: (x s).2.out ∧ P s.input (x s).2.input

section
variable {P : List Str → List Str → Prop} (hr : ∀ l, P l l) (ht : ∀ {a b c}, P a b → P b c → P a c)
include hr ht

theorem Flow.bind {α β : Type} {x : C α} {f : α → C β} (hx : Flow P x) (hf : ∀ a, Flow P (f a)) : Flow P (x >>= f) := by
  intro s
  show s.out <+: (Job.bind x f s).2.out ∧ P s.input (Job.bind x f s).2.input
  have h1 := hx s
  unfold Job.bind
  rcases hxs : x s with ⟨_ | a, s1⟩
  · rw [hxs] at h1; exact h1
  · rw [hxs] at h1
    have h2 := hf a s1
    exact ⟨h1.1.trans h2.1, ht h1.2 h2.2⟩

theorem Flow.of {α : Type} {x : C α} (h : ∀ s, s.out <+: (x s).2.out ∧ (x s).2.input = s.input) : Flow P x := fun s => by
  obtain ⟨h1, h2⟩ := h s
  exact ⟨h1, h2 ▸ hr _⟩

theorem Flow.pure {α : Type} {a : α} : Flow P (Pure.pure a : C α) := Flow.of hr ht fun s => ⟨List.prefix_refl _, rfl⟩
theorem Flow.get : Flow P (Job.get : C Cli) := Flow.of hr ht fun s => ⟨List.prefix_refl _, rfl⟩
theorem Flow.throw {α : Type} {er : Err} : Flow P (Job.throw er : C α) := Flow.of hr ht fun s => ⟨List.prefix_refl _, rfl⟩
theorem Flow.error {α : Type} : Flow P (Cli.error : C α) := Flow.throw hr ht
theorem Flow.ofExcept {α : Type} {x : Except Err α} : Flow P (Job.ofExcept x : C α) := Flow.of hr ht fun s => ⟨List.prefix_refl _, rfl⟩
theorem Flow.out {f : Cli → List Out} : Flow P (Job.modify fun s => { s with out := s.out ++ f s }) :=
  Flow.of hr ht fun s => ⟨List.prefix_append _ _, rfl⟩
theorem Flow.put {o : Out} : Flow P (Cli.put o) := Flow.out hr ht (f := fun _ => [o])
theorem Flow.running {f : Cli → Bool} : Flow P (Job.modify fun s => { s with running := f s }) := Flow.of hr ht fun s => ⟨List.prefix_refl _, rfl⟩
theorem Flow.call {α : Type} {x : Host → Client → Native.N α} : Flow P (call x) := Flow.of hr ht fun s => by
  unfold Cli.call
  cases s.process <;> exact ⟨List.prefix_refl _, rfl⟩
theorem Flow.evaluate (e : Env) (t : Str) (b : Bool) : Flow P (evaluate e t b) := Flow.of hr ht fun s => by
  unfold Cli.evaluate
  split
  · exact ⟨List.prefix_refl _, rfl⟩
  · split <;> exact ⟨List.prefix_refl _, rfl⟩
theorem Flow.ignoring {x : C Unit} (hx : Flow P x) : Flow P (ignoring x) := fun s => by
  have h := hx s
  unfold Cli.ignoring
  split
  · rename_i h1; rw [h1] at h; exact h
  · exact h

/-- Going through a handler. -/
local macro "flow" : tactic => `(tactic| repeat' (with_reducible first
  | assumption
  | exact Flow.pure hr ht | exact Flow.get hr ht | exact Flow.throw hr ht | exact Flow.error hr ht | exact Flow.ofExcept hr ht
  | exact Flow.put hr ht | exact Flow.call hr ht | exact Flow.evaluate hr ht _ _ _ | exact Flow.out hr ht | exact Flow.running hr ht
  | refine Flow.bind hr ht ?_ fun _ => ?_
  | split))

theorem flow_printVariable (e : Env) (n : Str) : Flow P (printVariable e n) := by unfold printVariable; flow
theorem flow_printVariables (e : Env) : ∀ l, Flow P (printVariables e l)
  | [] => Flow.pure hr ht
  | v :: l => Flow.bind hr ht (Flow.ignoring hr ht (flow_printVariable hr ht e v)) fun _ => flow_printVariables e l
theorem flow_printFunction (e : Env) (a : Word) (b : Bool) : Flow P (printFunction e a b) := by
  have := flow_printVariables hr ht e
  unfold printFunction
  flow
  all_goals exact this _
theorem flow_printText (a : Word) (l : List Str) : Flow P (printText a l) := by unfold printText; flow
theorem flow_prettyText (e : Env) (a : Word) : Flow P (prettyText e a) := by
  unfold prettyText
  have h1 := flow_printFunction hr ht e a false
  have h2 := flow_printText hr ht
  flow
  all_goals exact h2 _ _
theorem flow_printCode (a b : Nat) : Flow P (printCode a b) := by unfold printCode; flow
theorem flow_prettyCode (e : Env) (l : Nat) : Flow P (prettyCode e l) := by
  unfold prettyCode
  exact Flow.bind hr ht (Flow.call hr ht) fun _ => Flow.bind hr ht (flow_printFunction hr ht e _ _) fun _ => flow_printCode hr ht _ _
theorem flow_report (ev : Event) : Flow P (report ev) := by unfold report; flow
theorem flow_showPlace (e : Env) : Flow P (showPlace e) := by
  unfold showPlace
  have h1 := flow_prettyCode hr ht e
  have h2 := flow_prettyText hr ht e
  flow
  all_goals first | exact h1 _ | exact h2 _
theorem flow_showLine (e : Env) : Flow P (showLine e) := by
  unfold showLine
  have h1 := flow_prettyCode hr ht e
  flow
  all_goals exact h1 _
theorem flow_reportBreak (e : Env) (ev : Event) : Flow P (reportBreak e ev) := by
  unfold reportBreak
  have h1 := flow_showPlace hr ht e
  flow
theorem flow_printLine (w : String) (a : Word) (er : Err) : Flow P (printLine w a er) := by unfold printLine; flow
theorem flow_address (l : List Str) (i : Nat) : Flow P (address l i) := by unfold address; flow
theorem flow_onPlace (l : List Str) (op : Host → Word → Native.N Unit) (w : String) (er : Err) : Flow P (onPlace l op w er) := by
  unfold onPlace place
  have h1 := flow_printLine hr ht w
  flow
  all_goals exact h1 _ _
theorem flow_onAddress (l : List Str) (op : Host → Word → Native.N Unit) (w : String) : Flow P (onAddress l op w) := by
  unfold onAddress
  have h1 := flow_address hr ht l 1
  flow
theorem flow_breakpoint (c : Str) : Flow P (handleBreakpoint c) := by
  unfold handleBreakpoint needProcess onBreakpoint breakAt listBreakpoints
  have h1 := flow_address hr ht
  have h2 := flow_onPlace hr ht
  have h3 := flow_onAddress hr ht
  flow
  all_goals first | exact h1 _ _ | exact h2 _ _ _ _ | exact h3 _ _ _
theorem flow_watchpoint (c : Str) : Flow P (handleWatchpoint c) := by
  unfold handleWatchpoint onWatchpoint listWatchpoints
  have h1 := flow_address hr ht
  flow
  all_goals first | exact h1 _ _
theorem flow_afterStep (ev : Event) {x : C Unit} (hx : Flow P x) : Flow P (afterStep ev x) := by
  unfold afterStep reportStop
  have h1 := flow_report hr ht ev
  flow
theorem flow_sourceStep (e : Env) (b : Bool) : Flow P (sourceStep e b) := by
  unfold sourceStep
  exact Flow.bind hr ht (Flow.get hr ht) fun _ => Flow.bind hr ht (Flow.call hr ht) fun _ => flow_afterStep hr ht _ (flow_showLine hr ht e)
theorem flow_nativeStep (e : Env) (b : Bool) : Flow P (nativeStep e b) := by
  unfold nativeStep
  exact Flow.bind hr ht (Flow.call hr ht) fun _ => flow_afterStep hr ht _ (Flow.bind hr ht (Flow.call hr ht) fun _ => flow_prettyText hr ht e _)
theorem flow_finish (e : Env) : Flow P (finish e) := by
  unfold finish
  exact Flow.bind hr ht (Flow.call hr ht) fun _ => flow_afterStep hr ht _ (flow_showPlace hr ht e)
theorem flow_stepping (c : Str) (u : Usage) {x : C Unit} (hx : Flow P x) : Flow P (stepping c u x) := by
  unfold stepping needProcess needRunning
  flow
theorem flow_disassemble (e : Env) (c : Str) : Flow P (handleDisassemble e c) := by
  unfold handleDisassemble needProcess onDisassemble disassembleRange disassembleFrom disassembleFunction amountText
  have h1 := flow_address hr ht
  have h2 := flow_printText hr ht
  have h3 := flow_prettyText hr ht e
  flow
  all_goals first | exact h1 _ _ | exact h2 _ _ | exact h3 _
theorem flow_source (c : Str) : Flow P (handleSource c) := by
  unfold handleSource needProcess onSource sourceHere sourceFrom amountFrom
  have h1 := flow_address hr ht
  have h2 := flow_printCode hr ht
  flow
  all_goals first | exact h1 _ _ | exact h2 _ _
theorem flow_register (c : Str) : Flow P (handleRegister c) := by
  unfold handleRegister needProcess onRegister listRegisters setRegister setFloat
  flow
theorem flow_memory (c : Str) : Flow P (handleMemory c) := by
  unfold handleMemory needProcess onMemory setCells setString getCells
  flow
theorem flow_frame (e : Env) : Flow P (handleFrame e) := by
  unfold handleFrame needProcess needRunning
  have h1 := flow_printFunction hr ht e
  flow
  all_goals exact h1 _ _
theorem flow_continue (e : Env) : Flow P (handleContinue e) := by
  unfold handleContinue needProcess needRunning markEnd
  have h1 := flow_report hr ht
  have h2 := flow_reportBreak hr ht e
  flow
  all_goals first | exact h1 _ | exact h2 _
theorem flow_expression (e : Env) (c : Str) : Flow P (handleExpression e c) := by
  unfold handleExpression needProcess
  flow
theorem flow_perform (e : Env) (k : Option Command) (c : Str) (hk : k = some .assemble → Flow P (handleAssemble c)) : Flow P (perform e k c) := by
  unfold perform
  split
  · exact flow_breakpoint hr ht c
  · exact flow_stepping hr ht c _ (flow_nativeStep hr ht e _)
  · exact flow_stepping hr ht c _ (flow_nativeStep hr ht e _)
  · exact flow_disassemble hr ht e c
  · exact hk rfl
  · exact flow_continue hr ht e
  · exact flow_register hr ht c
  · exact flow_memory hr ht c
  · exact flow_watchpoint hr ht c
  · exact flow_stepping hr ht c _ (flow_sourceStep hr ht e _)
  · exact flow_stepping hr ht c _ (flow_sourceStep hr ht e _)
  · exact flow_stepping hr ht c _ (flow_finish hr ht e)
  · exact flow_frame hr ht e
  · exact flow_source hr ht c
  · exact flow_expression hr ht e c
  · exact Flow.put hr ht
theorem flow_exit : Flow P exitProcess := by unfold exitProcess; flow
theorem flow_run (e : Env) (c : Str) : Flow P (handleRun e c) := by
  have h : ∀ a b d src u, Flow P (attachNew e a b d src u) := by
    intro a b d src u
    unfold attachNew
    refine Flow.bind hr ht (Flow.get hr ht) fun s => Flow.bind hr ht (Flow.of hr ht fun s => ⟨List.prefix_refl _, rfl⟩) fun _ => ?_
    flow
  unfold handleRun launch
  flow
  all_goals exact h _ _ _ _ _
theorem flow_attach (c : Str) : Flow P (handleAttach c) := by
  unfold handleAttach
  flow
theorem flow_handle (e : Env) (line : Str) (hk : dispatch (firstWord line).1 = some .assemble → Flow P (handleAssemble (firstWord line).2)) :
    Flow P (handle e line) := by
  unfold handle
  dsimp only
  split
  · exact Flow.bind hr ht (flow_exit hr ht) fun _ => flow_run hr ht e _
  · exact Flow.bind hr ht (flow_exit hr ht) fun _ => flow_attach hr ht _
  · exact Flow.put hr ht
  · unfold performIfActive
    have h1 := flow_perform hr ht e (dispatch (firstWord line).1) _ hk
    flow
theorem flow_typed (e : Env) (raw : Str) (hk : Is .assemble raw → Flow P (handleAssemble (firstWord (squashStrip raw)).2)) : Flow P (typed e raw) := by
  by_cases hn : squashStrip raw = []
  · have : typed e raw = Pure.pure () := if_pos hn
    rw [this]
    exact Flow.pure hr ht
  · have : typed e raw = fun s => match handle e (squashStrip raw) s with
        | (.error .debugger, s') => Cli.put .error s'
        | r => r := if_neg hn
    rw [this]
    intro s
    have h := flow_handle hr ht e (squashStrip raw) (fun h => hk ⟨hn, h⟩) s
    dsimp only
    split
    · rename_i h1
      rw [h1] at h
      have h2 := Flow.put hr ht (o := .error) (P := P)
      exact ⟨h.1.trans (h2 _).1, ht h.2 (h2 _).2⟩
    · exact h

end

/-- The second list is what is left of the first after some of its elements. -/
def Rest (a b : List Str) : Prop := b <:+ a

theorem readBlock_suffix : ∀ l, (readBlock l).2 <:+ l
  | [] => List.suffix_refl _
  | x :: l => by
    have h := readBlock_suffix l
    unfold readBlock
    split
    · exact List.suffix_cons _ _
    · split
      · rename_i h1; rw [h1] at h; exact h.trans (List.suffix_cons _ _)
      · rename_i h1; rw [h1] at h; exact h.trans (List.suffix_cons _ _)

theorem flow_assemble (c : Str) : Flow Rest (handleAssemble c) := by
  have hr : ∀ l, Rest l l := List.suffix_refl
  have ht : ∀ {a b c}, Rest a b → Rest b c → Rest a c := fun h1 h2 => h2.trans h1
  have hb : Flow Rest block := fun s => ⟨List.prefix_refl _, readBlock_suffix _⟩
  unfold handleAssemble needProcess onAssemble assembleAt
  repeat' (with_reducible first
    | assumption
    | exact Flow.pure hr ht | exact Flow.get hr ht | exact Flow.throw hr ht | exact Flow.error hr ht | exact Flow.ofExcept hr ht
    | exact Flow.put hr ht | exact Flow.call hr ht
    | refine Flow.bind hr ht ?_ fun _ => ?_
    | split)

end Cli
end T86
