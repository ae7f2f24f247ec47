import Verif.Lemmas.Cli

/-! What every command keeps, whatever its outcome. -/

namespace T86
open Dbg Str
namespace Cli
open Job
variable {α β : Type}

/-- Output is only added, a program that has finished does not run again, and it stays the same machine. -/
structure Later (s s' : Cli) : Prop where
  out : s.out <+: s'.out
  running : s.running = false → s'.running = false
  host : s'.host = s.host
  client : s'.client = s.client
  process : s'.process.isSome = s.process.isSome

theorem Later.refl (s : Cli) : Later s s := ⟨List.prefix_refl _, id, rfl, rfl, rfl⟩

theorem Later.trans {s t u : Cli} (h1 : Later s t) (h2 : Later t u) : Later s u :=
  ⟨h1.out.trans h2.out, fun h => h2.running (h1.running h), h2.host.trans h1.host, h2.client.trans h1.client, h2.process.trans h1.process⟩

/-- `x` leads to a later state. -/
def Mild (x : C α) : Prop := ∀ s, Later s (x s).2

theorem Mild.bind {x : C α} {f : α → C β} (hx : Mild x) (hf : ∀ a, Mild (f a)) : Mild (x >>= f) := by
  intro s
  change Later s (Job.bind x f s).2
  unfold Job.bind
  have := hx s
  cases hq : x s with
  | mk r t =>
    rw [hq] at this
    cases r with
    | ok a => exact this.trans (hf a t)
    | error e => exact this

theorem Mild.pure {a : α} : Mild (Pure.pure a : C α) := fun s => .refl s
theorem Mild.throw {e : Err} : Mild (Job.throw e : C α) := fun s => .refl s
theorem Mild.error : Mild (error : C α) := fun s => .refl s
theorem Mild.get : Mild (Job.get : C Cli) := fun s => .refl s
theorem Mild.except {x : Except Err α} : Mild (Job.ofExcept x : C α) := fun s => .refl s
theorem Mild.out {f : Cli → List Out} : Mild (Job.modify fun s => { s with out := s.out ++ f s }) :=
  fun _ => ⟨List.prefix_append _ _, id, rfl, rfl, rfl⟩
theorem Mild.put {o : Out} : Mild (put o) := fun _ => ⟨List.prefix_append _ _, id, rfl, rfl, rfl⟩
theorem Mild.stop : Mild (Job.modify fun s => { s with running := false }) := fun _ => ⟨List.prefix_refl _, fun _ => rfl, rfl, rfl, rfl⟩

theorem Mild.call {x : Host → Client → Native.N α} : Mild (call x) := by
  intro s
  unfold Cli.call
  cases h : s.process with
  | none => exact .refl s
  | some n => exact ⟨List.prefix_refl _, id, rfl, rfl, by rw [h]; rfl⟩

theorem Mild.evaluate {e : Env} {t : Str} {b : Bool} : Mild (evaluate e t b) := by
  intro s
  unfold Cli.evaluate
  cases h : s.process with
  | none => exact .refl s
  | some n =>
    dsimp only
    split
    · exact ⟨List.prefix_refl _, id, rfl, rfl, by rw [h]; rfl⟩
    · exact ⟨List.prefix_refl _, id, rfl, rfl, by rw [h]; rfl⟩

theorem Mild.ignoring {x : C Unit} (hx : Mild x) : Mild (ignoring x) := by
  intro s
  have := hx s
  unfold Cli.ignoring
  split
  · rename_i hq
    rw [hq] at this
    exact this
  · exact this

theorem Mild.block : Mild block := fun _ => ⟨List.prefix_refl _, id, rfl, rfl, rfl⟩

/-- Taking a command apart. -/
macro "mild" : tactic => `(tactic| repeat' first
  | exact Mild.pure | exact Mild.throw | exact Mild.error | exact Mild.get | exact Mild.except | exact Mild.put | exact Mild.out | exact Mild.stop
  | exact Mild.call | exact Mild.evaluate | exact Mild.block
  | assumption
  | refine Mild.bind ?_ fun _ => ?_
  | dsimp only
  | split)

theorem mild_needProcess : Mild needProcess := by unfold needProcess; mild
theorem mild_needRunning : Mild needRunning := by unfold needRunning; mild
theorem mild_address {l : List Str} {i : Nat} : Mild (address l i) := by unfold address; mild
theorem mild_printText {a : Word} {l : List Str} : Mild (printText a l) := by unfold printText; mild
theorem mild_printCode {a d : Nat} : Mild (printCode a d) := by unfold printCode; mild

theorem mild_printVariables (e : Env) : ∀ (l : List Str), Mild (printVariables e l)
  | [] => Mild.pure
  | v :: l => by
    have : Mild (printVariable e v) := by unfold printVariable; mild
    exact (Mild.ignoring this).bind fun _ => mild_printVariables e l

theorem mild_printFunction (e : Env) (a : Word) (b : Bool) : Mild (printFunction e a b) := by
  have := fun l => mild_printVariables e l
  unfold printFunction
  mild
  apply this

theorem mild_prettyCode (e : Env) (l : Nat) : Mild (prettyCode e l) :=
  Mild.call.bind fun ip => (mild_printFunction e ip _).bind fun _ => mild_printCode

theorem mild_prettyText (e : Env) (a : Word) : Mild (prettyText e a) := by
  unfold prettyText
  refine Mild.call.bind fun size => ?_
  split
  · exact Mild.pure
  · exact Mild.call.bind fun l => (mild_printFunction e a _).bind fun _ => mild_printText

theorem mild_showPlace (e : Env) : Mild (showPlace e) := by
  unfold showPlace
  refine Mild.call.bind fun ip => Mild.get.bind fun s => ?_
  split
  · exact mild_prettyCode e _
  · exact mild_prettyText e _

theorem mild_report (ev : Event) : Mild (report ev) := by unfold report; mild

theorem mild_afterStep (ev : Event) {x : C Unit} (hx : Mild x) : Mild (afterStep ev x) := by
  have := mild_report ev
  unfold afterStep reportStop; mild

theorem mild_stepping (l : Str) (u : Usage) {x : C Unit} (hx : Mild x) : Mild (stepping l u x) := by
  have h1 := mild_needProcess
  have h2 := mild_needRunning
  unfold stepping; mild

theorem mild_sourceStep (e : Env) (b : Bool) : Mild (sourceStep e b) := by
  unfold sourceStep
  refine Mild.get.bind fun s => Mild.call.bind fun ev => mild_afterStep ev ?_
  unfold showLine
  refine Mild.call.bind fun ip => Mild.get.bind fun s => ?_
  split
  · exact mild_prettyCode e _
  · exact Mild.pure

theorem mild_nativeStep (e : Env) (b : Bool) : Mild (nativeStep e b) :=
  Mild.call.bind fun ev => mild_afterStep ev (Mild.call.bind fun ip => mild_prettyText e ip)

theorem mild_finish (e : Env) : Mild (finish e) := Mild.call.bind fun ev => mild_afterStep ev (mild_showPlace e)

theorem mild_breakpoint (l : Str) : Mild (handleBreakpoint l) := by
  unfold handleBreakpoint onBreakpoint breakAt onPlace onAddress place printLine
  mild

theorem mild_watchpoint (l : Str) : Mild (handleWatchpoint l) := by
  unfold handleWatchpoint onWatchpoint listWatchpoints
  mild

theorem mild_disassemble (e : Env) (l : Str) : Mild (handleDisassemble e l) := by
  have h0 := mild_needProcess
  unfold handleDisassemble onDisassemble disassembleRange disassembleFrom disassembleFunction amountText
  mild

theorem mild_source (l : Str) : Mild (handleSource l) := by
  have h0 := mild_needProcess
  unfold handleSource onSource sourceHere sourceFrom amountFrom
  mild

theorem mild_assemble (l : Str) : Mild (handleAssemble l) := by
  have h0 := mild_needProcess
  unfold handleAssemble onAssemble assembleAt
  mild

theorem mild_register (l : Str) : Mild (handleRegister l) := by
  have h0 := mild_needProcess
  unfold handleRegister onRegister listRegisters setRegister setFloat
  mild

theorem mild_memory (l : Str) : Mild (handleMemory l) := by
  have h0 := mild_needProcess
  unfold handleMemory onMemory setCells setString getCells
  mild

theorem mild_frame (e : Env) : Mild (handleFrame e) :=
  mild_needProcess.bind fun _ => mild_needRunning.bind fun _ => Mild.call.bind fun ip => mild_printFunction e ip _

theorem mild_continue (e : Env) : Mild (handleContinue e) := by
  refine mild_needProcess.bind fun _ => mild_needRunning.bind fun _ => Mild.call.bind fun ev => Mild.bind ?_ fun _ =>
    (mild_report ev).bind fun _ => ?_
  · unfold markEnd; mild
  · have := mild_showPlace e
    unfold reportBreak; mild

theorem mild_expression (e : Env) (l : Str) : Mild (handleExpression e l) := by
  have h0 := mild_needProcess
  unfold handleExpression
  mild

theorem mild_perform (e : Env) (k : Option Command) (l : Str) : Mild (perform e k l) := by
  unfold perform
  split
  · exact mild_breakpoint l
  · exact mild_stepping l _ (mild_nativeStep e _)
  · exact mild_stepping l _ (mild_nativeStep e _)
  · exact mild_disassemble e l
  · exact mild_assemble l
  · exact mild_continue e
  · exact mild_register l
  · exact mild_memory l
  · exact mild_watchpoint l
  · exact mild_stepping l _ (mild_sourceStep e _)
  · exact mild_stepping l _ (mild_sourceStep e _)
  · exact mild_stepping l _ (mild_finish e)
  · exact mild_frame e
  · exact mild_source l
  · exact mild_expression e l
  · exact Mild.put

theorem mild_handle (e : Env) {l : Str} (h1 : dispatch (firstWord l).1 ≠ some .run) (h2 : dispatch (firstWord l).1 ≠ some .attach) :
    Mild (handle e l) := by
  unfold handle
  dsimp only
  split
  · contradiction
  · contradiction
  · exact Mild.put
  · have := mild_perform e
    unfold performIfActive
    mild
    apply this

theorem mild_typed (e : Env) {raw : Str} (h1 : ¬ Is .run raw) (h2 : ¬ Is .attach raw) : Mild (typed e raw) := by
  intro s
  by_cases hn : squashStrip raw = []
  · rw [typed_nil e hn]
    exact .refl s
  · rw [typed_eq e hn]
    have := mild_handle e (fun h => h1 ⟨hn, h⟩) (fun h => h2 ⟨hn, h⟩) s
    unfold caught
    split
    · rename_i hq
      rw [hq] at this
      exact this.trans (Mild.put _)
    · exact this

end Cli
end T86
