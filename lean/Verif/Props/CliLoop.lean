import Verif.Lemmas.CliLoop
import Verif.Lemmas.CliBlind
import Verif.Props.CliStart
import Mathlib.Data.List.TakeWhile

/-! # A session of the debugger (C80)

The specification is `Verif/Spec/CliLoop.lean`. -/

set_option maxRecDepth 100000

namespace T86
open Dbg Str Native
namespace Cli

/-- C80. Nothing that was printed is lost, whatever is typed. -/
theorem C80_output (e : Env) (raw : Str) (s : Cli) : s.out <+: (typed e raw s).2.out :=
  (flow_typed (P := fun _ _ => True) (fun _ => trivial) (fun _ _ => trivial) e raw
    (fun _ s => ⟨(flow_assemble (firstWord (squashStrip raw)).2 s).1, trivial⟩) s).1

/-- C80. No line but `assemble` takes anything of the rest of the input. -/
theorem C80_input (e : Env) {raw : Str} (h : ¬ Is .assemble raw) (s : Cli) : (typed e raw s).2.input = s.input :=
  ((flow_typed (P := Eq) (fun _ => rfl) (fun h1 h2 => h1.trans h2) e raw (fun h' => absurd h' h) s).2).symm

/-- C80. `assemble` takes lines from the beginning of it. -/
theorem C80_block (e : Env) (raw : Str) (s : Cli) : (typed e raw s).2.input <:+ s.input :=
  (flow_typed (P := Rest) List.suffix_refl (fun h1 h2 => h2.trans h1) e raw (fun _ => flow_assemble _) s).2

/-- C80. Blank lines do nothing. -/
theorem C80_blank (e : Env) {raw : Str} (h : ∀ c ∈ raw, isSpace c = true) (s : Cli) : typed e raw s = (.ok (), s) := by
  have : squashStrip raw = [] := by
    unfold squashStrip
    rw [List.dropWhile_eq_nil_iff.2 (fun c hc => h c (List.mem_reverse.1 hc))]
    rfl
  have h1 : typed e raw = Pure.pure () := if_pos this
  rw [h1]
  rfl

/-- C80. An error of the debugger itself does not end it: the next line is carried out. -/
theorem C80_error (e : Env) (raw : Str) (s : Cli) : (typed e raw s).1 ≠ .error .debugger := by
  by_cases hn : squashStrip raw = []
  · have h1 : typed e raw = Pure.pure () := if_pos hn
    rw [h1]
    exact fun h => by cases h
  · have : typed e raw = fun s => match handle e (squashStrip raw) s with
        | (.error .debugger, s') => Cli.put .error s'
        | r => r := if_neg hn
    rw [this]
    dsimp only
    split
    · exact fun h => by cases h
    · rename_i h1
      intro h
      exact h1 _ (Prod.ext h rfl)

theorem Carried.unique {e : Env} {s : Cli} {r r' : Except Err Unit} {t t' : Cli} (h : Carried e s r t) (h' : Carried e s r' t') :
    r = r' ∧ t = t' := by
  induction h with
  | finished h1 h2 =>
    cases h' with
    | finished _ h3 => rw [h2] at h3; cases h3; exact ⟨rfl, rfl⟩
    | line h3 => rw [h1] at h3; cases h3
    | died h3 => rw [h1] at h3; cases h3
  | line h1 h2 _ ih =>
    cases h' with
    | finished h3 => rw [h1] at h3; cases h3
    | line h3 h4 h5 =>
      rw [h1] at h3; cases h3
      rw [h2] at h4; cases h4
      exact ih h5
    | died h3 h4 =>
      rw [h1] at h3; cases h3
      rw [h2] at h4; cases h4
  | died h1 h2 =>
    cases h' with
    | finished h3 => rw [h1] at h3; cases h3
    | line h3 h4 =>
      rw [h1] at h3; cases h3
      rw [h2] at h4; cases h4
    | died h3 h4 =>
      rw [h1] at h3; cases h3
      rw [h2] at h4; cases h4
      exact ⟨rfl, rfl⟩

theorem runLoop_carried (e : Env) : ∀ (fuel : Nat) (s : Cli), s.input.length ≤ fuel → Carried e s (runLoop e fuel s).1 (runLoop e fuel s).2
  | 0, s, h => .finished (List.length_eq_zero_iff.1 (by omega)) rfl
  | fuel + 1, s, h => by
    have hu : ∀ x, s.input = x → runLoop e (fuel + 1) s = (match x with
        | [] => exitProcess
        | raw :: rest => do
            Job.modify fun s => { s with input := rest }
            typed e raw
            runLoop e fuel : C Unit) s := by
      rintro x rfl
      exact Job.bind_eq (x := Job.get) (a := s) (t := s) rfl
    cases hi : s.input with
    | nil =>
      rw [hu _ hi]
      exact .finished hi rfl
    | cons raw rest =>
      rw [hu _ hi]
      dsimp only
      have hb := C80_block e raw { s with input := rest }
      have hlen : rest.length ≤ fuel := by rw [hi] at h; simpa using h
      have hm : ∀ x : C Unit, (do
            Job.modify fun s => { s with input := rest }
            x : C Unit) s = x { s with input := rest } := fun x =>
        Job.bind_eq (x := Job.modify fun s : Cli => { s with input := rest }) (a := ()) (t := { s with input := rest }) rfl
      rw [hm]
      rcases ht : typed e raw { s with input := rest } with ⟨er | u, s1⟩
      · rw [Job.bind_error ht]
        exact .died hi ht
      · rw [Job.bind_eq ht]
        rw [ht] at hb
        exact .line hi ht (runLoop_carried e fuel s1 (le_trans hb.length_le hlen))

/-- C80. A session is what becomes of the lines of its input. -/
theorem C80_session (e : Env) (input : List Str) (r : Except Err Unit) (out : List Out) :
    session e input = (r, out) ↔ ∃ s', Carried e (begun e input) r s' ∧ s'.out = out := by
  have h := runLoop_carried e input.length (begun e input) (le_refl _)
  constructor
  · intro hs
    cases hs
    exact ⟨_, h, rfl⟩
  · rintro ⟨s', h1, rfl⟩
    obtain ⟨rfl, rfl⟩ := Carried.unique h1 h
    rfl

/-- C80. At the end of the input the program is ended if there is one; nothing more is printed. -/
theorem C80_end {s : Cli} (hl : ∀ n, s.process = some n → n.link.Live) :
    ∃ s', exitProcess s = (.ok (), s') ∧ s'.out = s.out ∧ (s.process = none → s' = s) ∧
      ∀ n, s.process = some n → ∃ n', s'.process = some n' ∧ n'.link.vm.phase = .ended true := by
  unfold exitProcess
  rw [Job.bind_eq (x := Job.get) (a := s) (t := s) rfl]
  cases hp : s.process with
  | none => exact ⟨s, rfl, rfl, fun _ => rfl, fun _ h => by cases h⟩
  | some n =>
    have hl := hl n hp
    obtain ⟨why, hw⟩ := hl.stopped
    have hq : Native.terminate s.host n = (.ok (), { n with link := { n.link with vm := Vm.leave why n.link.vm.cpu .quit } }) := by
      unfold Native.terminate proc Proc.terminate
      rw [Link.check_eq' (Link.ask_eq (h := s.host) hl.1 hl.2 hl.3 hw (Proto.parse_terminate _) rfl)]
    refine ⟨_, call_eq (x := fun h _ => Native.terminate h) hp hq, rfl, (fun h => by cases h), fun _ h => ?_⟩
    exact ⟨_, rfl, rfl⟩

theorem Carried.out {e : Env} {s s' : Cli} {r : Except Err Unit} (h : Carried e s r s') : s.out <+: s'.out := by
  induction h with
  | @finished s _ _ _ h2 =>
    have := (flow_exit (P := fun _ _ => True) (fun _ => trivial) (fun _ _ => trivial) s).1
    rw [h2] at this
    exact this
  | @line s _ _ raw rest _ _ h2 _ ih =>
    have := C80_output e raw { s with input := rest }
    rw [h2] at this
    exact this.trans ih
  | @died s _ raw rest _ _ h2 =>
    have := C80_output e raw { s with input := rest }
    rw [h2] at this
    exact this

/-- C80. But for `assemble`, what a line does and prints depends neither on the lines after it nor on what has been printed before it:
for any such, the outcome, the rest of the new state and what is added to the output are the same. -/
theorem C80_independent (e : Env) {raw : Str} (h : ¬ Is .assemble raw) (s : Cli) : ∃ (r : Except Err Unit) (s' : Cli) (printed : List Out),
    ∀ (input : List Str) (out : List Out),
      typed e raw { s with input := input, out := out } = (r, { s' with input := input, out := out ++ printed }) :=
  blind_typed e raw h s

theorem carried_prefix (e : Env) (b : List Str) : ∀ (a : List Str), (∀ raw ∈ a, ¬ Is .assemble raw) → ∀ (s s' t : Cli) (o : List Out)
    (r r' : Except Err Unit), Carried e (s.re a o) r s' → Carried e (s.re (a ++ b) o) r' t → s'.out <+: t.out
  | [], _, s, s', t, o, r, r', h1, h2 => by
    have h : s'.out = o := by
      cases h1 with
      | finished _ he =>
        have := exit_out (s.re [] o)
        rw [he] at this
        exact this
      | line h => cases h
      | died h => cases h
    rw [h]
    exact h2.out
  | raw :: a, ha, s, s', t, o, r, r', h1, h2 => by
    obtain ⟨r1, s1, d, hd⟩ := blind_typed e raw (ha raw List.mem_cons_self) s
    cases h1 with
    | finished h => cases h
    | line hn ht hc =>
      cases hn
      rw [show typed e raw { s.re (raw :: a) o with input := a } = typed e raw (s.re a o) from rfl, hd] at ht
      cases ht
      cases h2 with
      | finished h => cases h
      | line hn' ht' hc' =>
        cases hn'
        have ht' := (hd (a ++ b) o).symm.trans ht'
        cases ht'
        exact carried_prefix e b a (fun x hx => ha x (List.mem_cons_of_mem _ hx)) s1 _ _ (o ++ d) _ _ hc hc'
      | died hn' ht' =>
        cases hn'
        have ht' := (hd (a ++ b) o).symm.trans ht'
        cases ht'
    | died hn ht =>
      cases hn
      rw [show typed e raw { s.re (raw :: a) o with input := a } = typed e raw (s.re a o) from rfl, hd] at ht
      cases ht
      cases h2 with
      | finished h => cases h
      | line hn' ht' hc' =>
        cases hn'
        have ht' := (hd (a ++ b) o).symm.trans ht'
        cases ht'
      | died hn' ht' =>
        cases hn'
        have ht' := (hd (a ++ b) o).symm.trans ht'
        cases ht'
        exact List.prefix_refl _

/-- C80. What a session prints is what it prints for the first lines of its input, whatever follows them, and then more. -/
theorem C80_prefix (e : Env) {a : List Str} (ha : ∀ raw ∈ a, ¬ Is .assemble raw) (b : List Str) :
    (session e a).2 <+: (session e (a ++ b)).2 :=
  carried_prefix e b a ha (begun e a) _ _ [] _ _ (runLoop_carried e a.length (begun e a) (le_refl _))
    (runLoop_carried e (a ++ b).length (begun e (a ++ b)) (le_refl _))

/-! ## Examples -/

/-- Non-vacuity of `C80_independent` and `C80_prefix`: none of these lines assembles. -/
example : ∀ raw ∈ ["run --reg-count=3 --data-size=16", "br iset 1", "", "c", "i", "expression 1 + 2"].map String.toList, ¬ Is .assemble raw := by
  intro raw h
  have : ∀ raw ∈ ["run --reg-count=3 --data-size=16", "br iset 1", "", "c", "i", "expression 1 + 2"].map String.toList,
      dispatch (firstWord (squashStrip raw)).1 ≠ some .assemble := by decide +kernel
  exact fun hi => this raw h hi.2

/-- A session with a blank line, two errors, a word that is no command, and a line that is read by `assemble`. -/
example : session exRun (["run --reg-count=3 --data-size=16", "  ", "br iset 99", "i", "nonsense", "assemble interactive 1", "MOV R0, 9", "", "assemble interactive x y", "c"].map
    String.toList) = (.ok (), [.print "Started process".toList, .error, .text none false 0 "MOV R0, 7".toList,
      .text none true 1 "MOV [5], R0".toList, .text none false 2 "HALT".toList, .usage .all, .error,
      .event "The program finished execution".toList]) := by
  decide +kernel

/-- The lines before the end of such a session, one by one. -/
example : Carried exRun (begun exRun ["  ".toList, "frame".toList]) (session exRun ["  ".toList, "frame".toList]).1
    (runLoop exRun 2 (begun exRun ["  ".toList, "frame".toList])).2 := runLoop_carried _ _ _ (by decide)

/-- The program is at a stop at the end. -/
example : ∀ n, (exRuns ["run --reg-count=3 --data-size=16", "br iset 1", "c"]).process = some n → n.link.Live := by
  have h : ∀ p : Option Native, (p.map fun n => (n.link.toVm, n.link.toDbg, n.link.dead, n.link.vm.phase)) = some ([], [], false, .stopped .swBkpt) →
      ∀ n, p = some n → n.link.Live := by
    rintro p h n rfl
    simp only [Option.map_some, Option.some.injEq, Prod.mk.injEq] at h
    exact ⟨h.1, h.2.1, h.2.2.1, ⟨_, h.2.2.2⟩⟩
  exact h _ (by decide +kernel)

end Cli
end T86
