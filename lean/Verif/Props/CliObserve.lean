import Verif.Props.CliStart
import Verif.Props.Observe

/-! # C69 at the command line: lines that only look do not change what the program does

The specification: `Cli.Looks` and `Cli.Watching` (Spec/Observe) say which lines only look. -/

set_option maxRecDepth 100000

namespace T86
namespace Cli
open Isa Dbg Str Native

theorem check_prefix {l : List Str} {o : String} {n : Nat} (h : check l o n = true) : ∃ w, l.head? = some w ∧ w <+: o.toList := by
  unfold check at h
  split at h
  · cases h
  split at h
  · cases h
  · exact ⟨_, rfl, (isPrefixOf_iff _ _).1 h⟩

section
variable {h : Host} {c : Client} {prog : List Instr} {data : List Word} {inp : List (BitVec 8)} {n : Native} {e : Env}

theorem observing_closed (hs : prog.length < 2 ^ 63) (hp : ∀ i ∈ prog, Plain h i) (hset : Setup h.cfg prog data) (hb : ∀ i ∈ prog, i ≠ .bkpt) :
    Closed h c Op.Looks (Observing h c prog data inp) where
  op o _ _ ho hx hr := .call o hx ho hr
  size n w n' hx hr := by
    obtain ⟨rfl, _⟩ := Native.textSize_ok (hx.track hs hp hset hb).fine.good.rest hr
    exact hx

/-- C69. A line that only looks, carried out, is calls that only look. -/
theorem C69_line (hs : prog.length < 2 ^ 63) (hp : ∀ i ∈ prog, Plain h i) (hset : Setup h.cfg prog data) (hb : ∀ i ∈ prog, i ≠ .bkpt)
    {raw : Str} {s s' : Cli} (hl : Looks h.stod raw) (hd : Done e raw s s') (hn : s.process = some n) (hh : s.host = h) (hc : s.client = c)
    (hx : Observing h c prog data inp n) :
    ∃ n', s'.process = some n' ∧ Observing h c prog data inp n' ∧ s'.host = h ∧ s'.client = c :=
  hd.fix hl.run hl.attach ⟨n, hn, hx, hh, hc⟩ fun k hk _ he => fix_perform (observing_closed hs hp hset hb) (fun _ ho => ho) e
    (fun h => hl.assemble ⟨he, hk.trans h⟩) (fun h => hl.frame ⟨he, hk.trans h⟩) _
    (fun h hq => by
      have := hl.register ⟨he, hk.trans h⟩
      rcases hq with hq | hq <;> obtain ⟨w, h1, h2⟩ := check_prefix hq
      · exact absurd h2 (this w h1).1
      · exact absurd h2 (this w h1).2)
    (fun h hq => by
      have := hl.memory ⟨he, hk.trans h⟩
      rcases hq with hq | hq <;> obtain ⟨w, h1, h2⟩ := check_prefix hq
      · exact absurd (h2.trans (by decide)) (this w h1)
      · exact absurd h2 (this w h1))
    (fun h ha => absurd ha (hl.expression ⟨he, hk.trans h⟩))

/-- C69. So are any number of them. -/
theorem C69_lines (hs : prog.length < 2 ^ 63) (hp : ∀ i ∈ prog, Plain h i) (hset : Setup h.cfg prog data) (hb : ∀ i ∈ prog, i ≠ .bkpt)
    {s s' : Cli} (hw : Watching e s s') (hn : s.process = some n) (hh : s.host = h) (hc : s.client = c) (hx : Observing h c prog data inp n) :
    ∃ n', s'.process = some n' ∧ Observing h c prog data inp n' ∧ s'.host = h ∧ s'.client = c := by
  induction hw with
  | refl => exact ⟨n, hn, hx, hh, hc⟩
  | line _ hl hd ih =>
    obtain ⟨n1, h1, h2, h3, h4⟩ := ih
    exact C69_line hs hp hset hb (h3 ▸ hl) hd h1 h3 h4 h2

end

/-- C69. The program is started with `run`, and then lines are typed that only look: whatever they are, and however many, the
debugger shows a state the program gets to by itself. -/
theorem C69_session (e : Env) {s s1 s2 : Cli} {opts : List Str} {text : Str} {u : Asm.Unit'} {i : Info.Infos} {src : Src.Source}
    (hopts : ∀ v ∈ opts, IsWord v) (hfile : e.file = some text) (hu : Asm.assemble e.stod text = .ok u) (hi : Info.read e.stod text = .ok i)
    (hsrc : Src.Source.ofInfos i = .ok src) {r f m : Nat} {h : Host} (hr : r = (option opts "--reg-count=").getD 8)
    (hfl : f = (option opts "--float-reg-count=").getD 4) (hm : m = (option opts "--data-size=").getD 1024) (hh : h = e.host r f m)
    (hl : u.program.length < 2 ^ 63) (hp : ∀ i ∈ u.program, Plain h i) (hset : Setup h.cfg u.program u.data)
    (hb : ∀ i ∈ u.program, i ≠ .bkpt) (hs : s.process = none)
    (h1 : (typed e (line ("run".toList :: opts)) s).2 = s1) (h2 : Watching e s1 s2) :
    ∃ n k st, s2.process = some n ∧ Observing h ⟨r, f, m⟩ u.program u.data e.inp n ∧
      runs h.cfg u.program k (start h.cfg u.data e.inp) st ∧ Native.Shows h n st := by
  have hbs : breakpoints s = [] := by
    unfold breakpoints
    rw [hs]
  have hws : watchpoints s = [] := by
    unfold watchpoints
    rw [hs]
  obtain ⟨n, hn, _, hx, _⟩ := C64_run e hopts hfile hu hi hsrc hr hfl hm hh (texts_print h) hl hp hset (fun n hn => by rw [hs] at hn; cases hn)
    (by rw [hbs]; simp) (by rw [hbs]; exact List.nodup_nil) (by rw [hws]; exact List.nodup_nil) (by rw [hws]; simp)
  rw [hn] at h1
  subst h1
  obtain ⟨n', g1, g2, _, _⟩ := C69_lines hl hp hset hb h2 rfl rfl rfl hx
  obtain ⟨k, st, g3, g4⟩ := C69_states hl hp hset hb g2
  exact ⟨n', k, st, g1, g2, g3, g4⟩

/-- C69. What such a session prints is the beginning of what the program prints without a debugger, and all of it at the end. -/
theorem C69_session_output {e : Env} {n : Native} {r f m : Nat} {text : Str} {u : Asm.Unit'} {mode : Mode} {fo : FloatOps}
    (hfile : e.file = some text) (hu : Asm.assemble e.stod text = .ok u) (hf : Run.Fits ⟨r, f, m⟩ mode fo u.program u.data)
    (hc : (e.host r f m).cfg = (⟨r, f, m⟩ : Run.Options).cfg mode fo) (hl : u.program.length < 2 ^ 63)
    (hp : ∀ i ∈ u.program, Plain (e.host r f m) i) (hb : ∀ i ∈ u.program, i ≠ .bkpt)
    (hx : Observing (e.host r f m) ⟨r, f, m⟩ u.program u.data e.inp n) {k status : Nat} {out : List T86.Out}
    (hr : Run.main e.stod mode fo ⟨r, f, m⟩ e.file e.inp k = .exited status out) :
    n.link.vm.cpu.out <+: out ∧ (n.link.vm.cpu.halted = true → n.link.vm.cpu.out = out) := by
  rw [hfile] at hr
  exact C69_output hu hf hc hl hp hb hx hr

/-! ## An example -/

theorem looks_of {stod : Str → Except Err Word} {raw : Str} {k : Command} (hk : Is k raw) (h1 : k ≠ .run) (h2 : k ≠ .attach) (h3 : k ≠ .assemble)
    (h4 : k ≠ .frame) (h5 : k ≠ .expression)
    (h6 : (k = .memory ∨ k = .register) → ∃ w, (split (firstWord (squashStrip raw)).2 ' ').head? = some w ∧ ¬ w <+: "setstr".toList ∧
      ¬ w <+: "set".toList ∧ ¬ w <+: "fset".toList) : Looks stod raw where
  run h := h1 (Option.some.inj (hk.2.symm.trans h.2))
  attach h := h2 (Option.some.inj (hk.2.symm.trans h.2))
  assemble h := h3 (Option.some.inj (hk.2.symm.trans h.2))
  frame h := h4 (Option.some.inj (hk.2.symm.trans h.2))
  expression h := absurd (Option.some.inj (hk.2.symm.trans h.2)) h5
  memory h w hw := by
    obtain ⟨v, g1, g2, _⟩ := h6 (.inl (Option.some.inj (hk.2.symm.trans h.2)))
    rw [hw] at g1
    exact Option.some.inj g1 ▸ g2
  register h w hw := by
    obtain ⟨v, g1, _, g2⟩ := h6 (.inr (Option.some.inj (hk.2.symm.trans h.2)))
    rw [hw] at g1
    exact Option.some.inj g1 ▸ g2

theorem exRuns_done (l : List String) (x : String) (h1 : (typed exRun x.toList (exRuns l)).1 = .ok ())
    (h2 : Out.error ∉ (typed exRun x.toList (exRuns l)).2.out.drop (exRuns l).out.length) :
    Done exRun x.toList (exRuns l) (exRuns (l ++ [x])) := by
  have : exRuns (l ++ [x]) = (typed exRun x.toList (exRuns l)).2 := by simp [exRuns]
  rw [this]
  exact ⟨Prod.ext h1 rfl, h2⟩

/-- A program started at the command line, a breakpoint set and hit, memory looked at, and the program carried on to its end. -/
example : Watching exRun (exRuns ["run --reg-count=3 --data-size=16"])
    (exRuns ["run --reg-count=3 --data-size=16", "br iset 1", "c", "mem get 0 4", "c"]) := by
  refine .line (.line (.line (.line .refl ?_
    (exRuns_done ["run --reg-count=3 --data-size=16"] "br iset 1" ?_ ?_)) ?_
    (exRuns_done ["run --reg-count=3 --data-size=16", "br iset 1"] "c" ?_ ?_)) ?_
    (exRuns_done ["run --reg-count=3 --data-size=16", "br iset 1", "c"] "mem get 0 4" ?_ ?_)) ?_
    (exRuns_done ["run --reg-count=3 --data-size=16", "br iset 1", "c", "mem get 0 4"] "c" ?_ ?_)
  · exact looks_of (k := .breakpoint) (by unfold Is; decide) (by decide) (by decide) (by decide) (by decide) (by decide) (by simp)
  · decide +kernel
  · decide +kernel
  · exact looks_of (k := .continue') (by unfold Is; decide) (by decide) (by decide) (by decide) (by decide) (by decide) (by simp)
  · decide +kernel
  · decide +kernel
  · exact looks_of (k := .memory) (by unfold Is; decide) (by decide) (by decide) (by decide) (by decide) (by decide) 
      fun _ => ⟨"get".toList, by decide, by decide, by decide, by decide⟩
  · decide +kernel
  · decide +kernel
  · exact looks_of (k := .continue') (by unfold Is; decide) (by decide) (by decide) (by decide) (by decide) (by decide) (by simp)
  · decide +kernel
  · decide +kernel

/-- An expression that is looked at, and one that is not. -/
example : Looks exStod "expr 1 + 2".toList ∧ ¬ Looks exStod "expr a = 2".toList := by
  have hk : Is .expression "expr 1 + 2".toList := by unfold Is; decide
  refine ⟨⟨fun h => ?_, fun h => ?_, fun h => ?_, fun h => ?_, fun h => ?_, fun h => ?_, ?_⟩, fun h => ?_⟩
  · cases hk.2.symm.trans h.2
  · cases hk.2.symm.trans h.2
  · cases hk.2.symm.trans h.2
  · cases hk.2.symm.trans h.2
  · cases hk.2.symm.trans h.2
  · cases hk.2.symm.trans h.2
  · rintro _ ⟨x, hx, ha⟩
    have h2 : Ex.parse exStod (firstWord (squashStrip "expr 1 + 2".toList)).2 = .ok (.bin .add (.int 1) (.int 2)) := by decide +kernel
    rw [h2] at hx
    cases hx
    simp [Ex.Expr.Assigns] at ha
  · exact h.expression (by unfold Is; decide) ⟨.bin .assign (.ident "a".toList) (.int 2), by decide +kernel, .inl rfl⟩

end Cli
end T86
