import Verif.Lemmas.ReturnOut
import Verif.Props.SourceDbg
import Verif.Props.ReturnOver

/-! # Stepping by lines and out of functions comes back (C73)

The converse of C52 and C53: these say where stepping leads if it comes back. -/

set_option linter.unusedSimpArgs false
set_option linter.unusedVariables false
set_option maxRecDepth 100000

namespace T86
open Dbg Str Native Isa

section
variable {h : Host} {c : Client} {prog P : List Instr} {data : List Word} {inp : List (BitVec 8)} {n : Native}

/-- C73. Stepping into a line comes back when the program comes to a line: let the current instruction be executed, and then `k` more up to the
first at which a line begins, and let no breakpoint, BKPT, watched write or end be met on the way. -/
theorem C73_line_in {Tx : Str → Instr → Prop} (ht : Texts h Tx) (hs : prog.length < 2 ^ 63) (hp : ∀ i ∈ prog, Plain h i) (hset : Setup h.cfg prog data)
    (hx : Careful h c Tx prog data inp P n) (hl : n.link.Live) (ha : Able h c) {src : Src.Source} {t : List (Nat × Nat)}
    (hlines : src.lines = some (.ofEntries t)) :
    ∃ s, Native.Shows h n s ∧ ∀ (t1 s' : State) (k fuel : Nat), Clear h.cfg P n.link.vm.cpu.dbg (fun _ => False) 1 s t1 →
      Clear h.cfg P n.link.vm.cpu.dbg (fun x => armed n x.pc = true ∨ ∃ l, entryOf t l = some x.pc.toNat) k t1 s' →
      (∃ l, entryOf t l = some s'.pc.toNat) → s'.halted = false → k + 1 ≤ fuel → 24 ≤ h.wait →
      Native.Returns (UbPossible h.cfg P) (Src.stepIn h c src fuel n) fun e n' =>
        e = .singlestep ∧ Native.Shows h n' s' ∧ (∀ a, armed n' a = armed n a) ∧ n'.wps = n.wps := by
  obtain ⟨hf, d, hv⟩ := careful_view ht hs hp hset hx
  obtain ⟨_, ⟨why, hph⟩, hd, _⟩ := getIP_view hv (getIP_total hv hl)
  refine ⟨d.state, hv.shows hph hd, ?_⟩
  rw [dbg_view hv hph]
  intro t1 s' k fuel h1 h2 hat hrun hm hw
  have hb := begins_iff hlines
  have hb' : ∀ a, src.Begins a = ∃ l, entryOf t l = some a.toNat := fun a => congrFun hb a
  rcases lineIn_total (src := src) ha ht hf hv hph hl h1 (by simpa only [hb'] using h2) (by rw [hb']; exact hat) hrun hm hw with ⟨e, n', g1, g2, g3⟩ | g
  · obtain ⟨d', c1, rfl, ⟨w, c3⟩, _⟩ := g3.view
    exact .inl ⟨e, n', g1, g2, c1.shows c3 g3.dead, g3.armed, g3.wps⟩
  · exact .inr g

/-- C73. Stepping over a line comes back when the program comes to a line by passing over `m` instructions, with their callees if they are calls,
each of which returns after at most `k` instructions, and no breakpoint, BKPT, watched write or end is met on the way. -/
theorem C73_line_over (hs : prog.length < 2 ^ 63) (hp : ∀ i ∈ prog, Plain h i) (hset : Setup h.cfg prog data)
    (hx : Careful h c (fun s i => s = i.print h.ftos ∧ Plain h i) prog data inp P n) (hl : n.link.Live) (ha : Able h c)
    {src : Src.Source} {t : List (Nat × Nat)} (hlines : src.lines = some (.ofEntries t))
    (hall : ∀ a bp, n.bps.find a = some bp → bp.enabled = true) :
    ∃ s, Native.Shows h n s ∧ ∀ (s' : State) (k m fuel : Nat),
      LineIn h.cfg P n.link.vm.cpu.dbg (fun a => armed n a = true) (fun a => ∃ l, entryOf t l = some a.toNat) k m s s' →
      k + 1 ≤ fuel → m ≤ fuel → 24 * (k + 2) ≤ h.wait →
      Native.Returns (UbPossible h.cfg P) (Src.stepOver h c src fuel n) fun e n' =>
        e = .singlestep ∧ Native.Shows h n' s' ∧ (∀ a, armed n' a = armed n a) ∧ n'.wps = n.wps := by
  obtain ⟨hf, d, hv⟩ := careful_view (texts_print h) hs hp hset hx
  obtain ⟨_, ⟨why, hph⟩, hd, _⟩ := getIP_view hv (getIP_total hv hl)
  refine ⟨d.state, hv.shows hph hd, ?_⟩
  rw [dbg_view hv hph, ← begins_iff hlines]
  intro s' k m fuel hli hk hm hw
  rcases lineOver_total ha hf hv hph hl (dom_armed hall) hli hk hm hw with ⟨e, n', g1, g2, g3⟩ | g
  · obtain ⟨d', c1, rfl, ⟨w, c3⟩, _, _⟩ := g3.view
    exact .inl ⟨e, n', g1, g2, c1.shows c3 g3.dead, g3.armed, g3.wps⟩
  · exact .inr g

/-- C73. Stepping out comes back when the current function returns: let the program come to a RET by passing over `m` instructions (the RET is
the last of them), with their callees if they are calls, each of which returns after at most `k` instructions, and let no breakpoint, BKPT,
watched write or end be met on the way. -/
theorem C73_out (hs : prog.length < 2 ^ 63) (hp : ∀ i ∈ prog, Plain h i) (hset : Setup h.cfg prog data)
    (hx : Careful h c (fun s i => s = i.print h.ftos ∧ Plain h i) prog data inp P n) (hl : n.link.Live) (ha : Able h c)
    (hall : ∀ a bp, n.bps.find a = some bp → bp.enabled = true) :
    ∃ s, Native.Shows h n s ∧ ∀ (s' : State) (k m fuel : Nat),
      OutIn h.cfg P n.link.vm.cpu.dbg (fun a => armed n a = true) k m s s' → k + 1 ≤ fuel → m ≤ fuel → 24 * (k + 2) ≤ h.wait →
      Native.Returns (UbPossible h.cfg P) (Native.stepOut h c fuel n) fun e n' =>
        e = .singlestep ∧ Native.Shows h n' s' ∧ (∀ a, armed n' a = armed n a) ∧ n'.wps = n.wps := by
  obtain ⟨hf, d, hv⟩ := careful_view (texts_print h) hs hp hset hx
  obtain ⟨_, ⟨why, hph⟩, hd, _⟩ := getIP_view hv (getIP_total hv hl)
  refine ⟨d.state, hv.shows hph hd, ?_⟩
  rw [dbg_view hv hph]
  intro s' k m fuel hli hk hm hw
  unfold Native.stepOut
  rcases out_total (skip := true) ha hk hw hf hv hph hl rfl (fun _ => rfl) rfl (dom_armed hall) (by simp) (by simp) hm hli with ⟨e, n', g1, g2, g3⟩ | g
  · obtain ⟨d', c1, rfl, ⟨w, c3⟩, _, _⟩ := g3.view
    exact .inl ⟨e, n', g1, g2, c1.shows c3 g3.dead, g3.armed, g3.wps⟩
  · exact .inr g

end

/-- Non-vacuity of `C73_out`: in the program with a call of a function that returns at once, after two steps the debuggee is in the callee, and its
RET comes next. -/
example :
    Careful Sample.host Sample.client (fun s i => s = i.print Sample.host.ftos ∧ Plain Sample.host i) Sample.brief [] [] Sample.brief
      (Sample.after (Sample.started Sample.brief) [.step, .step]) ∧
    (Sample.after (Sample.started Sample.brief) [.step, .step]).link.Live ∧ Able Sample.host Sample.client ∧ 24 * (0 + 2) ≤ Sample.host.wait ∧
    (∃ s s', Isa.runs Sample.cfg Sample.brief 2 (Isa.start Sample.cfg [] []) s ∧ s.pc = 4 ∧ s'.pc = 2 ∧
      OutIn Sample.host.cfg Sample.brief (Sample.after (Sample.started Sample.brief) [.step, .step]).link.vm.cpu.dbg
        (fun a => armed (Sample.after (Sample.started Sample.brief) [.step, .step]) a = true) 0 1 s s') ∧
    (Sample.after (Sample.started Sample.brief) [.step, .step]).bps = [] ∧
    (Native.stepOut Sample.host Sample.client 1 (Sample.after (Sample.started Sample.brief) [.step, .step])).1 = .ok .singlestep ∧
    (Native.getIP Sample.host (Sample.after (Sample.started Sample.brief) [.step, .step, .out 1])).1 = .ok 2 := by
  have hd : (Sample.after (Sample.started Sample.brief) [.step, .step]).link.vm.cpu.dbg = [0, 0, 0, 0, 0] := by decide +kernel
  refine ⟨Sample.careful (Sample.starts (by decide +kernel)) (by decide) (by decide +kernel),
    ⟨by decide +kernel, by decide +kernel, by decide +kernel, ⟨.singleStep, by decide +kernel⟩⟩, ⟨by decide, by decide, by decide, by decide, by decide⟩,
    by decide, ?_, by decide +kernel, by decide +kernel, by decide +kernel⟩
  rw [hd]
  exact ⟨_, _, ⟨rfl, _, rfl, rfl, _, rfl, rfl⟩, rfl, rfl, .last ⟨by decide, .inr ⟨fun o h => (by cases h), ⟨rfl, id, by decide, _, rfl, rfl⟩, rfl⟩⟩ rfl⟩

/-- Non-vacuity of `C73_line_in` and `C73_line_over`: line 0 begins at the first instruction and line 1 at the next one, so a step into or over
a line leads from the start to the latter. -/
example :
    Careful Sample.host Sample.client (fun s i => s = i.print Sample.host.ftos ∧ Plain Sample.host i) Sample.brief [] [] Sample.brief
      (Sample.started Sample.brief) ∧
    (Sample.started Sample.brief).link.Live ∧ (Sample.started Sample.brief).bps = [] ∧
    (∃ s', Clear Sample.host.cfg Sample.brief (Sample.started Sample.brief).link.vm.cpu.dbg (fun _ => False) 1 (Isa.start Sample.cfg [] []) s' ∧ s'.halted = false ∧
      (∃ l, entryOf [(0, 0), (1, 1)] l = some s'.pc.toNat) ∧
      LineIn Sample.host.cfg Sample.brief (Sample.started Sample.brief).link.vm.cpu.dbg (fun a => armed (Sample.started Sample.brief) a = true)
        (fun a => ∃ l, entryOf [(0, 0), (1, 1)] l = some a.toNat) 0 1 (Isa.start Sample.cfg [] []) s') := by
  have hd : (Sample.started Sample.brief).link.vm.cpu.dbg = [0, 0, 0, 0, 0] := by decide +kernel
  refine ⟨Sample.starts (by decide +kernel), ⟨by decide +kernel, by decide +kernel, by decide +kernel, ⟨.begin, by decide +kernel⟩⟩, by decide +kernel, ?_⟩
  rw [hd]
  have hx : ∃ l, entryOf [(0, 0), (1, 1)] l = some (1 : Word).toNat := ⟨1, by decide⟩
  exact ⟨_, ⟨rfl, id, by decide, _, rfl, rfl⟩, rfl, hx, .last ⟨by decide, .inr ⟨fun o h => (by cases h), ⟨rfl, id, by decide, _, rfl, rfl⟩, rfl⟩⟩ hx⟩

end T86
