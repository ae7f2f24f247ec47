import Verif.Lemmas.OverAll
import Verif.Props.SourceDbg
import Verif.Props.CliMove

/-! # Stepping over calls, over lines and out of functions, whatever is met on the way (C46, C52, C53, C66)

`Isa.OverStep`, `Isa.LineOver` and `Isa.OutStep` (`Verif/Spec/Over.lean`) say in terms of the sequential machine where these steps lead and
what is reported. They also cover disabled breakpoints. -/

set_option linter.unusedSimpArgs false
set_option linter.unusedVariables false
set_option maxRecDepth 100000

namespace T86
open Dbg Str Native Isa

section
variable {h : Host} {c : Client} {prog P : List Instr} {data : List Word} {inp : List (BitVec 8)} {n n1 n' : Native}

theorem call_writes {s : State} {o : Operand} {a : Word} (hw : writeAddr s (.call o) = some a) : a = s.reg (.int .sp) - 1 := by
  simp only [writeAddr, Option.some.injEq] at hw
  exact hw.symm

theorem sp_shown (cfg : Cfg) : Reg.sp ∈ shown cfg := by simp [shown]

/-- C46. Where stepping over an instruction leads and what is reported, whatever is met on the way. The breakpoints and watchpoints are the
same as before. What is missing: a breakpoint on a BKPT of the program itself (see `C31_own_bkpt`), and a call whose return address is written
to a watched cell (see `C46_watch_lost`). -/
theorem C46_any_partial (hs : prog.length < 2 ^ 63) (hp : ∀ i ∈ prog, Plain h i) (hset : Setup h.cfg prog data)
    (hx : Careful h c (fun s i => s = i.print h.ftos ∧ Plain h i) prog data inp P n)
    (hb1 : ∀ a, armed n a = true → instrAt P a ≠ .bkpt) (hb2 : ∀ a o, instrAt P a = .call o → instrAt P (a + 1) ≠ .bkpt)
    (hw : ∀ sp, getRegister h "SP".toList n = (.ok sp, n) → n.wps.find (sp - 1) = none) {fuel : Nat} {e : Event}
    (hr : Native.stepOver h c fuel true n = (.ok e, n')) :
    ∃ s s', Native.Shows h n s ∧ Native.Shows h n' s' ∧
      OverStep h.cfg P n.link.vm.cpu.dbg (fun a => (n.bps.find a).isSome = true) (fun a => armed n a = true) n.wps true s e s' ∧
      (∀ a, armed n' a = armed n a) ∧ (∀ a, (n'.bps.find a).isSome = (n.bps.find a).isSome) ∧ n'.wps = n.wps := by
  obtain ⟨hf, d, hv⟩ := careful_view (texts_print h) hs hp hset hx
  have h1 : ∃ ip n1, getIP h n = (.ok ip, n1) := by
    have hr := hr
    unfold Native.stepOver at hr
    obtain ⟨ip, n2, h2, _⟩ := Job.bind_ok hr
    exact ⟨ip, n2, h2⟩
  obtain ⟨ip, n1, h1⟩ := h1
  obtain ⟨_, ⟨why, hph⟩, hd, _⟩ := getIP_view hv h1
  have hsh := hv.shows hph hd
  obtain ⟨d', a1, a2, a3, a4, a5, a6, ⟨w, a7⟩, a8⟩ := over_all hf hv hph (by simp) (by
    intro o ho a ha
    rcases ha with ha | ⟨rfl, _⟩
    · exact hb1 a ha
    · exact hb2 _ o ho) (by
    intro o ho _ _ a ha
    rw [call_writes ha]
    exact hw _ (hsh.regs .sp (sp_shown _))) hr
  exact ⟨d.state, d'.state, hsh, a2.shows a7 a5, by rw [dbg_view hv hph]; exact a1, a4.armed, a6 _ fun _ => rfl, a4.wps⟩

theorem amid_start (hs : prog.length < 2 ^ 63) (hp : ∀ i ∈ prog, Plain h i) (hset : Setup h.cfg prog data)
    (hx : Careful h c (fun s i => s = i.print h.ftos ∧ Plain h i) prog data inp P n) {ip : Word} (h1 : getIP h n = (.ok ip, n1)) :
    ∃ d, Amid h P (fun a => (n.bps.find a).isSome) (armed n) n.wps n d ∧ d.dbg = n.link.vm.cpu.dbg ∧ Native.Shows h n d.state := by
  obtain ⟨hf, d, hv⟩ := careful_view (texts_print h) hs hp hset hx
  obtain ⟨_, ⟨why, hph⟩, hd, _⟩ := getIP_view hv h1
  exact ⟨d, ⟨hf, hv, ⟨why, hph⟩, fun _ => rfl, fun _ => rfl, rfl, hd⟩, (dbg_view hv hph).symm, hv.shows hph hd⟩

/-- C52. Where stepping over a line leads and what is reported, whatever is met on the way. What is missing: a breakpoint on a BKPT of the
program itself (see `C31_own_bkpt`), and calls that write their return address to a watched cell (see `C46_watch_lost`). -/
theorem C52_any_partial (hs : prog.length < 2 ^ 63) (hp : ∀ i ∈ prog, Plain h i) (hset : Setup h.cfg prog data)
    (hx : Careful h c (fun s i => s = i.print h.ftos ∧ Plain h i) prog data inp P n)
    (hb1 : ∀ a, armed n a = true → instrAt P a ≠ .bkpt) (hb2 : ∀ a o, instrAt P a = .call o → instrAt P (a + 1) ≠ .bkpt)
    {src : Src.Source} {t : List (Nat × Nat)} (hl : src.lines = some (.ofEntries t)) {fuel : Nat} {e : Event}
    (hr : Src.stepOver h c src fuel n = (.ok e, n')) :
    ∃ s, Native.Shows h n s ∧ (CallsFree h.cfg P n.wps s → ∃ s', Native.Shows h n' s' ∧
      LineOver h.cfg P n.link.vm.cpu.dbg (fun a => (n.bps.find a).isSome = true) (fun a => armed n a = true) n.wps
        (fun a => ∃ l, entryOf t l = some a.toNat) true s e s' ∧
      (∀ a, armed n' a = armed n a) ∧ (∀ a, (n'.bps.find a).isSome = (n.bps.find a).isSome) ∧ n'.wps = n.wps) := by
  unfold Src.stepOver at hr
  obtain ⟨e1, n1, h1, hr⟩ := Job.bind_ok hr
  obtain ⟨ip, n2, h2, _⟩ := Job.bind_ok (show (getIP h >>= _) n = _ from h1)
  obtain ⟨d, hm, hdbg, hsh⟩ := amid_start hs hp hset hx h2
  refine ⟨d.state, hsh, fun hw => ?_⟩
  obtain ⟨d1, a1, a2, a4, a3⟩ := hm.over hb1 hb2 hdbg hw (by simp) h1
  obtain ⟨d2, b1, b2⟩ := line_all hb1 hb2 rfl rfl a2 a4 a3 a1 hr
  obtain ⟨w, hph⟩ := b2.phase
  rw [begins_iff hl] at b1
  exact ⟨d2.state, b2.view.shows hph b2.dead, b1, b2.armed, b2.dom, b2.wps⟩

/-- C53. Where stepping out of a function leads and what is reported, whatever is met on the way. What is missing: a breakpoint on a BKPT of
the program itself (see `C31_own_bkpt`), and calls that write their return address to a watched cell (see `C46_watch_lost`). -/
theorem C53_any_partial (hs : prog.length < 2 ^ 63) (hp : ∀ i ∈ prog, Plain h i) (hset : Setup h.cfg prog data)
    (hx : Careful h c (fun s i => s = i.print h.ftos ∧ Plain h i) prog data inp P n)
    (hb1 : ∀ a, armed n a = true → instrAt P a ≠ .bkpt) (hb2 : ∀ a o, instrAt P a = .call o → instrAt P (a + 1) ≠ .bkpt)
    {fuel : Nat} {e : Event} (hr : Native.stepOut h c fuel n = (.ok e, n')) :
    ∃ s, Native.Shows h n s ∧ (CallsFree h.cfg P n.wps s → ∃ s', Native.Shows h n' s' ∧
      OutStep h.cfg P n.link.vm.cpu.dbg (fun a => (n.bps.find a).isSome = true) (fun a => armed n a = true) n.wps true s e s' ∧
      (∀ a, armed n' a = armed n a) ∧ (∀ a, (n'.bps.find a).isSome = (n.bps.find a).isSome) ∧ n'.wps = n.wps) := by
  unfold Native.stepOut at hr
  have h1 : ∃ ip n1, getIP h n = (.ok ip, n1) := by
    cases fuel with
    | zero => cases hr
    | succ fuel =>
      unfold stepOutLoop at hr
      obtain ⟨ip, n2, h2, _⟩ := Job.bind_ok hr
      exact ⟨ip, n2, h2⟩
  obtain ⟨ip, n1, h1⟩ := h1
  obtain ⟨d, hm, hdbg, hsh⟩ := amid_start hs hp hset hx h1
  refine ⟨d.state, hsh, fun hw => ?_⟩
  obtain ⟨d2, b1, b2⟩ := out_all hb1 hb2 hm hdbg hw (by simp) hr
  obtain ⟨w, hph⟩ := b2.phase
  exact ⟨d2.state, b2.view.shows hph b2.dead, b1, b2.armed, b2.dom, b2.wps⟩

end

namespace Cli
section
variable {h : Host} {c : Client} {prog P : List Instr} {data : List Word} {inp : List (BitVec 8)} {n : Native} {s s' : Cli}
variable (hl : prog.length < 2 ^ 63) (hp : ∀ i ∈ prog, Plain h i) (hset : Setup h.cfg prog data)
  (hx : Careful h c (fun s i => s = i.print h.ftos ∧ Plain h i) prog data inp P n)
  (hn : s.process = some n) (hh : s.host = h) (hc : s.client = c) (hr : s.running = true)
  (hb1 : ∀ a, armed n a = true → instrAt P a ≠ .bkpt) (hb2 : ∀ a o, instrAt P a = .call o → instrAt P (a + 1) ≠ .bkpt)
include hl hp hset hx hn hh hc hr hb1 hb2

/-- C66: `inext` steps over the next instruction, with its callee if it is a call, and then reports what was met and shows the instructions
around the next one. What is missing: as in `C46_any_partial`. -/
theorem C66_inext_partial (e : Env) {raw : Str} (hk : Is .inext raw) (hb : Bare raw) (hd : Done e raw s s')
    (hw : ∀ sp, getRegister h "SP".toList n = (.ok sp, n) → n.wps.find (sp - 1) = none) :
    ∃ st st' ev n', Native.Shows h n st ∧ Native.Shows h n' st' ∧ Careful h c (fun s i => s = i.print h.ftos ∧ Plain h i) prog data inp P n' ∧
      (∀ a, armed n' a = armed n a) ∧ n'.wps = n.wps ∧ s' = stopped .inext h P s n' ev st'.pc ∧
      OverStep h.cfg P n.link.vm.cpu.dbg (fun a => (n.bps.find a).isSome = true) (fun a => armed n a = true) n.wps true st ev st' := by
  have hm : motion e s.source s.host s.client .inext = some (Native.stepOver h c e.fuel true) := by rw [hh, hc]; rfl
  obtain ⟨ev, n', he⟩ := C66_done e hk hm (.inl hb) hn hr hd
  obtain ⟨st, st', h1, h2, h3, h4, h5, h6⟩ := C46_any_partial hl hp hset hx hb1 hb2 hw he
  have hx' : Careful h c (fun s i => s = i.print h.ftos ∧ Plain h i) prog data inp P n' :=
    .call (.over e.fuel true) hx (by
      show (Native.stepOver h c e.fuel true >>= fun _ => pure ()) n = _
      exact Job.bind_eq he) rfl trivial
  exact ⟨st, st', ev, n', h1, h2, hx', h4, h6, stopped_ended hd (C66_stop hl hp hx'.session e hk hm (.inl hb) hn hr he hh h2), h3⟩

/-- C66: `next` steps over the instructions of a line, and then reports what was met and shows the lines around the next one. What is missing:
as in `C52_any_partial`. -/
theorem C66_next_partial (e : Env) {raw : Str} (hk : Is .next raw) (hb : Bare raw) (hd : Done e raw s s')
    {t : List (Nat × Nat)} (hlines : s.source.lines = some (.ofEntries t)) :
    ∃ st, Native.Shows h n st ∧ (CallsFree h.cfg P n.wps st → ∃ st' ev n', Native.Shows h n' st' ∧
      Careful h c (fun s i => s = i.print h.ftos ∧ Plain h i) prog data inp P n' ∧
      (∀ a, armed n' a = armed n a) ∧ n'.wps = n.wps ∧ s' = stopped .next h P s n' ev st'.pc ∧
      LineOver h.cfg P n.link.vm.cpu.dbg (fun a => (n.bps.find a).isSome = true) (fun a => armed n a = true) n.wps
        (fun a => ∃ l, entryOf t l = some a.toNat) true st ev st') := by
  have hm : motion e s.source s.host s.client .next = some (Src.stepOver h c s.source e.fuel) := by rw [hh, hc]; rfl
  obtain ⟨ev, n', he⟩ := C66_done e hk hm (.inl hb) hn hr hd
  obtain ⟨st, h1, hall⟩ := C52_any_partial hl hp hset hx hb1 hb2 hlines he
  refine ⟨st, h1, fun hw => ?_⟩
  obtain ⟨st', h2, h3, h4, h5, h6⟩ := hall hw
  have hx' := C52_session (texts_print h) hl hp hx (.inr he)
  exact ⟨st', ev, n', h2, hx', h4, h6, stopped_ended hd (C66_stop hl hp hx'.session e hk hm (.inl hb) hn hr he hh h2), h3⟩

/-- C66: `finish` steps out of a function, and then reports what was met and shows the place. What is missing: as in `C53_any_partial`. -/
theorem C66_finish_partial (e : Env) {raw : Str} (hk : Is .finish raw) (hb : Bare raw) (hd : Done e raw s s') :
    ∃ st, Native.Shows h n st ∧ (CallsFree h.cfg P n.wps st → ∃ st' ev n', Native.Shows h n' st' ∧
      Careful h c (fun s i => s = i.print h.ftos ∧ Plain h i) prog data inp P n' ∧
      (∀ a, armed n' a = armed n a) ∧ n'.wps = n.wps ∧ s' = stopped .finish h P s n' ev st'.pc ∧
      OutStep h.cfg P n.link.vm.cpu.dbg (fun a => (n.bps.find a).isSome = true) (fun a => armed n a = true) n.wps true st ev st') := by
  have hm : motion e s.source s.host s.client .finish = some (Native.stepOut h c e.fuel) := by rw [hh, hc]; rfl
  obtain ⟨ev, n', he⟩ := C66_done e hk hm (.inl hb) hn hr hd
  obtain ⟨st, h1, hall⟩ := C53_any_partial hl hp hset hx hb1 hb2 he
  refine ⟨st, h1, fun hw => ?_⟩
  obtain ⟨st', h2, h3, h4, h5, h6⟩ := hall hw
  have hx' : Careful h c (fun s i => s = i.print h.ftos ∧ Plain h i) prog data inp P n' :=
    .call (.out e.fuel) hx (by
      show (Native.stepOut h c e.fuel >>= fun _ => pure ()) n = _
      exact Job.bind_eq he) rfl trivial
  exact ⟨st', ev, n', h2, hx', h4, h6, stopped_ended hd (C66_stop hl hp hx'.session e hk hm (.inl hb) hn hr he hh h2), h3⟩

end
end Cli

/-! ## Concrete cases -/

/-- The session of the cases below: a breakpoint in the callee and a step to the CALL. -/
theorem Sample.calls_careful {Tx : Str → Instr → Prop} : Careful Sample.host Sample.client Tx Sample.calls [] [] Sample.calls
    (Sample.after (Sample.started Sample.calls) [.set 7, .step]) :=
  Sample.careful (Sample.starts (by decide +kernel)) (by decide) (by decide +kernel)

/-- The hypotheses are met there: there is no BKPT in the program, and nothing is watched. Stepping over the CALL stops at the breakpoint in the
callee, so does stepping over its line, and stepping out of the function that calls. -/
example : Setup Sample.host.cfg Sample.calls [] ∧ (∀ a, instrAt Sample.calls a ≠ .bkpt) ∧
    (Sample.after (Sample.started Sample.calls) [.set 7, .step]).wps = [] ∧
    (Native.stepOver Sample.host Sample.client 5 true (Sample.after (Sample.started Sample.calls) [.set 7, .step])).1 = .ok (.breakpoint 7) ∧
    (Native.getIP Sample.host (Sample.after (Sample.started Sample.calls) [.set 7, .step, .over 5 true])).1 = .ok 7 ∧
    (Src.stepOver Sample.host Sample.client Sample.source 5 (Sample.after (Sample.started Sample.calls) [.set 7, .step])).1 = .ok (.breakpoint 7) ∧
    (Native.stepOut Sample.host Sample.client 5 (Sample.after (Sample.started Sample.calls) [.set 7, .step])).1 = .ok (.breakpoint 7) := by
  refine ⟨Sample.calls_setup, ?_, by decide +kernel, by decide +kernel, by decide +kernel, by decide +kernel, by decide +kernel⟩
  intro a ha
  unfold instrAt at ha
  cases hi : Sample.calls[a.toNat]? with
  | none => rw [hi] at ha; cases ha
  | some i =>
    rw [hi] at ha
    have := List.mem_of_getElem? hi
    simp only [Option.getD_some] at ha
    subst ha
    revert this
    simp [Sample.calls]

theorem Isa.runs_steps {cfg : Cfg} {P : List Instr} : ∀ {k : Nat} {s t : State}, runs cfg P k s t → steps cfg P k s = .ok t
  | 0, _, _, h => by cases h; rfl
  | k + 1, s, t, ⟨_, u, h1, h2⟩ => by
    show (step cfg P s >>= fun s => steps cfg P k s) = _
    rw [h1]; exact runs_steps h2

/-- What a state of the run of `Sample.calls` looks like: at the CALL, SP is 16. -/
def Sample.callsOk : Res State → Bool
  | .ok t => t.pc ≠ 1 || t.reg (.int .sp) = 16
  | .error _ => true

/-- The CALL of `Sample.calls` writes to cell 15 only. -/
theorem Sample.calls_free {k : Nat} {t : State} (hr : runs Sample.cfg Sample.calls k (start Sample.cfg [] []) t) (hp : t.pc = 1) :
    t.reg (.int .sp) = 16 := by
  have hall : ∀ i < 9, Sample.callsOk (steps Sample.cfg Sample.calls i (start Sample.cfg [] [])) = true := by decide +kernel
  have hk : k < 9 := by
    by_contra hc
    obtain ⟨j, rfl⟩ : ∃ j, k = 8 + (j + 1) := ⟨k - 9, by omega⟩
    have h8 : ∃ u, runs Sample.cfg Sample.calls 8 (start Sample.cfg [] []) u ∧ u.halted = true :=
      ⟨_, ⟨rfl, _, rfl, rfl, _, rfl, rfl, _, rfl, rfl, _, rfl, rfl, _, rfl, rfl, _, rfl, rfl, _, rfl, rfl, _, rfl, rfl⟩, rfl⟩
    obtain ⟨u, h1, h2⟩ := h8
    obtain ⟨h3, _⟩ := runs_unique h1 hr
    rw [h2] at h3; cases h3
  have := hall k hk
  rw [runs_steps hr] at this
  simpa [Sample.callsOk, hp] using this

/-- Nor does a watchpoint elsewhere stand in the way: no CALL of `Sample.calls` ever writes to cell 8, and stepping over the line of the CALL, and
out of the function that calls, stops when that cell is written. -/
example : Careful Sample.host Sample.client (fun _ _ => True) Sample.calls [] [] Sample.calls (Sample.after (Sample.started Sample.calls) [.step, .watch 8]) ∧
    (∀ j s, runs Sample.cfg Sample.calls j (start Sample.cfg [] []) s →
      CallsFree Sample.cfg Sample.calls (Sample.after (Sample.started Sample.calls) [.step, .watch 8]).wps s) ∧
    (Sample.after (Sample.started Sample.calls) [.step, .watch 8]).wps.find 8 = some 0 ∧
    (Src.stepOver Sample.host Sample.client Sample.source 5 (Sample.after (Sample.started Sample.calls) [.step, .watch 8])).1 = .ok (.watchpoint 8) ∧
    (Native.stepOut Sample.host Sample.client 5 (Sample.after (Sample.started Sample.calls) [.step, .watch 8])).1 = .ok (.watchpoint 8) := by
  refine ⟨Sample.careful (Sample.starts (by decide +kernel)) (by decide) (by decide +kernel), ?_, by decide +kernel, by decide +kernel, by decide +kernel⟩
  intro j s hj k t o a hk _ hi ha
  have hpc : t.pc = 1 := by
    have hlt : t.pc.toNat = 1 := by
      unfold instrAt at hi
      generalize t.pc.toNat = m at hi ⊢
      match m, hi with
      | 0, hi => cases hi
      | 1, _ => rfl
      | 2, hi | 3, hi | 4, hi | 5, hi | 6, hi | 7, hi => cases hi
      | _ + 8, hi => cases hi
    exact BitVec.eq_of_toNat_eq hlt
  have hsp := Sample.calls_free (runs_append hj hk) hpc
  cases ha
  show Map.find _ (t.reg (.int .sp) - 1) = none
  rw [hsp]
  decide +kernel

/-- Stepping out of a function that does not return by a RET of its own stops at the end. -/
example : (Native.stepOut Sample.host Sample.client 9 (Sample.after (Sample.started Sample.calls) [.step])).1 = .ok .end' := by decide +kernel

/-- C46 fails when the cell to which the CALL writes the return address is watched: a single step reports the watchpoint, but stepping over
throws that report away, stops in the middle of the callee, at 7, and reports a single step. -/
theorem C46_watch_lost :
    (Native.getRegister Sample.host "SP".toList (Sample.after (Sample.started Sample.calls) [.step, .watch 15])).1 = .ok 16 ∧
    (Native.singleStep Sample.host Sample.client (Sample.after (Sample.started Sample.calls) [.step, .watch 15])).1 = .ok (.watchpoint 15) ∧
    (Native.stepOver Sample.host Sample.client 5 true (Sample.after (Sample.started Sample.calls) [.step, .watch 15])).1 = .ok .singlestep ∧
    (Native.getIP Sample.host (Sample.after (Sample.started Sample.calls) [.step, .watch 15, .over 5 true])).1 = .ok 7 := by
  decide +kernel

namespace Cli

/-- The lines `inext`, `next` and `finish` are carried out at the start of the program; the hypotheses about the session are those of the
case for `istep` (`Verif/Props/CliMove.lean`). -/
example : Done exEnv "inext".toList exBreak (exBroken ["inext"]) ∧ Done exEnv "next".toList exBreak (exBroken ["next"]) ∧
    Done exEnv "finish".toList exBreak (exBroken ["finish"]) ∧ Is .inext "inext".toList ∧ Bare "inext".toList ∧ Is .next "next".toList ∧
    Bare "next".toList ∧ Is .finish "finish".toList ∧ Bare "finish".toList ∧ (Sample.started Sample.calls).wps = [] := by
  have hdone : ∀ x : String, (typed exEnv x.toList exBreak).1 = .ok () → Out.error ∉ (typed exEnv x.toList exBreak).2.out.drop exBreak.out.length →
      Done exEnv x.toList exBreak (exBroken [x]) := fun x h1 h2 => ⟨Prod.ext h1 rfl, h2⟩
  exact ⟨hdone "inext" (by decide +kernel) (by decide +kernel), hdone "next" (by decide +kernel) (by decide +kernel),
    hdone "finish" (by decide +kernel) (by decide +kernel), by unfold Is; decide, by unfold Bare; decide, by unfold Is; decide, by unfold Bare; decide,
    by unfold Is; decide, by unfold Bare; decide, by decide +kernel⟩

end Cli
end T86
