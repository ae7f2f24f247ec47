import Verif.Props.ReturnOut
import Verif.Lemmas.ReturnMeet

/-! # Stepping by lines and out of functions comes back, whatever is met (C73) -/

set_option linter.unusedSimpArgs false
set_option linter.unusedVariables false
set_option maxRecDepth 100000

namespace T86
open Dbg Str Native Isa

section
variable {h : Host} {c : Client} {prog P : List Instr} {data : List Word} {inp : List (BitVec 8)} {n : Native}

/-- C73. Stepping out comes back when the program comes to something else before the current function returns: let the program pass over
some instructions, with their callees if they are calls, and let the `m`-th meet something (see `MeetsIn`): the end of the program, or, in its
callee, a breakpoint or a BKPT; or let the `m`-th, if it is no call, be at a breakpoint or be BKPT. This is reported, in the state `u` in which it is met. The breakpoints are as they were. -/
theorem C73_out_met (hs : prog.length < 2 ^ 63) (hp : ∀ i ∈ prog, Plain h i) (hset : Setup h.cfg prog data)
    (hx : Careful h c (fun s i => s = i.print h.ftos ∧ Plain h i) prog data inp P n) (hl : n.link.Live) (ha : Able h c)
    (hall : ∀ a bp, n.bps.find a = some bp → bp.enabled = true) (hnb : ∀ a, armed n a = true → instrAt P a ≠ .bkpt) :
    ∃ s, Native.Shows h n s ∧ ∀ (u : State) (k m fuel : Nat),
      OutMet h.cfg P n.link.vm.cpu.dbg (fun a => armed n a = true) k m s u → k + 2 ≤ fuel → m ≤ fuel → 24 * (k + 2) ≤ h.wait →
      Native.Returns (UbPossible h.cfg P) (Native.stepOut h c fuel n) fun e n' =>
        e = (if u.halted = true then .end' else .breakpoint u.pc) ∧ Native.Shows h n' u ∧ (∀ a, armed n' a = armed n a) ∧ n'.wps = n.wps := by
  obtain ⟨hf, d, hv⟩ := careful_view (texts_print h) hs hp hset hx
  obtain ⟨_, ⟨why, hph⟩, hd, _⟩ := getIP_view hv (getIP_total hv hl)
  refine ⟨d.state, hv.shows hph hd, ?_⟩
  rw [dbg_view hv hph]
  intro u k m fuel hli hk hm hw
  unfold Native.stepOut
  rcases outMet_total (skip := true) ha hnb hk hw hf hv hph hl rfl (fun _ => rfl) rfl (dom_armed hall) (by simp) (by simp) hm hli with ⟨e, n', g1, g2, g3⟩ | g
  · obtain ⟨d', c1, rfl, w, c3⟩ := g3.view
    exact .inl ⟨e, n', g1, g2, c1.shows c3 g3.dead, g3.armed, g3.wps⟩
  · exact .inr g

/-- C73. Stepping over a line comes back when the program comes to something else before the next line begins, as in `C73_out_met`. -/
theorem C73_line_met (hs : prog.length < 2 ^ 63) (hp : ∀ i ∈ prog, Plain h i) (hset : Setup h.cfg prog data)
    (hx : Careful h c (fun s i => s = i.print h.ftos ∧ Plain h i) prog data inp P n) (hl : n.link.Live) (ha : Able h c)
    {src : Src.Source} {t : List (Nat × Nat)} (hlines : src.lines = some (.ofEntries t))
    (hall : ∀ a bp, n.bps.find a = some bp → bp.enabled = true) (hnb : ∀ a, armed n a = true → instrAt P a ≠ .bkpt) :
    ∃ s, Native.Shows h n s ∧ ∀ (u : State) (k m fuel : Nat),
      LineMet h.cfg P n.link.vm.cpu.dbg (fun a => armed n a = true) (fun a => ∃ l, entryOf t l = some a.toNat) k m s u →
      k + 2 ≤ fuel → m ≤ fuel → 24 * (k + 2) ≤ h.wait →
      Native.Returns (UbPossible h.cfg P) (Src.stepOver h c src fuel n) fun e n' =>
        e = (if u.halted = true then .end' else .breakpoint u.pc) ∧ Native.Shows h n' u ∧ (∀ a, armed n' a = armed n a) ∧ n'.wps = n.wps := by
  obtain ⟨hf, d, hv⟩ := careful_view (texts_print h) hs hp hset hx
  obtain ⟨_, ⟨why, hph⟩, hd, _⟩ := getIP_view hv (getIP_total hv hl)
  refine ⟨d.state, hv.shows hph hd, ?_⟩
  rw [dbg_view hv hph, ← begins_iff hlines]
  intro u k m fuel hli hk hm hw
  rcases lineMet_total ha hf hv hph hl (dom_armed hall) hnb hli hk hm hw with ⟨e, n', g1, g2, g3⟩ | g
  · obtain ⟨d', c1, rfl, w, c3⟩ := g3.view
    exact .inl ⟨e, n', g1, g2, c1.shows c3 g3.dead, g3.armed, g3.wps⟩
  · exact .inr g

/-- C73. Stepping into a line comes back when the program comes to something else before the next line begins: let the current instruction be
executed, and then `k` more, none of them at the beginning of a line, at a breakpoint or BKPT or writing to a watched address, and let the
program then be at its end, or, not at the beginning of a line, at a breakpoint or a BKPT. This is reported. -/
theorem C73_line_in_met {Tx : Str → Instr → Prop} (ht : Texts h Tx) (hs : prog.length < 2 ^ 63) (hp : ∀ i ∈ prog, Plain h i) (hset : Setup h.cfg prog data)
    (hx : Careful h c Tx prog data inp P n) (hl : n.link.Live) (ha : Able h c) {src : Src.Source} {t : List (Nat × Nat)}
    (hlines : src.lines = some (.ofEntries t)) :
    ∃ s, Native.Shows h n s ∧ ∀ (t1 u : State) (k fuel : Nat), Clear h.cfg P n.link.vm.cpu.dbg (fun _ => False) 1 s t1 →
      Clear h.cfg P n.link.vm.cpu.dbg (fun x => armed n x.pc = true ∨ ∃ l, entryOf t l = some x.pc.toNat) k t1 u →
      (u.halted = true ∨ (¬ ∃ l, entryOf t l = some u.pc.toNat) ∧ (armed n u.pc = true ∨ instrAt P u.pc = .bkpt)) → k + 2 ≤ fuel → 24 ≤ h.wait →
      Native.Returns (UbPossible h.cfg P) (Src.stepIn h c src fuel n) fun e n' =>
        e = (if u.halted = true then .end' else .breakpoint u.pc) ∧ Native.Shows h n' u ∧ (∀ a, armed n' a = armed n a) ∧ n'.wps = n.wps := by
  obtain ⟨hf, d, hv⟩ := careful_view ht hs hp hset hx
  obtain ⟨_, ⟨why, hph⟩, hd, _⟩ := getIP_view hv (getIP_total hv hl)
  refine ⟨d.state, hv.shows hph hd, ?_⟩
  rw [dbg_view hv hph]
  intro t1 u k fuel h1 h2 hu hm hw
  have hb := begins_iff hlines
  have hb' : ∀ a, src.Begins a = ∃ l, entryOf t l = some a.toNat := fun a => congrFun hb a
  rcases lineInMet_total (src := src) ha ht hf hv hph hl h1 (by simpa only [hb'] using h2) (by rw [hb']; exact hu) hm hw with ⟨e, n', g1, g2, g3⟩ | g
  · obtain ⟨d', c1, rfl, w, c3⟩ := g3.view
    exact .inl ⟨e, n', g1, g2, c1.shows c3 g3.dead, g3.armed, g3.wps⟩
  · exact .inr g

end

/-- A program with a call of a function that begins with BKPT. -/
def Sample.trap : List Instr := [.mov (.val (.reg (.gp 0))) (.imm 3), .call (.imm 3), .halt, .bkpt]

/-- Non-vacuity of `C73_out_met` and `C73_line_met`: from the start of this program the first instruction is passed over, and the second, a call,
meets the BKPT; stepping out and stepping over the only line of the program come back there. -/
example :
    Careful Sample.host Sample.client (fun s i => s = i.print Sample.host.ftos ∧ Plain Sample.host i) Sample.trap [] [] Sample.trap
      (Sample.started Sample.trap) ∧
    (∀ i ∈ Sample.trap, Plain Sample.host i) ∧ Setup Sample.host.cfg Sample.trap [] ∧
    (Sample.started Sample.trap).link.Live ∧ Able Sample.host Sample.client ∧ 24 * (0 + 2) ≤ Sample.host.wait ∧ (Sample.started Sample.trap).bps = [] ∧
    (∃ u, u.pc = 3 ∧ u.halted = false ∧
      OutMet Sample.host.cfg Sample.trap (Sample.started Sample.trap).link.vm.cpu.dbg (fun a => armed (Sample.started Sample.trap) a = true) 0 2
        (Isa.start Sample.cfg [] []) u ∧
      LineMet Sample.host.cfg Sample.trap (Sample.started Sample.trap).link.vm.cpu.dbg (fun a => armed (Sample.started Sample.trap) a = true)
        (fun a => ∃ l, entryOf [(0, 0)] l = some a.toNat) 0 2 (Isa.start Sample.cfg [] []) u) ∧
    (Native.stepOut Sample.host Sample.client 2 (Sample.started Sample.trap)).1 = .ok (.breakpoint 3) ∧
    (Src.stepOver Sample.host Sample.client { lines := some (.ofEntries [(0, 0)]) } 2 (Sample.started Sample.trap)).1 = .ok (.breakpoint 3) := by
  have hd : (Sample.started Sample.trap).link.vm.cpu.dbg = [0, 0, 0, 0, 0] := by decide +kernel
  have hb : (Sample.started Sample.trap).bps = [] := by decide +kernel
  have ha : ∀ a, ¬ armed (Sample.started Sample.trap) a = true := by
    intro a
    unfold armed
    rw [hb]
    exact Bool.false_ne_true
  have hp : ∀ i ∈ Sample.trap, Plain Sample.host i := by
    intro i hi
    simp only [Sample.trap, List.mem_cons, List.not_mem_nil, or_false] at hi
    rcases hi with rfl | rfl | rfl | rfl <;>
      simp [Plain, Instr.Writable, Instr.Shape, MovShape, Operand.isImmReg, Operand.isMem, Instr.shown, Operand.Named,
        RegExpr.Named, Reg.Named, Operand.Legible, Word.Literal]
  have hx : ¬ ∃ l, entryOf [(0, 0)] l = some (1 : Word).toNat := by
    rintro ⟨l, hl⟩
    have h1 : ((1 : Word).toNat) = 1 := rfl
    rw [h1] at hl
    by_cases h0 : l = 0
    · subst h0; exact absurd hl (by decide)
    · have h2 : ¬ 0 = l := fun e => h0 e.symm
      simp [entryOf, h0, h2] at hl
  refine ⟨Sample.starts (by decide +kernel), hp, ⟨by decide, by decide, by decide⟩,
    ⟨by decide +kernel, by decide +kernel, by decide +kernel, ⟨.begin, by decide +kernel⟩⟩,
    ⟨by decide, by decide, by decide, by decide, by decide⟩, by decide, hb, ?_, by decide +kernel, by decide +kernel⟩
  rw [hd]
  have hcall : ∀ s s1 : State, s.pc = 1 → s.halted = false → stopCode [0, 0, 0, 0, 0] s (.call (.imm 3)) = 0 → step Sample.host.cfg Sample.trap s = .ok s1 →
      s1.halted = false → s1.pc = 3 →
      MeetsIn Sample.host.cfg Sample.trap [0, 0, 0, 0, 0] (fun a => armed (Sample.started Sample.trap) a = true) 0 s s1 := by
    intro s s1 h1 h2 h3 h4 h5 h6
    refine ⟨by rw [h1]; decide, .inl ⟨.imm 3, s1, 0, Nat.le_refl _, by rw [h1]; decide, by rw [h1]; rfl, h3, h2, h4, h5, by rw [h1, h6]; decide, ha _, by rw [h1]; decide, rfl,
      .inr (.inr (by rw [h6]; rfl)), by rw [h1, h6]; decide⟩⟩
  refine ⟨_, ?_, ?_, .more ⟨by decide, .inr ⟨fun o h => (by cases h), ⟨rfl, id, by decide, _, rfl, rfl⟩, rfl⟩⟩ (by decide) (ha _) (.last (hcall _ _ rfl rfl (by decide) rfl ?_ ?_)),
    .more ⟨by decide, .inr ⟨fun o h => (by cases h), ⟨rfl, id, by decide, _, rfl, rfl⟩, rfl⟩⟩ hx (ha _) (.last (hcall _ _ rfl rfl (by decide) rfl ?_ ?_))⟩ <;> rfl

/-- A program without calls. -/
def Sample.straight : List Instr := [.mov (.val (.reg (.gp 0))) (.imm 3), .mov (.val (.reg (.gp 1))) (.imm 4), .halt]

/-- Non-vacuity: a breakpoint at the next instruction but one is met. -/
example :
    Careful Sample.host Sample.client (fun s i => s = i.print Sample.host.ftos ∧ Plain Sample.host i) Sample.straight [] [] Sample.straight
      (Sample.after (Sample.started Sample.straight) [.set 1]) ∧
    (Sample.after (Sample.started Sample.straight) [.set 1]).link.Live ∧
    (∃ u, u.pc = 1 ∧
      OutMet Sample.host.cfg Sample.straight (Sample.after (Sample.started Sample.straight) [.set 1]).link.vm.cpu.dbg
        (fun a => armed (Sample.after (Sample.started Sample.straight) [.set 1]) a = true) 0 2 (Isa.start Sample.cfg [] []) u) ∧
    (Native.stepOut Sample.host Sample.client 2 (Sample.after (Sample.started Sample.straight) [.set 1])).1 = .ok (.breakpoint 1) := by
  have hd : (Sample.after (Sample.started Sample.straight) [.set 1]).link.vm.cpu.dbg = [0, 0, 0, 0, 0] := by decide +kernel
  have h1 : armed (Sample.after (Sample.started Sample.straight) [.set 1]) 1 = true := by decide +kernel
  refine ⟨Sample.careful (Sample.starts (by decide +kernel)) (by decide) (by decide +kernel),
    ⟨by decide +kernel, by decide +kernel, by decide +kernel, ⟨.begin, by decide +kernel⟩⟩, ?_, by decide +kernel⟩
  rw [hd]
  exact ⟨_, rfl, .stop ⟨by decide, .inr ⟨fun o h => (by cases h), ⟨rfl, id, by decide, _, rfl, rfl⟩, rfl⟩⟩ (by decide) (.inl h1) (fun o h => by cases h) (by decide) rfl⟩

/-- Non-vacuity of `C73_line_in_met`: all of this program is one line. -/
example :
    (∃ t1, Clear Sample.host.cfg Sample.straight (Sample.after (Sample.started Sample.straight) [.set 1]).link.vm.cpu.dbg (fun _ => False) 1
        (Isa.start Sample.cfg [] []) t1 ∧ t1.pc = 1 ∧ armed (Sample.after (Sample.started Sample.straight) [.set 1]) t1.pc = true) ∧
    (¬ ∃ l, entryOf [(0, 0)] l = some (1 : Word).toNat) ∧
    (Src.stepIn Sample.host Sample.client { lines := some (.ofEntries [(0, 0)]) } 2 (Sample.after (Sample.started Sample.straight) [.set 1])).1 = .ok (.breakpoint 1) := by
  have hd : (Sample.after (Sample.started Sample.straight) [.set 1]).link.vm.cpu.dbg = [0, 0, 0, 0, 0] := by decide +kernel
  have h1 : armed (Sample.after (Sample.started Sample.straight) [.set 1]) 1 = true := by decide +kernel
  refine ⟨?_, ?_, by decide +kernel⟩
  · rw [hd]
    exact ⟨_, ⟨rfl, id, by decide, _, rfl, rfl⟩, rfl, h1⟩
  · rintro ⟨l, hl⟩
    have h1 : ((1 : Word).toNat) = 1 := rfl
    rw [h1] at hl
    by_cases h0 : l = 0
    · subst h0; exact absurd hl (by decide)
    · have h2 : ¬ 0 = l := fun e => h0 e.symm
      simp [entryOf, h0, h2] at hl

end T86
