import Verif.Lemmas.ReturnOver

/-! # Stepping over comes back (C73) -/

set_option linter.unusedSimpArgs false
set_option linter.unusedVariables false
set_option maxRecDepth 100000

namespace T86
open Dbg Str Native Isa

section
variable {h : Host} {c : Client} {prog P : List Instr} {data : List Word} {inp : List (BitVec 8)} {n : Native}

/-- An instruction that is there. -/
theorem instrAt_call {ip : Word} {o : Operand} (hc : instrAt P ip = .call o) : P[ip.toNat]? = some (.call o) := by
  unfold instrAt at hc
  cases hp : P[ip.toNat]? with
  | none => rw [hp] at hc; cases hc
  | some i => rw [hp] at hc; exact congrArg some hc

/-- C73. Stepping over a call comes back when the callee returns. As in `C46_call_partial`, let the current instruction be CALL, executed in
state `s` with result `s1`, and let the program come back to the instruction after it, with the BP it had before, after `k` more
instructions (in `s2`, and not earlier), without meeting a breakpoint, a BKPT, a write to a watched address or the end on the way.
However often it passes the instruction after the call in between, in deeper calls, the debugger comes back in `s2` with a
single-step event and the breakpoints as they were, if it is patient enough. -/
theorem C73_over (hs : prog.length < 2 ^ 63) (hp : ∀ i ∈ prog, Plain h i) (hset : Setup h.cfg prog data)
    (hx : Careful h c (fun s i => s = i.print h.ftos ∧ Plain h i) prog data inp P n) (hl : n.link.Live) (ha : Able h c) {ip : Word}
    (hip : getIP h n = (.ok ip, n)) {o : Operand} (hc : instrAt P ip = .call o) (hlen : (ip + 1).toNat < P.length) :
    ∃ s, Native.Shows h n s ∧ s.pc = ip ∧ ∀ (s1 s2 : State) (k fuel : Nat), s.halted = false →
      step h.cfg P s = .ok s1 → stopCode n.link.vm.cpu.dbg s (.call o) = 0 → s1.pc ≠ ip + 1 → armed n s1.pc = false →
      Clear h.cfg P n.link.vm.cpu.dbg (fun t => armed n t.pc = true ∧ t.pc ≠ ip + 1 ∨ t.pc = ip + 1 ∧ t.reg (.int .bp) = s1.reg (.int .bp)) k s1 s2 →
      s2.pc = ip + 1 → s2.reg (.int .bp) = s1.reg (.int .bp) → s2.halted = false →
      (∀ bp, n.bps.find (ip + 1) = some bp → bp.enabled = true) → k ≤ fuel → 24 * (k + 1) ≤ h.wait →
      Returns (UbPossible h.cfg P) (stepOver h c fuel true n) fun e n' =>
        e = .singlestep ∧ Native.Shows h n' s2 ∧ (∀ a, armed n' a = armed n a) ∧ n'.wps = n.wps := by
  have ht := texts_print h
  obtain ⟨hf, d, hv⟩ := careful_view ht hs hp hset hx
  obtain ⟨_, ⟨why, hph⟩, hd, rfl⟩ := getIP_view hv hip
  refine ⟨d.state, hv.shows hph hd, rfl, ?_⟩
  rw [dbg_view hv hph]
  intro s1 s2 k fuel hh hst h0 hne hna hpath hpc hbp hrun hen hfuel hw
  have hat := instrAt_call hc
  have hlt : d.state.pc.toNat < P.length := (List.getElem?_eq_some_iff.1 hat).1
  obtain ⟨r, h2⟩ := readText_total hf.good hl (a := d.state.pc) (m := 1) (by
    have : (1 : Word).toNat = 1 := rfl
    omega)
  obtain ⟨_, g1, g2, g3⟩ := readText_ok ht hf.good h2
  obtain ⟨l, rfl⟩ := over_first g2 g3 hat
  have htail : ∀ (m : Native) (K : Event → N Event) (dm : Dbg), Native.Fine h (fun s i => s = i.print h.ftos ∧ Plain h i) P m → View h m dm →
      Patched d dm → m.link.dead = false → m.wps = n.wps → (∀ b, armed m b = if b = d.state.pc + 1 then true else armed n b) →
      ((∃ n', (singleStep h c >>= fun _ => getRegister h "BP".toList >>= fun bp => overLoop h c d.state.pc bp fuel >>= K) m = (.error .ub, n')) ∧
        UbPossible h.cfg P) ∨
      ∃ e1 m2 d2, (singleStep h c >>= fun _ => getRegister h "BP".toList >>= fun bp => overLoop h c d.state.pc bp fuel >>= K) m = K e1 m2 ∧
        Native.Fine h (fun s i => s = i.print h.ftos ∧ Plain h i) P m2 ∧ View h m2 d2 ∧ d2.state = s2 ∧
        (∃ why, d2.phase = .stopped why) ∧ (∀ b, armed m2 b = if b = d.state.pc + 1 then true else armed n b) ∧ m2.wps = n.wps ∧
        m2.link.dead = false := by
    intro m K dm a1 a2 a3 a4 a5 a6
    have hml : m.link.Live := live_view a2 a4 (by rw [a3.phase]; exact hph)
    have hran : Ran h.cfg P dm.dbg (fun _ => False) m.wps true dm.state .singlestep s1 := by
      rw [a3.dbg, a3.state]
      exact .single ⟨hh, id, by rw [hc]; exact h0, s1, hst, rfl⟩ (hpath.run hrun) rfl
    rcases singleStep_total ha ht a1 a2 hml hran (by omega) (by rintro ⟨a, h⟩; cases h) with ⟨e, m1, b1, rfl⟩ | ⟨⟨m1, b1⟩, hu⟩
    · obtain ⟨d1, c1, c2, c3, c4, c5, c6, ⟨w0, c7, c8⟩, w1, c9⟩ := singleStep_view ht a1 a2 b1
      have hwd : Watched dm.dbg m.wps := a2.watched a1.good c7
      have hs1 : d1.state = s1 := (c1.unique hran hwd).2
      have hf1 := singleStep_fine ht _ _ _ a1 b1
      have hl1 := live_view c2 c4 c9
      have hA : ∀ b, armed m1 b = if b = d.state.pc + 1 then true else armed n b := fun b => by rw [c3.armed]; exact a6 b
      have hdbg : d1.dbg = d.dbg := by rw [c5 (by simp), a3.dbg]
      have hget : getRegister h "BP".toList m1 = (.ok (d1.state.reg (.int .bp)), m1) := getRegister_total c2 hl1 (bp_shown _)
      rw [Job.bind_eq b1, Job.bind_eq hget]
      rw [← hs1] at hpath hbp hne hna
      have hout : ∀ t : State, ¬ (armed n t.pc = true ∧ t.pc ≠ d.state.pc + 1 ∨ t.pc = d.state.pc + 1 ∧ t.reg (.int .bp) = d1.state.reg (.int .bp)) →
          (fun b => if b = d.state.pc + 1 then true else armed n b) t.pc = true → t.pc = d.state.pc + 1 ∧ t.reg (.int .bp) ≠ d1.state.reg (.int .bp) := by
        intro t ht1 ht2
        by_cases hb : t.pc = d.state.pc + 1
        · exact ⟨hb, fun e => ht1 (.inr ⟨hb, e⟩)⟩
        · simp only [hb, if_false] at ht2
          exact absurd (.inl ⟨ht2, hb⟩) ht1
      have hstart : (fun b => if b = d.state.pc + 1 then true else armed n b) d1.state.pc = true →
          d1.state.pc = d.state.pc + 1 ∧ d1.state.reg (.int .bp) ≠ d1.state.reg (.int .bp) := by
        intro hb
        simp only [hne, if_false] at hb
        rw [hna] at hb
        cases hb
      rcases overLoop_total ha ht (A := fun b => if b = d.state.pc + 1 then true else armed n b) hpc hbp hrun (by simp) hout
        hf1 c2 hdbg (by rw [c6]; rfl) ⟨w1, c9⟩ c4 hA hpath hstart hfuel hw with ⟨e2, m2, q1, _⟩ | ⟨⟨m2, q1⟩, hu⟩
      · obtain ⟨d2, z1, z2, z3, z4, z5, z6, z7, z8, z9⟩ := overLoop_view (ht := ht) (dbg := d.dbg) (s2 := s2)
          (A := fun b => if b = d.state.pc + 1 then true else armed n b) hpc hbp hrun (by simp) hout
          hf1 c2 hdbg (by rw [c6]; rfl) ⟨w1, c9⟩ hA hpath hstart q1
        exact .inr ⟨e2, m2, d2, Job.bind_eq q1, z6, z1, z2, z5, z7, by rw [z8, c3.wps, a5], z9⟩
      · exact .inl ⟨⟨m2, Job.bind_error q1⟩, hu⟩
    · exact .inl ⟨⟨m1, Job.bind_error b1⟩, hu.1⟩
  unfold stepOver
  rw [Job.bind_eq hip, Job.bind_eq h2, Job.bind_eq (x := Job.ofExcept _) (a := (Instr.call o).print h.ftos) (t := n) rfl,
    if_pos ((isCall_print _ _).2 ⟨o, rfl⟩), Job.bind_eq (x := Job.get) (a := n) (t := n) rfl]
  dsimp only
  rw [if_pos rfl]
  cases hex : (n.bps.find (d.state.pc + 1)).isSome with
  | true =>
    simp only [if_true]
    obtain ⟨bp, hbpf⟩ := Option.isSome_iff_exists.1 hex
    have harm : armed n (d.state.pc + 1) = true := by
      unfold armed
      rw [hbpf]
      exact hen bp hbpf
    have hsame : ∀ b, (if b = d.state.pc + 1 then true else armed n b) = armed n b := by
      intro b
      by_cases hb : b = d.state.pc + 1
      · rw [if_pos hb, hb]; exact harm.symm
      · rw [if_neg hb]
    rcases htail n (fun e => getIP h >>= fun ip' => if ip' ≠ d.state.pc + 1 then pure e else pure .singlestep) d hf hv ⟨rfl, rfl, rfl, rfl⟩ hd rfl
      (fun b => (hsame b).symm) with ⟨⟨n', q⟩, hu⟩ | ⟨e1, m2, d2, q, y1, y2, y3, ⟨w, y4⟩, y5, y6, y7⟩
    · exact .inr ⟨⟨n', q⟩, hu⟩
    · refine .inl ⟨.singlestep, m2, q.trans ?_, rfl, by rw [← y3]; exact y2.shows y4 y7, fun b => by rw [y5, hsame], y6⟩
      rw [Job.bind_eq (getIP_total y2 (live_view y2 y7 y4)), if_neg (by rw [y3, hpc]; simp)]
      rfl
  | false =>
    simp only [Bool.false_eq_true, if_false]
    have hnone : n.bps.find (d.state.pc + 1) = none := by
      cases hq : n.bps.find (d.state.pc + 1) with
      | none => rfl
      | some b => rw [hq] at hex; cases hex
    obtain ⟨sv, h5⟩ := setBreakpoint_total hf.good hl hlen hnone
    obtain ⟨dm, k1, k2, k3, k4, k5, k6⟩ := set_view hf.good hv hph h5
    rw [Job.bind_eq h5]
    rcases htail _ (fun e => unsetBreakpoint h (d.state.pc + 1) >>= fun _ => getIP h >>= fun ip' => if ip' ≠ d.state.pc + 1 then pure e else pure .singlestep) dm
      (set_fine ht _ _ _ hf h5) k1 k2 (by rw [k4]; exact hd) k3 k6 with ⟨⟨n', q⟩, hu⟩ | ⟨e1, m2, d2, q, y1, y2, y3, ⟨w, y4⟩, y5, y6, y7⟩
    · exact .inr ⟨⟨n', q⟩, hu⟩
    · have hl2 := live_view y2 y7 y4
      have hfind : ∃ bp, m2.bps.find (d.state.pc + 1) = some bp := by
        have := y5 (d.state.pc + 1)
        rw [if_pos rfl] at this
        unfold armed at this
        cases hq : m2.bps.find (d.state.pc + 1) with
        | none => rw [hq] at this; cases this
        | some b => exact ⟨b, rfl⟩
      obtain ⟨bp, hbpf⟩ := hfind
      obtain ⟨m3, h6, hl3, _⟩ := unset_total ht y1.good hl2 hbpf
      obtain ⟨d3, j1, j2, j3, j4, j5⟩ := unset_view ht y1 y2 y4 h6
      refine .inl ⟨.singlestep, m3, q.trans ?_, rfl, ?_, fun b => ?_, by rw [j3, y6]⟩
      · rw [Job.bind_eq h6, Job.bind_eq (getIP_total j1 hl3), if_neg (by rw [j2.state, y3, hpc]; simp)]
        rfl
      · rw [← y3, ← j2.state]
        exact j1.shows (by rw [j2.phase]; exact y4) (by rw [j4]; exact y7)
      · rw [j5, y5]
        by_cases hb : b = d.state.pc + 1
        · rw [if_pos hb, hb, k5]
        · rw [if_neg hb, if_neg hb]

/-- C73. At any other instruction stepping over is a single step, for which see `C73_step`. -/
theorem C73_over_other (hs : prog.length < 2 ^ 63) (hp : ∀ i ∈ prog, Plain h i) (hset : Setup h.cfg prog data)
    (hx : Careful h c (fun s i => s = i.print h.ftos ∧ Plain h i) prog data inp P n) (hl : n.link.Live) {ip : Word} {i : Instr}
    (hip : getIP h n = (.ok ip, n)) (hi : P[ip.toNat]? = some i) (hc : ∀ o, i ≠ .call o) (fuel : Nat) :
    stepOver h c fuel true n = singleStep h c n := by
  have ht := texts_print h
  obtain ⟨hf, d, hv⟩ := careful_view ht hs hp hset hx
  obtain ⟨r, h2⟩ := readText_total hf.good hl (a := ip) (m := 1) (by
    have : (1 : Word).toNat = 1 := rfl
    have := (List.getElem?_eq_some_iff.1 hi).1
    omega)
  obtain ⟨_, g1, g2, g3⟩ := readText_ok ht hf.good h2
  obtain ⟨l, rfl⟩ := over_first g2 g3 hi
  unfold stepOver
  have hn : ¬ Arch.isCall (i.print h.ftos) = true := fun hh => by
    obtain ⟨o, ho⟩ := (isCall_print _ _).1 hh
    exact hc o ho
  rw [Job.bind_eq hip, Job.bind_eq h2, Job.bind_eq (x := Job.ofExcept _) (a := i.print h.ftos) (t := n) rfl, if_neg hn, if_pos rfl]

end

/-- A program with a call of a function that returns at once. -/
def Sample.brief : List Instr := [.mov (.val (.reg (.gp 0))) (.imm 3), .call (.imm 4), .mov (.val (.reg (.gp 1))) (.imm 4), .halt, .ret]

/-- Non-vacuity: in the session with this program after one step the debuggee is live at the CALL, and the callee returns after one more instruction;
stepping over comes back at the instruction after the call. -/
example :
    Careful Sample.host Sample.client (fun s i => s = i.print Sample.host.ftos ∧ Plain Sample.host i) Sample.brief [] [] Sample.brief
      (Sample.after (Sample.started Sample.brief) [.step]) ∧
    Setup Sample.host.cfg Sample.brief [] ∧ (Sample.after (Sample.started Sample.brief) [.step]).link.Live ∧
    (Native.getIP Sample.host (Sample.after (Sample.started Sample.brief) [.step])).1 = .ok 1 ∧ instrAt Sample.brief 1 = .call (.imm 4) ∧
    (1 + 1 : Word).toNat < Sample.brief.length ∧ Able Sample.host Sample.client ∧ 24 * (1 + 1) ≤ Sample.host.wait ∧
    (∃ s s1 s2, Isa.runs Sample.cfg Sample.brief 1 (Isa.start Sample.cfg [] []) s ∧ s.pc = 1 ∧ s.halted = false ∧
      step Sample.host.cfg Sample.brief s = .ok s1 ∧ stopCode (Sample.after (Sample.started Sample.brief) [.step]).link.vm.cpu.dbg s (.call (.imm 4)) = 0 ∧
      s1.pc ≠ 2 ∧ armed (Sample.after (Sample.started Sample.brief) [.step]) s1.pc = false ∧
      Clear Sample.host.cfg Sample.brief (Sample.after (Sample.started Sample.brief) [.step]).link.vm.cpu.dbg
        (fun t => armed (Sample.after (Sample.started Sample.brief) [.step]) t.pc = true ∧ t.pc ≠ 2 ∨ t.pc = 2 ∧ t.reg (.int .bp) = s1.reg (.int .bp)) 1 s1 s2 ∧
      s2.pc = 2 ∧ s2.reg (.int .bp) = s1.reg (.int .bp) ∧ s2.halted = false) ∧
    (Sample.after (Sample.started Sample.brief) [.step]).bps.find 2 = none ∧
    (Native.stepOver Sample.host Sample.client 1 true (Sample.after (Sample.started Sample.brief) [.step])).1 = .ok .singlestep ∧
    (Native.getIP Sample.host (Sample.after (Sample.started Sample.brief) [.step, .over 1 true])).1 = .ok 2 := by
  have hd : (Sample.after (Sample.started Sample.brief) [.step]).link.vm.cpu.dbg = [0, 0, 0, 0, 0] := by decide +kernel
  have hb : (Sample.after (Sample.started Sample.brief) [.step]).bps = [] := by decide +kernel
  have ha : ∀ a, armed (Sample.after (Sample.started Sample.brief) [.step]) a = false := by
    intro a
    unfold armed
    rw [hb]
    rfl
  refine ⟨Sample.careful (Sample.starts (by decide +kernel)) (by decide) (by decide +kernel), ⟨by decide, by decide, by decide⟩,
    ⟨by decide +kernel, by decide +kernel, by decide +kernel, ⟨.singleStep, by decide +kernel⟩⟩, by decide +kernel, by decide, by decide,
    ⟨by decide, by decide, by decide, by decide, by decide⟩, by decide, ?_, by rw [hb]; rfl, by decide +kernel, by decide +kernel⟩
  rw [hd]
  refine ⟨_, _, _, ⟨rfl, _, rfl, rfl⟩, rfl, rfl, rfl, by decide, by decide, ha _, ⟨rfl, ?_, by decide, _, rfl, rfl⟩, rfl, rfl, rfl⟩
  rintro (⟨h, _⟩ | ⟨h, _⟩)
  · rw [ha] at h; cases h
  · revert h; decide

end T86
