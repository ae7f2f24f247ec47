import Verif.Props.ReturnMet
import Verif.Lemmas.ReturnWatch

/-! # Stepping over comes back, when the callee writes to a watched address (C73) -/

set_option linter.unusedSimpArgs false
set_option linter.unusedVariables false
set_option maxRecDepth 100000

namespace T86
open Dbg Str Native Isa

section
variable {h : Host} {c : Client} {prog P : List Instr} {data : List Word} {inp : List (BitVec 8)} {n : Native}

/-- C73. Stepping over a call comes back when the callee writes to a watched address. Let the current instruction be CALL, executed in state `s`
with result `s1`, and let the program come to `u` after `k` more instructions, without a write to a watched address and without coming to a
breakpoint or back on the way. In `u`, which is neither at a breakpoint nor at the instruction after the call, it writes to the watched address
`a`, with result `v`. Then the debugger comes back in `v`, if it is patient enough, and reports the write to `a`; only if this write has brought
the program to the instruction after the call it reports the end of a step. The breakpoints are as they were: the one the debugger put after the
call is gone. No breakpoint is on a BKPT, nor is there one after the call. -/
theorem C73_over_watch (hs : prog.length < 2 ^ 63) (hp : ∀ i ∈ prog, Plain h i) (hset : Setup h.cfg prog data)
    (hx : Careful h c (fun s i => s = i.print h.ftos ∧ Plain h i) prog data inp P n) (hl : n.link.Live) (ha : Able h c) (hkempt : Kempt n) {ip : Word}
    (hip : getIP h n = (.ok ip, n)) {o : Operand} (hc : instrAt P ip = .call o) (hlen : (ip + 1).toNat < P.length) :
    ∃ s, Native.Shows h n s ∧ s.pc = ip ∧ ∀ (s1 u v : State) (a : Word) (k fuel : Nat), s.halted = false →
      step h.cfg P s = .ok s1 → stopCode n.link.vm.cpu.dbg s (.call o) = 0 → s1.halted = false → s1.pc ≠ ip + 1 → armed n s1.pc = false →
      Clear h.cfg P n.link.vm.cpu.dbg (fun t => armed n t.pc = true ∧ t.pc ≠ ip + 1 ∨ t.pc = ip + 1 ∧ t.reg (.int .bp) = s1.reg (.int .bp)) k s1 u →
      u.halted = false → armed n u.pc = false → u.pc ≠ ip + 1 → writeAddr u (instrAt P u.pc) = some a → (n.wps.find a).isSome = true →
      step h.cfg P u = .ok v → v.halted = false →
      (∀ a, armed n a = true → instrAt P a ≠ .bkpt) → instrAt P (ip + 1) ≠ .bkpt →
      (∀ bp, n.bps.find (ip + 1) = some bp → bp.enabled = true) → k < fuel → 24 * (k + 1) ≤ h.wait →
      Returns (UbPossible h.cfg P) (stepOver h c fuel true n) fun e n' =>
        e = (if v.pc = ip + 1 then .singlestep else .watchpoint a) ∧
        Native.Shows h n' v ∧ (∀ a, armed n' a = armed n a) ∧ n'.wps = n.wps := by
  have ht := texts_print h
  obtain ⟨hf, d, hv⟩ := careful_view ht hs hp hset hx
  obtain ⟨_, ⟨why, hph⟩, hd, rfl⟩ := getIP_view hv hip
  refine ⟨d.state, hv.shows hph hd, rfl, ?_⟩
  rw [dbg_view hv hph]
  intro s1 u v wa k fuel hh hst h0 hh1 hne hna hpath hur hua hup hwr hwf hsv hvr hnb hnr hen hfuel hw
  have hat := instrAt_call hc
  have hlt : d.state.pc.toNat < P.length := (List.getElem?_eq_some_iff.1 hat).1
  obtain ⟨r, h2⟩ := readText_total hf.good hl (a := d.state.pc) (m := 1) (by
    have : (1 : Word).toNat = 1 := rfl
    omega)
  obtain ⟨_, g1, g2, g3⟩ := readText_ok ht hf.good h2
  obtain ⟨l, rfl⟩ := over_first g2 g3 hat
  have htail : ∀ (m : Native) (K : Event → N Event) (dm : Dbg), Native.Fine h (fun s i => s = i.print h.ftos ∧ Plain h i) P m → View h m dm →
      Patched d dm → m.link.dead = false → m.wps = n.wps → (∀ b, armed m b = if b = d.state.pc + 1 then true else armed n b) →
      ((∃ n', (singleStep h c >>= fun _ => getRegister h "BP".toList >>= fun bp => overLoop h c d.state.pc bp fuel >>= K) m = (.error .ub, n')) ∧
        UbPossible h.cfg P) ∨
      ∃ m2 d2, (singleStep h c >>= fun _ => getRegister h "BP".toList >>= fun bp => overLoop h c d.state.pc bp fuel >>= K) m = K (.watchpoint wa) m2 ∧
        Native.Fine h (fun s i => s = i.print h.ftos ∧ Plain h i) P m2 ∧ View h m2 d2 ∧ d2.state = v ∧
        (∃ why, d2.phase = .stopped why) ∧ (∀ b, armed m2 b = if b = d.state.pc + 1 then true else armed n b) ∧ m2.wps = n.wps ∧
        m2.link.dead = false := by
    intro m K dm a1 a2 a3 a4 a5 a6
    have hml : m.link.Live := live_view a2 a4 (by rw [a3.phase]; exact hph)
    have hran : Ran h.cfg P dm.dbg (fun _ => False) m.wps true dm.state .singlestep s1 := by
      rw [a3.dbg, a3.state]
      exact .single ⟨hh, id, by rw [hc]; exact h0, s1, hst, rfl⟩ hh1 rfl
    rcases singleStep_total ha ht a1 a2 hml hran (by omega) (by rintro ⟨a, h⟩; cases h) with ⟨e, m1, b1, rfl⟩ | ⟨⟨m1, b1⟩, hub⟩
    · obtain ⟨d1, c1, c2, c3, c4, c5, c6, ⟨w0, c7, c8⟩, w1, c9⟩ := singleStep_view ht a1 a2 b1
      have hwd : Watched dm.dbg m.wps := a2.watched a1.good c7
      have hs1 : d1.state = s1 := (c1.unique hran hwd).2
      have hf1 := singleStep_fine ht _ _ _ a1 b1
      have hl1 := live_view c2 c4 c9
      have hA : ∀ b, armed m1 b = if b = d.state.pc + 1 then true else armed n b := fun b => by rw [c3.armed]; exact a6 b
      have hdbg : d1.dbg = d.dbg := by rw [c5 (by simp), a3.dbg]
      have hget : getRegister h "BP".toList m1 = (.ok (d1.state.reg (.int .bp)), m1) := getRegister_total c2 hl1 (bp_shown _)
      rw [Job.bind_eq b1, Job.bind_eq hget]
      rw [← hs1] at hpath hne hna hh1
      have hout : ∀ t : State, ¬ (armed n t.pc = true ∧ t.pc ≠ d.state.pc + 1 ∨ t.pc = d.state.pc + 1 ∧ t.reg (.int .bp) = d1.state.reg (.int .bp)) →
          (fun b => if b = d.state.pc + 1 then true else armed n b) t.pc = true → t.pc = d.state.pc + 1 ∧ t.reg (.int .bp) ≠ d1.state.reg (.int .bp) := by
        intro t ht1 ht2
        by_cases hb : t.pc = d.state.pc + 1
        · exact ⟨hb, fun e => ht1 (.inr ⟨hb, e⟩)⟩
        · simp only [hb, if_false] at ht2
          exact absurd (.inl ⟨ht2, hb⟩) ht1
      have hns : ¬ (armed n d1.state.pc = true ∧ d1.state.pc ≠ d.state.pc + 1 ∨
          d1.state.pc = d.state.pc + 1 ∧ d1.state.reg (.int .bp) = d1.state.reg (.int .bp)) := by
        rintro (⟨q, _⟩ | ⟨q, _⟩)
        · rw [hna] at q; cases q
        · exact hne q
      have hsub : ∀ t : State, (armed n t.pc = true ∧ t.pc ≠ d.state.pc + 1 ∨ t.pc = d.state.pc + 1 ∧ t.reg (.int .bp) = d1.state.reg (.int .bp)) →
          (fun b => if b = d.state.pc + 1 then true else armed n b) t.pc = true := by
        rintro t (⟨q, q'⟩ | ⟨q, _⟩)
        · simp only [q', if_false, q]
        · simp only [q, if_true]
      have hnb' : ∀ a, (fun b => if b = d.state.pc + 1 then true else armed n b) a = true → instrAt P a ≠ .bkpt := by
        intro a hA
        by_cases hb : a = d.state.pc + 1
        · rw [hb]; exact hnr
        · simp only [hb, if_false] at hA
          exact hnb a hA
      rcases overLoop_watch ha ht (P := P) (u := u) (v := v) (a := wa) (wps := n.wps) (A := fun b => if b = d.state.pc + 1 then true else armed n b)
        (stop' := fun t => armed n t.pc = true ∧ t.pc ≠ d.state.pc + 1 ∨ t.pc = d.state.pc + 1 ∧ t.reg (.int .bp) = d1.state.reg (.int .bp)) hur
        (by rintro (⟨q, _⟩ | ⟨q, _⟩)
            · rw [hua] at q; cases q
            · exact hup q) hup hwr hwf hsv hvr hsub hout hnb'
        hf1 c2 hdbg (by rw [c6]; rfl) ⟨w1, c9⟩ c4 hA (c3.wps.trans a5) (kempt_view hv c2 hl hl1 hdbg (c3.wps.trans a5) hkempt) hpath hns hh1 hfuel hw with
        ⟨e2, m2, q1, rfl, d2, z1, z6, z2, z5, z9, z7, z8⟩ | ⟨⟨m2, q1⟩, hu'⟩
      · exact .inr ⟨m2, d2, Job.bind_eq q1, z6, z1, z2, z5, z7, z8, z9⟩
      · exact .inl ⟨⟨m2, Job.bind_error q1⟩, hu'⟩
    · exact .inl ⟨⟨m1, Job.bind_error b1⟩, hub.1⟩
  unfold stepOver
  rw [Job.bind_eq hip, Job.bind_eq h2, Job.bind_eq (x := Job.ofExcept _) (a := (Instr.call o).print h.ftos) (t := n) rfl,
    if_pos ((isCall_print _ _).2 ⟨o, rfl⟩), Job.bind_eq (x := Job.get) (a := n) (t := n) rfl]
  dsimp only
  rw [if_pos rfl]
  cases hex : (n.bps.find (d.state.pc + 1)).isSome with
  | true =>
    simp only [if_true]
    obtain ⟨bp, hbpf⟩ := Option.isSome_iff_exists.1 hex
    have harm : armed n (d.state.pc + 1) = true := by
      unfold armed
      rw [hbpf]
      exact hen bp hbpf
    have hsame : ∀ b, (if b = d.state.pc + 1 then true else armed n b) = armed n b := by
      intro b
      by_cases hb : b = d.state.pc + 1
      · rw [if_pos hb, hb]; exact harm.symm
      · rw [if_neg hb]
    rcases htail n (fun e => getIP h >>= fun ip' => if ip' ≠ d.state.pc + 1 then pure e else pure .singlestep) d hf hv ⟨rfl, rfl, rfl, rfl⟩ hd rfl
      (fun b => (hsame b).symm) with ⟨⟨n', q⟩, hub⟩ | ⟨m2, d2, q, y1, y2, y3, ⟨w, y4⟩, y5, y6, y7⟩
    · exact .inr ⟨⟨n', q⟩, hub⟩
    · refine .inl ⟨if v.pc = d.state.pc + 1 then .singlestep else (.watchpoint wa), m2, q.trans ?_, rfl, by rw [← y3]; exact y2.shows y4 y7, fun b => by rw [y5, hsame], y6⟩
      rw [Job.bind_eq (getIP_total y2 (live_view y2 y7 y4)), y3]
      by_cases hq : v.pc = d.state.pc + 1
      · rw [if_neg (by simp [hq]), if_pos hq]; rfl
      · rw [if_pos hq, if_neg hq]; rfl
  | false =>
    simp only [Bool.false_eq_true, if_false]
    have hnone : n.bps.find (d.state.pc + 1) = none := by
      cases hq : n.bps.find (d.state.pc + 1) with
      | none => rfl
      | some b => rw [hq] at hex; cases hex
    obtain ⟨sv, h5⟩ := setBreakpoint_total hf.good hl hlen hnone
    obtain ⟨dm, k1, k2, k3, k4, k5, k6⟩ := set_view hf.good hv hph h5
    rw [Job.bind_eq h5]
    rcases htail _ (fun e => unsetBreakpoint h (d.state.pc + 1) >>= fun _ => getIP h >>= fun ip' => if ip' ≠ d.state.pc + 1 then pure e else pure .singlestep) dm
      (set_fine ht _ _ _ hf h5) k1 k2 (by rw [k4]; exact hd) k3 k6 with ⟨⟨n', q⟩, hub⟩ | ⟨m2, d2, q, y1, y2, y3, ⟨w, y4⟩, y5, y6, y7⟩
    · exact .inr ⟨⟨n', q⟩, hub⟩
    · have hl2 := live_view y2 y7 y4
      have hfind : ∃ bp, m2.bps.find (d.state.pc + 1) = some bp := by
        have := y5 (d.state.pc + 1)
        rw [if_pos rfl] at this
        unfold armed at this
        cases hq : m2.bps.find (d.state.pc + 1) with
        | none => rw [hq] at this; cases this
        | some b => exact ⟨b, rfl⟩
      obtain ⟨bp, hbpf⟩ := hfind
      obtain ⟨m3, h6, hl3, _⟩ := unset_total ht y1.good hl2 hbpf
      obtain ⟨d3, j1, j2, j3, j4, j5⟩ := unset_view ht y1 y2 y4 h6
      refine .inl ⟨if v.pc = d.state.pc + 1 then .singlestep else (.watchpoint wa), m3, q.trans ?_, rfl, ?_, fun b => ?_, by rw [j3, y6]⟩
      · rw [Job.bind_eq h6, Job.bind_eq (getIP_total j1 hl3), j2.state, y3]
        by_cases hq : v.pc = d.state.pc + 1
        · rw [if_neg (by simp [hq]), if_pos hq]; rfl
        · rw [if_pos hq, if_neg hq]; rfl
      · rw [← y3, ← j2.state]
        exact j1.shows (by rw [j2.phase]; exact y4) (by rw [j4]; exact y7)
      · rw [j5, y5]
        by_cases hb : b = d.state.pc + 1
        · rw [if_pos hb, hb, k5]
        · rw [if_neg hb, if_neg hb]

end

/-- A program with a call of a function that stores a number. -/
def Sample.stores : List Instr :=
  [.mov (.val (.reg (.gp 0))) (.imm 3), .call (.imm 4), .mov (.val (.reg (.gp 1))) (.imm 4), .halt, .mov (.val (.reg (.gp 2))) (.imm 5),
   .mov (.memImm 8) (.val (.reg (.gp 2))), .ret]

/-- Non-vacuity: in the session with this program, with the address 8 watched, the debuggee is live at the CALL after one step, and the second
instruction of the callee writes to 8; stepping over comes back after it. -/
example :
    Careful Sample.host Sample.client (fun s i => s = i.print Sample.host.ftos ∧ Plain Sample.host i) Sample.stores [] [] Sample.stores
      (Sample.after (Sample.started Sample.stores) [.watch 8, .step]) ∧
    Setup Sample.host.cfg Sample.stores [] ∧ (Sample.after (Sample.started Sample.stores) [.watch 8, .step]).link.Live ∧ Kempt (Sample.after (Sample.started Sample.stores) [.watch 8, .step]) ∧
    (Native.getIP Sample.host (Sample.after (Sample.started Sample.stores) [.watch 8, .step])).1 = .ok 1 ∧ instrAt Sample.stores 1 = .call (.imm 4) ∧
    (1 + 1 : Word).toNat < Sample.stores.length ∧ Able Sample.host Sample.client ∧ 24 * (1 + 1) ≤ Sample.host.wait ∧
    (∃ s s1 u v, Isa.runs Sample.cfg Sample.stores 1 (Isa.start Sample.cfg [] []) s ∧ s.pc = 1 ∧ s.halted = false ∧
      step Sample.host.cfg Sample.stores s = .ok s1 ∧ stopCode (Sample.after (Sample.started Sample.stores) [.watch 8, .step]).link.vm.cpu.dbg s (.call (.imm 4)) = 0 ∧
      s1.halted = false ∧ s1.pc ≠ 2 ∧ armed (Sample.after (Sample.started Sample.stores) [.watch 8, .step]) s1.pc = false ∧
      Clear Sample.host.cfg Sample.stores (Sample.after (Sample.started Sample.stores) [.watch 8, .step]).link.vm.cpu.dbg
        (fun t => armed (Sample.after (Sample.started Sample.stores) [.watch 8, .step]) t.pc = true ∧ t.pc ≠ 2 ∨ t.pc = 2 ∧ t.reg (.int .bp) = s1.reg (.int .bp)) 1 s1 u ∧
      u.halted = false ∧ armed (Sample.after (Sample.started Sample.stores) [.watch 8, .step]) u.pc = false ∧ u.pc ≠ 2 ∧ writeAddr u (instrAt Sample.stores u.pc) = some 8 ∧
      ((Sample.after (Sample.started Sample.stores) [.watch 8, .step]).wps.find 8).isSome = true ∧ step Sample.host.cfg Sample.stores u = .ok v ∧ v.halted = false ∧ v.pc = 6) ∧
    (∀ a, armed (Sample.after (Sample.started Sample.stores) [.watch 8, .step]) a = true → instrAt Sample.stores a ≠ .bkpt) ∧
    instrAt Sample.stores 2 ≠ .bkpt ∧ (Sample.after (Sample.started Sample.stores) [.watch 8, .step]).bps.find 2 = none ∧
    (Native.stepOver Sample.host Sample.client 2 true (Sample.after (Sample.started Sample.stores) [.watch 8, .step])).1 = .ok (.watchpoint 8) ∧
    (Native.getIP Sample.host (Sample.after (Sample.started Sample.stores) [.watch 8, .step, .over 2 true])).1 = .ok 6 := by
  have hd : (Sample.after (Sample.started Sample.stores) [.watch 8, .step]).link.vm.cpu.dbg = [8, 0, 0, 0, 1] := by decide +kernel
  have hw : (Sample.after (Sample.started Sample.stores) [.watch 8, .step]).wps = [(8, 0)] := by decide +kernel
  have hb : (Sample.after (Sample.started Sample.stores) [.watch 8, .step]).bps = [] := by decide +kernel
  have ha : ∀ a, armed (Sample.after (Sample.started Sample.stores) [.watch 8, .step]) a = false := by
    intro a
    unfold armed
    rw [hb]
    rfl
  refine ⟨Sample.careful (Sample.starts (by decide +kernel)) (by decide) (by decide +kernel), ⟨by decide, by decide, by decide⟩,
    ⟨by decide +kernel, by decide +kernel, by decide +kernel, ⟨.singleStep, by decide +kernel⟩⟩, ?_, by decide +kernel, by decide, by decide,
    ⟨by decide, by decide, by decide, by decide, by decide⟩, by decide, ?_, ?_, by decide, by rw [hb]; rfl, by decide +kernel, by decide +kernel⟩
  · unfold Kempt
    rw [hd, hw]
    decide
  · rw [hd, hw]
    refine ⟨_, _, _, _, ⟨rfl, _, rfl, rfl⟩, rfl, rfl, rfl, by decide, rfl, by decide, ha _, ⟨rfl, ?_, by decide, _, rfl, rfl⟩, rfl, ha _, by decide, rfl,
      by decide, rfl, rfl, by decide⟩
    rintro (⟨h, _⟩ | ⟨h, _⟩)
    · rw [ha] at h; cases h
    · revert h; decide
  · intro a h
    rw [ha] at h; cases h

end T86
