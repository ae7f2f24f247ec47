import Verif.Spec.ReturnWrites
import Verif.Lemmas.ReturnLine

/-! # Stepping out and over lines comes back when a watched address is written -/

set_option linter.unusedSimpArgs false
set_option linter.unusedVariables false
set_option maxRecDepth 100000

namespace T86
open Dbg Str Native Isa

variable {h : Host} {c : Client} {P : List Instr}

/-- Stepping over an instruction comes back when a watched address is written. -/
theorem over_write_total (ha : Able h c) {n : Native} {d : Dbg} {v : State} {wa : Word} {k fuel : Nat} {skip : Bool}
    (hf : Native.Fine h (fun s i => s = i.print h.ftos ∧ Plain h i) P n) (hv : View h n d) {why : Reason} (hph : d.phase = .stopped why)
    (hl : n.link.Live) (hk : Kempt n) (hwf : (n.wps.find wa).isSome = true)
    (hp : WritesIn h.cfg P d.dbg (fun a => armed n a = true) k d.state wa v) (htrap : skip = false → d.trap = false)
    (hfree : skip = false → armed n d.state.pc = false) (hall : Dom (armed n) n) (hnb : ∀ a, armed n a = true → instrAt P a ≠ .bkpt) (hfuel : k + 2 ≤ fuel) (hw : 24 * (k + 2) ≤ h.wait) :
    Native.Returns (UbPossible h.cfg P) (Native.stepOver h c fuel skip n) fun e n' =>
      e = .watchpoint wa ∧ Ended h (armed n) n.wps n' v := by
  have ht := texts_print h
  have hd : n.link.dead = false := hl.alive
  obtain ⟨hlt, hp⟩ := hp
  have hat := List.getElem?_eq_getElem hlt
  obtain ⟨r, h2⟩ := readText_total hf.good hl (a := d.state.pc) (m := 1) (by
    have : (1 : Word).toNat = 1 := rfl
    omega)
  obtain ⟨_, g1, g2, g3⟩ := readText_ok ht hf.good h2
  obtain ⟨l, rfl⟩ := over_first g2 g3 hat
  unfold Native.stepOver
  rw [Job.bind_eq (getIP_total hv hl), Job.bind_eq h2, Job.bind_eq (x := Job.ofExcept _) (a := P[d.state.pc.toNat].print h.ftos) (t := n) rfl]
  rcases hp with ⟨o, s1, u, j, hj, hlen, hc, h0, hh, hst, hh1, hne, hna, hnr, hpath, hur, hua, hup, hwr, hsv, hvr, hvp⟩ | ⟨hc, hrun, hwr, hsv, hvr⟩
  · have hcall : P[d.state.pc.toNat] = .call o := by rw [← hc, instrAt_some hat]
    have hna : armed n s1.pc = false := by simpa using hna
    have hbp1 := call_bp hst hc
    have hpc1 : d.state.pc ≠ d.state.pc + 1 := by
      intro e
      have := congrArg BitVec.toNat e
      simp [BitVec.toNat_add] at this
      omega
    rw [hcall, if_pos ((isCall_print _ _).2 ⟨o, rfl⟩), Job.bind_eq (x := Job.get) (a := n) (t := n) rfl]
    dsimp only
    have hout : ∀ t : State, ¬ (armed n t.pc = true ∧ t.pc ≠ d.state.pc + 1 ∨ t.pc = d.state.pc + 1 ∧ t.reg (.int .bp) = d.state.reg (.int .bp)) →
        (fun b => if b = d.state.pc + 1 then true else armed n b) t.pc = true → t.pc = d.state.pc + 1 ∧ t.reg (.int .bp) ≠ d.state.reg (.int .bp) := by
      intro t ht1 ht2
      by_cases hb : t.pc = d.state.pc + 1
      · exact ⟨hb, fun e => ht1 (.inr ⟨hb, e⟩)⟩
      · simp only [hb, if_false] at ht2
        exact absurd (.inl ⟨ht2, hb⟩) ht1
    have hloop : ∀ {m : Native} {K : Event → N Event} {dm : Dbg} {i : Nat}, Native.Fine h (fun s i => s = i.print h.ftos ∧ Plain h i) P m → View h m dm →
        dm.dbg = d.dbg → dm.trap = false → (∃ why, dm.phase = .stopped why) → m.link.Live → m.wps = n.wps →
        (∀ b, armed m b = if b = d.state.pc + 1 then true else armed n b) →
        Clear h.cfg P d.dbg (fun t => armed n t.pc = true ∧ t.pc ≠ d.state.pc + 1 ∨ t.pc = d.state.pc + 1 ∧ t.reg (.int .bp) = d.state.reg (.int .bp)) i dm.state u →
        dm.state.reg (.int .bp) = d.state.reg (.int .bp) → armed n dm.state.pc = false → dm.state.pc ≠ d.state.pc + 1 → dm.state.halted = false → i ≤ k + 1 →
        ((∃ n', (getRegister h "BP".toList >>= fun bp => overLoop h c d.state.pc bp fuel >>= K) m = (.error .ub, n')) ∧ UbPossible h.cfg P) ∨
        ∃ m2 d2, (getRegister h "BP".toList >>= fun bp => overLoop h c d.state.pc bp fuel >>= K) m = K (.watchpoint wa) m2 ∧
          Native.Fine h (fun s i => s = i.print h.ftos ∧ Plain h i) P m2 ∧ View h m2 d2 ∧ d2.state = v ∧ m2.wps = m.wps ∧ (∃ why, d2.phase = .stopped why) ∧
          (∀ b, armed m2 b = if b = d.state.pc + 1 then true else armed n b) ∧ m2.link.dead = false := by
      intro m K dm i w1 w2 w3 w4 w5 w6 w6' w7 w8 w9 w10 w11 w12 hi
      have hget : getRegister h "BP".toList m = (.ok (dm.state.reg (.int .bp)), m) := getRegister_total w2 w6 (bp_shown _)
      rw [Job.bind_eq hget, w9]
      have hns : ¬ (armed n dm.state.pc = true ∧ dm.state.pc ≠ d.state.pc + 1 ∨
          dm.state.pc = d.state.pc + 1 ∧ dm.state.reg (.int .bp) = d.state.reg (.int .bp)) := by
        rintro (⟨q, _⟩ | ⟨q, _⟩)
        · rw [w10] at q; cases q
        · exact w11 q
      have hsub : ∀ t : State, (armed n t.pc = true ∧ t.pc ≠ d.state.pc + 1 ∨ t.pc = d.state.pc + 1 ∧ t.reg (.int .bp) = d.state.reg (.int .bp)) →
          (fun b => if b = d.state.pc + 1 then true else armed n b) t.pc = true := by
        rintro t (⟨q, q'⟩ | ⟨q, _⟩)
        · simp only [q', if_false, q]
        · simp only [q, if_true]
      have hnb' : ∀ a, (fun b => if b = d.state.pc + 1 then true else armed n b) a = true → instrAt P a ≠ .bkpt := by
        intro a hA
        by_cases hb : a = d.state.pc + 1
        · rw [hb]; exact hnr
        · simp only [hb, if_false] at hA
          exact hnb a hA
      rcases overLoop_watch ha ht (P := P) (u := u) (v := v) (a := wa) (wps := n.wps) (A := fun b => if b = d.state.pc + 1 then true else armed n b)
        (stop' := fun t => armed n t.pc = true ∧ t.pc ≠ d.state.pc + 1 ∨ t.pc = d.state.pc + 1 ∧ t.reg (.int .bp) = d.state.reg (.int .bp)) hur
        (by rintro (⟨q, _⟩ | ⟨q, _⟩)
            · exact hua q
            · exact hup q) hup hwr hwf hsv hvr hsub hout hnb'
        w1 w2 w3 w4 w5 w6.alive w7 w6' (kempt_view hv w2 hl w6 w3 w6' hk) w8 hns w12 (show i + 1 ≤ fuel by omega) (by omega) with
        ⟨e2, m2, q1, rfl, d2, z1, z6, z2, z5, z9, z7, z8⟩ | ⟨⟨m2, q1⟩, hu'⟩
      · exact .inr ⟨m2, d2, Job.bind_eq q1, z6, z1, z2, by rw [z8, w6'], z5, z7, z9⟩
      · exact .inl ⟨⟨m2, Job.bind_error q1⟩, hu'⟩
    have htail : ∀ (m : Native) (K : Event → N Event) (dm : Dbg), Native.Fine h (fun s i => s = i.print h.ftos ∧ Plain h i) P m → View h m dm →
        Patched d dm → m.link.dead = false → m.wps = n.wps → (∀ b, armed m b = if b = d.state.pc + 1 then true else armed n b) →
        ((∃ n', (if skip = true then singleStep h c >>= fun _ => getRegister h "BP".toList >>= fun bp => overLoop h c d.state.pc bp fuel >>= K
          else getRegister h "BP".toList >>= fun bp => overLoop h c d.state.pc bp fuel >>= K) m = (.error .ub, n')) ∧ UbPossible h.cfg P) ∨
        ∃ m2 d2, (if skip = true then singleStep h c >>= fun _ => getRegister h "BP".toList >>= fun bp => overLoop h c d.state.pc bp fuel >>= K
          else getRegister h "BP".toList >>= fun bp => overLoop h c d.state.pc bp fuel >>= K) m = K (.watchpoint wa) m2 ∧
          Native.Fine h (fun s i => s = i.print h.ftos ∧ Plain h i) P m2 ∧ View h m2 d2 ∧ d2.state = v ∧ m2.wps = m.wps ∧ (∃ why, d2.phase = .stopped why) ∧
          (∀ b, armed m2 b = if b = d.state.pc + 1 then true else armed n b) ∧ m2.link.dead = false := by
      intro m K dm a1 a2 a3 a4 a5 a6
      have hml : m.link.Live := live_view a2 a4 (by rw [a3.phase]; exact hph)
      cases skip with
      | true =>
        simp only [if_true]
        have hran : Ran h.cfg P dm.dbg (fun _ => False) m.wps true dm.state .singlestep s1 := by
          rw [a3.dbg, a3.state]
          exact .single ⟨hh, id, by rw [hc]; exact h0, s1, hst, rfl⟩ hh1 rfl
        rcases singleStep_total ha ht a1 a2 hml hran (by omega) (by rintro ⟨a, h⟩; cases h) with ⟨e, m1, b1, rfl⟩ | ⟨⟨m1, b1⟩, hub⟩
        · obtain ⟨d1, c1, c2, c3, c4, c5, c6, ⟨w0, c7, c8⟩, w1, c9⟩ := singleStep_view ht a1 a2 b1
          have hwd : Watched dm.dbg m.wps := a2.watched a1.good c7
          have hs1 : d1.state = s1 := (c1.unique hran hwd).2
          have hf1 := singleStep_fine ht _ _ _ a1 b1
          rw [Job.bind_eq b1]
          rcases hloop (K := K) hf1 c2 (by rw [c5 (by simp), a3.dbg]) (by rw [c6]; rfl) ⟨w1, c9⟩ (live_view c2 c4 c9) (c3.wps.trans a5)
            (fun b => by rw [c3.armed]; exact a6 b) (by rw [hs1]; exact hpath) (by rw [hs1]; exact hbp1)
            (by rw [hs1]; exact hna) (by rw [hs1]; exact hne) (by rw [hs1]; exact hh1) (by omega) with q | ⟨m2, d2, q1, q2, q3, q4, q5, q6⟩
          · exact .inl q
          · exact .inr ⟨m2, d2, q1, q2, q3, q4, by rw [q5, c3.wps], q6⟩
        · exact .inl ⟨⟨m1, Job.bind_error b1⟩, hub.1⟩
      | false =>
        simp only [Bool.false_eq_true, if_false]
        refine hloop (i := j + 1) a1 a2 a3.dbg (by rw [a3.trap]; exact htrap rfl) ⟨why, by rw [a3.phase]; exact hph⟩ hml a5 a6 ?_
          (by rw [a3.state]) (by rw [a3.state]; exact hfree rfl) (by rw [a3.state]; exact hpc1) (by rw [a3.state]; exact hh) (by omega)
        rw [a3.state]
        refine ⟨hh, ?_, by rw [hc]; exact h0, s1, hst, hpath⟩
        rintro (⟨x, _⟩ | ⟨x, _⟩)
        · rw [hfree rfl] at x
          cases x
        · exact hpc1 x
    cases hex : (n.bps.find (d.state.pc + 1)).isSome with
    | true =>
      simp only [if_true]
      obtain ⟨bp, hbpf⟩ := Option.isSome_iff_exists.1 hex
      have harm : armed n (d.state.pc + 1) = true := by
        have := hall (d.state.pc + 1)
        rw [← this]
        exact hex
      have hsame : ∀ b, armed n b = if b = d.state.pc + 1 then true else armed n b := by
        intro b
        by_cases hb : b = d.state.pc + 1
        · rw [if_pos hb, hb]; exact harm
        · rw [if_neg hb]
      rcases htail n (fun e => getIP h >>= fun ip' => if ip' ≠ d.state.pc + 1 then pure e else pure .singlestep) d hf hv ⟨rfl, rfl, rfl, rfl⟩ hd rfl
        hsame with ⟨⟨n', q⟩, hub⟩ | ⟨m2, d2, q, y1, y2, y3, y6, ⟨w, y4⟩, y5, y7⟩
      · refine .inr ⟨⟨n', Eq.trans ?_ q⟩, hub⟩
        cases skip <;> rfl
      · refine .inl ⟨.watchpoint wa, m2, Eq.trans ?_ (q.trans ?_), rfl, ⟨d2, y2, y3, w, y4⟩, y7, fun b => by rw [y5]; exact (hsame b).symm, y6⟩
        · cases skip <;> rfl
        · rw [Job.bind_eq (getIP_total y2 (live_view y2 y7 y4)), y3, if_pos hvp]
          rfl
    | false =>
      simp only [Bool.false_eq_true, if_false]
      have hnone : n.bps.find (d.state.pc + 1) = none := by
        cases hq : n.bps.find (d.state.pc + 1) with
        | none => rfl
        | some b => rw [hq] at hex; cases hex
      obtain ⟨sv, h5⟩ := setBreakpoint_total hf.good hl hlen hnone
      obtain ⟨dm, k1, k2, k3, k4, k5, k6⟩ := set_view hf.good hv hph h5
      rw [Job.bind_eq h5]
      rcases htail _ (fun e => unsetBreakpoint h (d.state.pc + 1) >>= fun _ => getIP h >>= fun ip' => if ip' ≠ d.state.pc + 1 then pure e else pure .singlestep) dm
        (set_fine ht _ _ _ hf h5) k1 k2 (by rw [k4]; exact hd) k3 k6 with ⟨⟨n', q⟩, hub⟩ | ⟨m2, d2, q, y1, y2, y3, y6, ⟨w, y4⟩, y5, y7⟩
      · refine .inr ⟨⟨n', Eq.trans ?_ q⟩, hub⟩
        cases skip <;> rfl
      · have hl2 := live_view y2 y7 y4
        have hfind : ∃ bp, m2.bps.find (d.state.pc + 1) = some bp := by
          have := y5 (d.state.pc + 1)
          rw [if_pos rfl] at this
          unfold armed at this
          cases hq : m2.bps.find (d.state.pc + 1) with
          | none => rw [hq] at this; cases this
          | some b => exact ⟨b, rfl⟩
        obtain ⟨bp, hbpf⟩ := hfind
        obtain ⟨m3, h6, hl3, _⟩ := unset_total ht y1.good hl2 hbpf
        obtain ⟨d3, j1, j2, j3, j4, j5⟩ := unset_view ht y1 y2 y4 h6
        refine .inl ⟨.watchpoint wa, m3, Eq.trans ?_ (q.trans ?_), rfl, ⟨d3, j1, by rw [j2.state, y3], w, by rw [j2.phase]; exact y4⟩, by rw [j4]; exact y7, fun b => ?_, by rw [j3, y6, k3]⟩
        · cases skip <;> rfl
        · rw [Job.bind_eq h6, Job.bind_eq (getIP_total j1 hl3), j2.state, y3, if_pos hvp]
          rfl
        · rw [j5, y5]
          by_cases hb : b = d.state.pc + 1
          · rw [if_pos hb, hb, k5]
          · rw [if_neg hb, if_neg hb]
  · have hn : ¬ Arch.isCall (P[d.state.pc.toNat].print h.ftos) = true := by
      rw [isCall_print]
      rintro ⟨o, ho⟩
      exact hc o (by rw [instrAt_some hat, ho])
    rw [if_neg hn]
    have hran : Ran h.cfg P d.dbg (fun _ => False) n.wps true d.state (.watchpoint wa) v := .watch (k := 0) rfl hrun id hwr hwf hsv hvr (fun _ => rfl)
    have hwd : Watched d.dbg n.wps := hv.watched hf.good hph
    cases skip with
    | true =>
      simp only [if_true]
      rcases singleStep_total ha ht hf hv hl hran (by omega) (fun _ => hk) with ⟨e, m1, b1, rfl⟩ | ⟨b1, hu⟩
      · obtain ⟨d1, c1, c2, c3, c4, _, _, _, w1, c9⟩ := singleStep_view ht hf hv b1
        exact .inl ⟨_, m1, b1, rfl, ⟨d1, c2, (c1.unique hran hwd).2, w1, c9⟩, c4, c3.armed, c3.wps⟩
      · exact .inr ⟨b1, hu.1⟩
    | false =>
      simp only [Bool.false_eq_true, if_false]
      rcases rawStep_total ha hf hv hl (hfree rfl) hran (by omega) (fun _ => hk) with ⟨e, m1, b1, rfl⟩ | ⟨b1, hu⟩
      · obtain ⟨d1, c1, c2, c3, c4, _, _, _, w1, c9⟩ := rawStep_view hf.good hv b1
        have hran' : Ran h.cfg P d.dbg (stops n) n.wps true d.state (.watchpoint wa) v := hran.among (by unfold stops; rw [hfree rfl]; simp)
        exact .inl ⟨_, m1, b1, rfl, ⟨d1, c2, (c1.unique hran' hwd).2, w1, c9⟩, c4, fun a => by rw [c3]; rfl, by rw [c3]⟩
      · exact .inr ⟨b1, hu.1⟩

theorem outWrites_total (ha : Able h c) {A : Word → Bool} {dbg : List Word} {wps : Map Word Nat} {fo k : Nat} {v : State} {wa : Word}
    (hwf : (wps.find wa).isSome = true) (hkd : ∀ j, j < 4 → (dbg.getD 4 0).getLsbD j = true → ∃ w ∈ wps, w.2 = j) (hnb : ∀ a, A a = true → instrAt P a ≠ .bkpt) (hfo : k + 2 ≤ fo) (hw : 24 * (k + 2) ≤ h.wait) :
    ∀ {fuel m : Nat} {skip : Bool} {n : Native} {d : Dbg} {why : Reason}, Native.Fine h (fun s i => s = i.print h.ftos ∧ Plain h i) P n →
      View h n d → d.phase = .stopped why → n.link.Live → d.dbg = dbg → (∀ a, Native.armed n a = A a) → n.wps = wps → Dom A n →
      (skip = false → d.trap = false) → (skip = false → A d.state.pc = false) → m ≤ fuel →
      OutWrites h.cfg P dbg (fun a => A a = true) k wa v m d.state →
      Native.Returns (UbPossible h.cfg P) (stepOutLoop h c fo fuel skip n) fun e n' => e = .watchpoint wa ∧ Ended h A wps n' v := by
  intro fuel
  induction fuel with
  | zero => intro m skip n d why _ _ _ _ _ _ _ _ _ _ hm hp; cases hp <;> omega
  | succ fuel ih =>
    intro m skip n d why hf hv hph hl hdbg hA hwp hall htrap hfree hm hp
    subst hdbg hwp
    have hA' : Native.armed n = A := funext hA
    subst hA'
    have hk : Kempt n := by
      unfold Kempt
      rw [dbg_view hv hph]
      exact hkd
    have hlt : d.state.pc.toNat < P.length := by
      cases hp with
      | last hp => exact hp.1
      | more hp _ _ _ => exact hp.1
    obtain ⟨l, h2⟩ := text_total (d := d) hf hl hlt
    have hret := isReturn_print h.ftos (instrAt P d.state.pc)
    unfold stepOutLoop
    rw [Job.bind_eq (getIP_total hv hl), Job.bind_eq h2,
      Job.bind_eq (x := Native.first _) (a := (instrAt P d.state.pc).print h.ftos) (t := n) rfl]
    cases hp with
    | last hp =>
      exact returns_bind (over_write_total ha hf hv hph hl hk hwf hp htrap hfree hall hnb hfo hw) fun e n' ⟨he, hb⟩ => by
        subst he
        rw [if_pos (.inr (by simp))]
        exact .inl ⟨_, _, rfl, rfl, hb⟩
    | more hp ho hfree' hq =>
      exact returns_bind (over_pass_total ha hf hv hph hl hp htrap hfree hall (by omega) hw) fun e n' ⟨he, hb⟩ => by
        subst he
        rw [if_neg (by simp [mt hret.mp ho])]
        obtain ⟨d', a1, rfl, ⟨why', a3⟩, a4, a5⟩ := hb.view
        exact ih hb.fine a1 a3 (live_view a1 hb.dead a3) a4 hb.armed hb.wps hb.all (fun _ => a5) (fun _ => by simpa using hfree') (by omega) hq

theorem overLineWrites_total (ha : Able h c) {src : Src.Source} {A : Word → Bool} {dbg : List Word} {wps : Map Word Nat} {fo k : Nat} {v : State} {wa : Word}
    (hwf : (wps.find wa).isSome = true) (hkd : ∀ j, j < 4 → (dbg.getD 4 0).getLsbD j = true → ∃ w ∈ wps, w.2 = j) (hnb : ∀ a, A a = true → instrAt P a ≠ .bkpt) (hfo : k + 2 ≤ fo) (hw : 24 * (k + 2) ≤ h.wait) :
    ∀ {fuel m : Nat} {s : State} {n : Native}, Between h P A dbg wps n s → m + 1 ≤ fuel → ¬ src.Begins s.pc → A s.pc = false →
      LineWrites h.cfg P dbg (fun a => A a = true) src.Begins k wa v m s →
      Native.Returns (UbPossible h.cfg P) (Src.stepLoop h src (Native.stepOver h c fo false) fuel .singlestep n) fun e n' =>
        e = .watchpoint wa ∧ Ended h A wps n' v := by
  intro fuel
  induction fuel with
  | zero => intro m s n _ hm; omega
  | succ fuel ih =>
    intro m s n hb hm hs hf hp
    unfold Src.stepLoop
    rw [if_pos rfl, Job.bind_eq hb.ip]
    have hs : addrToLine src.lines s.pc.toNat = none := by
      unfold Src.Source.Begins at hs
      simpa using hs
    rw [hs]
    cases hp with
    | last hp =>
      obtain ⟨d, a1, rfl, ⟨why, a3⟩, rfl, a5⟩ := hb.view
      have hA : Native.armed n = A := funext hb.armed
      have hk : Kempt n := by
        unfold Kempt
        rw [dbg_view a1 a3, hb.wps]
        exact hkd
      have hx := over_write_total (skip := false) (fuel := fo) ha hb.fine a1 a3 (live_view a1 hb.dead a3) hk (by rw [hb.wps]; exact hwf) (by rw [hA]; exact hp) (fun _ => a5)
        (fun _ => by rw [hA]; exact hf) (by rw [hA]; exact hb.all) (by rw [hA]; exact hnb) hfo hw
      rw [hA, hb.wps] at hx
      exact returns_bind hx fun e n' ⟨he, hb'⟩ => by
        subst he
        exact .inl ⟨_, _, loop_watch (by omega), rfl, hb'⟩
    | more hp ho hfree hq =>
      exact returns_bind (hb.over_total ha hp hf (by omega) hw) fun e n' ⟨he, hb'⟩ => by
        subst he
        exact ih hb' (by omega) ho (by simpa using hfree) hq

/-- Stepping over the instructions of a line comes back when a watched address is written. -/
theorem lineWrites_total (ha : Able h c) {src : Src.Source} {fuel k m : Nat} {n : Native} {d : Dbg} {v : State} {wa : Word}
    (hf : Native.Fine h (fun s i => s = i.print h.ftos ∧ Plain h i) P n) (hv : View h n d) {why : Reason} (hph : d.phase = .stopped why)
    (hl : n.link.Live) (hall : Dom (Native.armed n) n) (hnb : ∀ a, Native.armed n a = true → instrAt P a ≠ .bkpt)
    (hk : Kempt n) (hwf : (n.wps.find wa).isSome = true)
    (hp : LineWrites h.cfg P d.dbg (fun a => Native.armed n a = true) src.Begins k wa v m d.state) (hfo : k + 2 ≤ fuel) (hm : m ≤ fuel)
    (hw : 24 * (k + 2) ≤ h.wait) :
    Native.Returns (UbPossible h.cfg P) (Src.stepOver h c src fuel n) fun e n' => e = .watchpoint wa ∧ Ended h (Native.armed n) n.wps n' v := by
  unfold Src.stepOver
  have hkd := hk
  unfold Kempt at hkd
  rw [dbg_view hv hph] at hkd
  cases hp with
  | last hp =>
    exact returns_bind (over_write_total (skip := true) ha hf hv hph hl hk hwf hp (by simp) (by simp) hall hnb hfo hw) fun e n' ⟨he, hb⟩ => by
      subst he
      exact .inl ⟨_, _, loop_watch (by omega), rfl, hb⟩
  | more hp ho hfree hq =>
    exact returns_bind (over_pass_total (skip := true) ha hf hv hph hl hp (by simp) (by simp) hall (by omega) hw) fun e n' ⟨he, hb⟩ => by
      subst he
      exact overLineWrites_total ha hwf hkd hnb hfo hw hb (by omega) ho (by simpa using hfree) hq

end T86
