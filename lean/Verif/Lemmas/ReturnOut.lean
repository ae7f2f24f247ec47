import Verif.Lemmas.ReturnOver
import Verif.Lemmas.SourceStep
import Verif.Spec.ReturnOut

/-! # Stepping over a line and out of a function comes back -/

set_option linter.unusedSimpArgs false
set_option linter.unusedVariables false
set_option maxRecDepth 100000

namespace T86
open Dbg Str Native Isa

variable {h : Host} {c : Client} {P : List Instr}

theorem Isa.PassesIn.passes {cfg : Cfg} {dbg : List Word} {stop : Word → Prop} {k : Nat} {s s' : State} (hp : PassesIn cfg P dbg stop k s s') :
    Passes cfg P dbg stop s s' := by
  rcases hp.2 with ⟨o, s1, j, _, _, a⟩ | a
  · exact .inl ⟨o, s1, j, a⟩
  · exact .inr a

theorem over_pass_total (ha : Able h c) {n : Native} {d : Dbg} {s2 : State} {k fuel : Nat} {skip : Bool}
    (hf : Native.Fine h (fun s i => s = i.print h.ftos ∧ Plain h i) P n) (hv : View h n d) {why : Reason} (hph : d.phase = .stopped why)
    (hl : n.link.Live) (hp : PassesIn h.cfg P d.dbg (fun a => armed n a = true) k d.state s2) (htrap : skip = false → d.trap = false)
    (hfree : skip = false → armed n d.state.pc = false) (hall : Dom (armed n) n) (hfuel : k + 1 ≤ fuel) (hw : 24 * (k + 2) ≤ h.wait) :
    Native.Returns (UbPossible h.cfg P) (Native.stepOver h c fuel skip n) fun e n' =>
      e = .singlestep ∧ Between h P (armed n) d.dbg n.wps n' s2 := by
  have hpass := hp.passes
  suffices hs : Native.Returns (UbPossible h.cfg P) (Native.stepOver h c fuel skip n) fun _ _ => True by
    rcases hs with ⟨e, n', h1, _⟩ | h1
    · exact .inl ⟨e, n', h1, over_pass_view hf hv hph hpass htrap hfree hall h1⟩
    · exact .inr h1
  have ht := texts_print h
  have hd : n.link.dead = false := hl.alive
  obtain ⟨hlt, hp⟩ := hp
  have hat := List.getElem?_eq_getElem hlt
  obtain ⟨r, h2⟩ := readText_total hf.good hl (a := d.state.pc) (m := 1) (by
    have : (1 : Word).toNat = 1 := rfl
    omega)
  obtain ⟨_, g1, g2, g3⟩ := readText_ok ht hf.good h2
  obtain ⟨l, rfl⟩ := over_first g2 g3 hat
  unfold Native.stepOver
  rw [Job.bind_eq (getIP_total hv hl), Job.bind_eq h2, Job.bind_eq (x := Job.ofExcept _) (a := P[d.state.pc.toNat].print h.ftos) (t := n) rfl]
  rcases hp with ⟨o, s1, j, hj, hlen, hc, h0, hh, hst, hne, hpath, hpc, hbp, hrun⟩ | ⟨hc, hcl, hrun⟩
  · have hcall : P[d.state.pc.toNat] = .call o := by rw [← hc, instrAt_some hat]
    have hna : armed n s1.pc = false := by
      cases j with
      | zero => exact absurd (show s2 = s1 from hpath) (fun h' => hne (by rw [← h', hpc]))
      | succ j =>
        have := hpath.2.1
        cases ha : armed n s1.pc with
        | false => rfl
        | true => exact absurd (.inl ⟨ha, hne⟩) this
    have hbp1 := call_bp hst hc
    have hpc1 : d.state.pc ≠ d.state.pc + 1 := by
      intro e
      have := congrArg BitVec.toNat e
      simp [BitVec.toNat_add] at this
      omega
    rw [hcall, if_pos ((isCall_print _ _).2 ⟨o, rfl⟩), Job.bind_eq (x := Job.get) (a := n) (t := n) rfl]
    dsimp only
    have hout : ∀ t : State, ¬ (armed n t.pc = true ∧ t.pc ≠ d.state.pc + 1 ∨ t.pc = d.state.pc + 1 ∧ t.reg (.int .bp) = d.state.reg (.int .bp)) →
        (fun b => if b = d.state.pc + 1 then true else armed n b) t.pc = true → t.pc = d.state.pc + 1 ∧ t.reg (.int .bp) ≠ d.state.reg (.int .bp) := by
      intro t ht1 ht2
      by_cases hb : t.pc = d.state.pc + 1
      · exact ⟨hb, fun e => ht1 (.inr ⟨hb, e⟩)⟩
      · simp only [hb, if_false] at ht2
        exact absurd (.inl ⟨ht2, hb⟩) ht1
    have hloop : ∀ {m : Native} {K : Event → N Event} {dm : Dbg} {i : Nat}, Native.Fine h (fun s i => s = i.print h.ftos ∧ Plain h i) P m → View h m dm →
        dm.dbg = d.dbg → dm.trap = false → (∃ why, dm.phase = .stopped why) → m.link.Live →
        (∀ b, armed m b = if b = d.state.pc + 1 then true else armed n b) →
        Clear h.cfg P d.dbg (fun t => armed n t.pc = true ∧ t.pc ≠ d.state.pc + 1 ∨ t.pc = d.state.pc + 1 ∧ t.reg (.int .bp) = d.state.reg (.int .bp)) i dm.state s2 →
        dm.state.reg (.int .bp) = d.state.reg (.int .bp) → armed n dm.state.pc = false → dm.state.pc ≠ d.state.pc + 1 → i ≤ k + 1 →
        ((∃ n', (getRegister h "BP".toList >>= fun bp => overLoop h c d.state.pc bp fuel >>= K) m = (.error .ub, n')) ∧ UbPossible h.cfg P) ∨
        ∃ e1 m2 d2, (getRegister h "BP".toList >>= fun bp => overLoop h c d.state.pc bp fuel >>= K) m = K e1 m2 ∧
          Native.Fine h (fun s i => s = i.print h.ftos ∧ Plain h i) P m2 ∧ View h m2 d2 ∧ (∃ why, d2.phase = .stopped why) ∧
          (∀ b, armed m2 b = if b = d.state.pc + 1 then true else armed n b) ∧ m2.link.dead = false := by
      intro m K dm i w1 w2 w3 w4 w5 w6 w7 w8 w9 w10 w11 hi
      have hget : getRegister h "BP".toList m = (.ok (dm.state.reg (.int .bp)), m) := getRegister_total w2 w6 (bp_shown _)
      rw [Job.bind_eq hget, w9]
      have hstart : (fun b => if b = d.state.pc + 1 then true else armed n b) dm.state.pc = true →
          dm.state.pc = d.state.pc + 1 ∧ dm.state.reg (.int .bp) ≠ d.state.reg (.int .bp) := by
        intro hb
        simp only [w11, if_false] at hb
        rw [w10] at hb
        cases hb
      rcases overLoop_total ha ht (A := fun b => if b = d.state.pc + 1 then true else armed n b) hpc hbp hrun (by simp) hout
        w1 w2 w3 w4 w5 w6.alive w7 w8 hstart (show i ≤ fuel by omega) (by omega) with ⟨e2, m2, q1, _⟩ | ⟨⟨m2, q1⟩, hu⟩
      · obtain ⟨d2, z1, z2, z3, z4, z5, z6, z7, z8, z9⟩ := overLoop_view (ht := ht) (dbg := d.dbg) (s2 := s2)
          (A := fun b => if b = d.state.pc + 1 then true else armed n b) hpc hbp hrun (by simp) hout
          w1 w2 w3 w4 w5 w7 w8 hstart q1
        exact .inr ⟨e2, m2, d2, Job.bind_eq q1, z6, z1, z5, z7, z9⟩
      · exact .inl ⟨⟨m2, Job.bind_error q1⟩, hu⟩
    have htail : ∀ (m : Native) (K : Event → N Event) (dm : Dbg), Native.Fine h (fun s i => s = i.print h.ftos ∧ Plain h i) P m → View h m dm →
        Patched d dm → m.link.dead = false → (∀ b, armed m b = if b = d.state.pc + 1 then true else armed n b) →
        ((∃ n', (if skip = true then singleStep h c >>= fun _ => getRegister h "BP".toList >>= fun bp => overLoop h c d.state.pc bp fuel >>= K
          else getRegister h "BP".toList >>= fun bp => overLoop h c d.state.pc bp fuel >>= K) m = (.error .ub, n')) ∧ UbPossible h.cfg P) ∨
        ∃ e1 m2 d2, (if skip = true then singleStep h c >>= fun _ => getRegister h "BP".toList >>= fun bp => overLoop h c d.state.pc bp fuel >>= K
          else getRegister h "BP".toList >>= fun bp => overLoop h c d.state.pc bp fuel >>= K) m = K e1 m2 ∧
          Native.Fine h (fun s i => s = i.print h.ftos ∧ Plain h i) P m2 ∧ View h m2 d2 ∧ (∃ why, d2.phase = .stopped why) ∧
          (∀ b, armed m2 b = if b = d.state.pc + 1 then true else armed n b) ∧ m2.link.dead = false := by
      intro m K dm a1 a2 a3 a4 a6
      have hml : m.link.Live := live_view a2 a4 (by rw [a3.phase]; exact hph)
      cases skip with
      | true =>
        simp only [if_true]
        have hran : Ran h.cfg P dm.dbg (fun _ => False) m.wps true dm.state .singlestep s1 := by
          rw [a3.dbg, a3.state]
          exact .single ⟨hh, id, by rw [hc]; exact h0, s1, hst, rfl⟩ (hpath.run hrun) rfl
        rcases singleStep_total ha ht a1 a2 hml hran (by omega) (by rintro ⟨a, h⟩; cases h) with ⟨e, m1, b1, rfl⟩ | ⟨⟨m1, b1⟩, hu⟩
        · obtain ⟨d1, c1, c2, c3, c4, c5, c6, ⟨w0, c7, c8⟩, w1, c9⟩ := singleStep_view ht a1 a2 b1
          have hwd : Watched dm.dbg m.wps := a2.watched a1.good c7
          have hs1 : d1.state = s1 := (c1.unique hran hwd).2
          have hf1 := singleStep_fine ht _ _ _ a1 b1
          rw [Job.bind_eq b1]
          exact hloop hf1 c2 (by rw [c5 (by simp), a3.dbg]) (by rw [c6]; rfl) ⟨w1, c9⟩ (live_view c2 c4 c9)
            (fun b => by rw [c3.armed]; exact a6 b) (by rw [hs1]; exact hpath) (by rw [hs1]; exact hbp1)
            (by rw [hs1]; exact hna) (by rw [hs1]; exact hne) (by omega)
        · exact .inl ⟨⟨m1, Job.bind_error b1⟩, hu.1⟩
      | false =>
        simp only [Bool.false_eq_true, if_false]
        refine hloop (i := j + 1) a1 a2 a3.dbg (by rw [a3.trap]; exact htrap rfl) ⟨why, by rw [a3.phase]; exact hph⟩ hml a6 ?_
          (by rw [a3.state]) (by rw [a3.state]; exact hfree rfl) (by rw [a3.state]; exact hpc1) (by omega)
        rw [a3.state]
        refine ⟨hh, ?_, by rw [hc]; exact h0, s1, hst, hpath⟩
        rintro (⟨x, _⟩ | ⟨x, _⟩)
        · rw [hfree rfl] at x
          cases x
        · exact hpc1 x
    cases hex : (n.bps.find (d.state.pc + 1)).isSome with
    | true =>
      simp only [if_true]
      obtain ⟨bp, hbpf⟩ := Option.isSome_iff_exists.1 hex
      have harm : armed n (d.state.pc + 1) = true := by
        have := hall (d.state.pc + 1)
        rw [← this]
        exact hex
      have hsame : ∀ b, armed n b = if b = d.state.pc + 1 then true else armed n b := by
        intro b
        by_cases hb : b = d.state.pc + 1
        · rw [if_pos hb, hb]; exact harm
        · rw [if_neg hb]
      rcases htail n (fun e => getIP h >>= fun ip' => if ip' ≠ d.state.pc + 1 then pure e else pure .singlestep) d hf hv ⟨rfl, rfl, rfl, rfl⟩ hd
        hsame with ⟨⟨n', q⟩, hu⟩ | ⟨e1, m2, d2, q, y1, y2, ⟨w, y4⟩, y5, y7⟩
      · refine .inr ⟨⟨n', Eq.trans ?_ q⟩, hu⟩
        cases skip <;> rfl
      · refine .inl ⟨if d2.state.pc ≠ d.state.pc + 1 then e1 else .singlestep, m2, Eq.trans ?_ (q.trans ?_), trivial⟩
        · cases skip <;> rfl
        · rw [Job.bind_eq (getIP_total y2 (live_view y2 y7 y4))]
          split <;> rfl
    | false =>
      simp only [Bool.false_eq_true, if_false]
      have hnone : n.bps.find (d.state.pc + 1) = none := by
        cases hq : n.bps.find (d.state.pc + 1) with
        | none => rfl
        | some b => rw [hq] at hex; cases hex
      obtain ⟨sv, h5⟩ := setBreakpoint_total hf.good hl hlen hnone
      obtain ⟨dm, k1, k2, k3, k4, k5, k6⟩ := set_view hf.good hv hph h5
      rw [Job.bind_eq h5]
      rcases htail _ (fun e => unsetBreakpoint h (d.state.pc + 1) >>= fun _ => getIP h >>= fun ip' => if ip' ≠ d.state.pc + 1 then pure e else pure .singlestep) dm
        (set_fine ht _ _ _ hf h5) k1 k2 (by rw [k4]; exact hd) k6 with ⟨⟨n', q⟩, hu⟩ | ⟨e1, m2, d2, q, y1, y2, ⟨w, y4⟩, y5, y7⟩
      · refine .inr ⟨⟨n', Eq.trans ?_ q⟩, hu⟩
        cases skip <;> rfl
      · have hl2 := live_view y2 y7 y4
        have hfind : ∃ bp, m2.bps.find (d.state.pc + 1) = some bp := by
          have := y5 (d.state.pc + 1)
          rw [if_pos rfl] at this
          unfold armed at this
          cases hq : m2.bps.find (d.state.pc + 1) with
          | none => rw [hq] at this; cases this
          | some b => exact ⟨b, rfl⟩
        obtain ⟨bp, hbpf⟩ := hfind
        obtain ⟨m3, h6, hl3, _⟩ := unset_total ht y1.good hl2 hbpf
        obtain ⟨d3, j1, j2, j3, j4, j5⟩ := unset_view ht y1 y2 y4 h6
        refine .inl ⟨if d3.state.pc ≠ d.state.pc + 1 then e1 else .singlestep, m3, Eq.trans ?_ (q.trans ?_), trivial⟩
        · cases skip <;> rfl
        · rw [Job.bind_eq h6, Job.bind_eq (getIP_total j1 hl3)]
          split <;> rfl
  · have hn : ¬ Arch.isCall (P[d.state.pc.toNat].print h.ftos) = true := by
      rw [isCall_print]
      rintro ⟨o, ho⟩
      exact hc o (by rw [instrAt_some hat, ho])
    rw [if_neg hn]
    have hran : Ran h.cfg P d.dbg (fun _ => False) n.wps true d.state .singlestep s2 := .single hcl hrun rfl
    cases skip with
    | true =>
      simp only [if_true]
      rcases singleStep_total ha ht hf hv hl hran (by omega) (by rintro ⟨a, h⟩; cases h) with ⟨e, m1, b1, rfl⟩ | ⟨b1, hu⟩
      · exact .inl ⟨_, m1, b1, trivial⟩
      · exact .inr ⟨b1, hu.1⟩
    | false =>
      simp only [Bool.false_eq_true, if_false]
      rcases rawStep_total ha hf hv hl (hfree rfl) hran (by omega) (by rintro ⟨a, h⟩; cases h) with ⟨e, m1, b1, rfl⟩ | ⟨b1, hu⟩
      · exact .inl ⟨_, m1, b1, trivial⟩
      · exact .inr ⟨b1, hu.1⟩

theorem Between.over_total (ha : Able h c) {n : Native} {A : Word → Bool} {dbg : List Word} {wps : Map Word Nat} {s s2 : State} {k fuel : Nat}
    (hb : Between h P A dbg wps n s) (hp : PassesIn h.cfg P dbg (fun a => A a = true) k s s2) (hfree : A s.pc = false) (hfuel : k + 1 ≤ fuel)
    (hw : 24 * (k + 2) ≤ h.wait) :
    Native.Returns (UbPossible h.cfg P) (Native.stepOver h c fuel false n) fun e n' => e = .singlestep ∧ Between h P A dbg wps n' s2 := by
  obtain ⟨d, a1, rfl, ⟨why, a3⟩, rfl, a5⟩ := hb.view
  have hA : Native.armed n = A := funext hb.armed
  have := over_pass_total (skip := false) ha hb.fine a1 a3 (live_view a1 hb.dead a3) (by rw [hA]; exact hp) (fun _ => a5)
    (fun _ => by rw [hA]; exact hfree) (by rw [hA]; exact hb.all) hfuel hw
  rw [hA, hb.wps] at this
  exact this

theorem Between.ip {n : Native} {A : Word → Bool} {dbg : List Word} {wps : Map Word Nat} {s : State}
    (hb : Between h P A dbg wps n s) : getIP h n = (.ok s.pc, n) := by
  obtain ⟨d, a1, rfl, ⟨why, a3⟩, _, _⟩ := hb.view
  exact getIP_total a1 (live_view a1 hb.dead a3)

/-- A call that comes back, and what is done then. -/
theorem returns_bind {U : Prop} {α β : Type} {x : N α} {f : α → N β} {n : Native} {Q : α → Native → Prop} {R : β → Native → Prop}
    (hx : Native.Returns U (x n) Q) (hf : ∀ a n', Q a n' → Native.Returns U (f a n') R) : Native.Returns U ((x >>= f) n) R := by
  rcases hx with ⟨a, n', h1, h2⟩ | ⟨⟨n', h1⟩, h2⟩
  · have := hf a n' h2
    rw [← Job.bind_eq (f := f) h1] at this
    exact this
  · exact .inr ⟨⟨n', Job.bind_error h1⟩, h2⟩

theorem overLine_total (ha : Able h c) {src : Src.Source} {A : Word → Bool} {dbg : List Word} {wps : Map Word Nat} {fo k : Nat} {s2 : State}
    (hfo : k + 1 ≤ fo) (hw : 24 * (k + 2) ≤ h.wait) :
    ∀ {fuel m : Nat} {s : State} {n : Native}, Between h P A dbg wps n s → m + 1 ≤ fuel →
      (src.Begins s.pc ∧ s2 = s ∨ ¬ src.Begins s.pc ∧ A s.pc = false ∧ LineIn h.cfg P dbg (fun a => A a = true) src.Begins k m s s2) →
      Native.Returns (UbPossible h.cfg P) (Src.stepLoop h src (Native.stepOver h c fo false) fuel .singlestep n) fun e n' =>
        e = .singlestep ∧ Between h P A dbg wps n' s2 := by
  intro fuel
  induction fuel with
  | zero => intro m s n _ hm; omega
  | succ fuel ih =>
    intro m s n hb hm hs
    unfold Src.stepLoop
    rw [if_pos rfl, Job.bind_eq hb.ip]
    rcases hs with ⟨hs, rfl⟩ | ⟨hs, hf, hp⟩
    · unfold Src.Source.Begins at hs
      cases hl : addrToLine src.lines s2.pc.toNat with
      | none => rw [hl] at hs; cases hs
      | some l => exact .inl ⟨_, _, rfl, rfl, hb⟩
    · have hs : addrToLine src.lines s.pc.toNat = none := by
        unfold Src.Source.Begins at hs
        simpa using hs
      rw [hs]
      cases hp with
      | last hp hl =>
        exact returns_bind (hb.over_total ha hp hf hfo hw) fun e n' ⟨he, hb'⟩ => by
          subst he
          exact ih (m := 0) hb' (by omega) (.inl ⟨hl, rfl⟩)
      | more hp ho hfree hq =>
        exact returns_bind (hb.over_total ha hp hf hfo hw) fun e n' ⟨he, hb'⟩ => by
          subst he
          exact ih hb' (by omega) (.inr ⟨ho, by simpa using hfree, hq⟩)

/-- Stepping over the instructions of a line. -/
theorem lineOver_total (ha : Able h c) {src : Src.Source} {fuel k m : Nat} {n : Native} {d : Dbg} {s2 : State}
    (hf : Native.Fine h (fun s i => s = i.print h.ftos ∧ Plain h i) P n) (hv : View h n d) {why : Reason} (hph : d.phase = .stopped why)
    (hl : n.link.Live) (hall : Dom (Native.armed n) n)
    (hp : LineIn h.cfg P d.dbg (fun a => Native.armed n a = true) src.Begins k m d.state s2) (hfo : k + 1 ≤ fuel) (hm : m ≤ fuel)
    (hw : 24 * (k + 2) ≤ h.wait) :
    Native.Returns (UbPossible h.cfg P) (Src.stepOver h c src fuel n) fun e n' => e = .singlestep ∧ Between h P (Native.armed n) d.dbg n.wps n' s2 := by
  unfold Src.stepOver
  cases hp with
  | last hp hx =>
    exact returns_bind (over_pass_total (skip := true) ha hf hv hph hl hp (by simp) (by simp) hall hfo hw) fun e n' ⟨he, hb⟩ => by
      subst he
      exact overLine_total ha hfo hw (m := 0) hb (by omega) (.inl ⟨hx, rfl⟩)
  | more hp ho hfree hq =>
    exact returns_bind (over_pass_total (skip := true) ha hf hv hph hl hp (by simp) (by simp) hall hfo hw) fun e n' ⟨he, hb⟩ => by
      subst he
      exact overLine_total ha hfo hw hb (by omega) (.inr ⟨ho, by simpa using hfree, hq⟩)

/-- The text of an instruction that is there. -/
theorem text_total {n : Native} {d : Dbg} (hf : Native.Fine h (fun s i => s = i.print h.ftos ∧ Plain h i) P n) (hl : n.link.Live) {ip : Word}
    (hlt : ip.toNat < P.length) : ∃ l, readText h ip 1 n = (.ok ((instrAt P ip).print h.ftos :: l), n) := by
  have hat := List.getElem?_eq_getElem hlt
  obtain ⟨r, h2⟩ := readText_total hf.good hl (a := ip) (m := 1) (by
    have : (1 : Word).toNat = 1 := rfl
    omega)
  obtain ⟨_, g1, g2, g3⟩ := readText_ok (texts_print h) hf.good h2
  obtain ⟨l, rfl⟩ := over_first g2 g3 hat
  rw [instrAt_some hat]
  exact ⟨l, h2⟩

theorem out_total (ha : Able h c) {A : Word → Bool} {dbg : List Word} {wps : Map Word Nat} {fo k : Nat} {s2 : State}
    (hfo : k + 1 ≤ fo) (hw : 24 * (k + 2) ≤ h.wait) :
    ∀ {fuel m : Nat} {skip : Bool} {n : Native} {d : Dbg} {why : Reason}, Native.Fine h (fun s i => s = i.print h.ftos ∧ Plain h i) P n →
      View h n d → d.phase = .stopped why → n.link.Live → d.dbg = dbg → (∀ a, Native.armed n a = A a) → n.wps = wps → Dom A n →
      (skip = false → d.trap = false) → (skip = false → A d.state.pc = false) → m ≤ fuel →
      OutIn h.cfg P dbg (fun a => A a = true) k m d.state s2 →
      Native.Returns (UbPossible h.cfg P) (stepOutLoop h c fo fuel skip n) fun e n' => e = .singlestep ∧ Between h P A dbg wps n' s2 := by
  intro fuel
  induction fuel with
  | zero => intro m skip n d why _ _ _ _ _ _ _ _ _ _ hm hp; cases hp <;> omega
  | succ fuel ih =>
    intro m skip n d why hf hv hph hl hdbg hA hwp hall htrap hfree hm hp
    subst hdbg hwp
    have hA' : Native.armed n = A := funext hA
    subst hA'
    have hlt : d.state.pc.toNat < P.length := by
      cases hp with
      | last hp _ => exact hp.1
      | more hp _ _ _ => exact hp.1
    obtain ⟨l, h2⟩ := text_total (d := d) hf hl hlt
    have hret := isReturn_print h.ftos (instrAt P d.state.pc)
    unfold stepOutLoop
    rw [Job.bind_eq (getIP_total hv hl), Job.bind_eq h2,
      Job.bind_eq (x := Native.first _) (a := (instrAt P d.state.pc).print h.ftos) (t := n) rfl]
    cases hp with
    | last hp hl' =>
      exact returns_bind (over_pass_total ha hf hv hph hl hp htrap hfree hall hfo hw) fun e n' ⟨he, hb⟩ => by
        subst he
        rw [if_pos (.inl (hret.mpr hl'))]
        exact .inl ⟨_, _, rfl, rfl, hb⟩
    | more hp ho hfree' hq =>
      exact returns_bind (over_pass_total ha hf hv hph hl hp htrap hfree hall hfo hw) fun e n' ⟨he, hb⟩ => by
        subst he
        rw [if_neg (by simp [mt hret.mp ho])]
        obtain ⟨d', a1, rfl, ⟨why', a3⟩, a4, a5⟩ := hb.view
        exact ih hb.fine a1 a3 (live_view a1 hb.dead a3) a4 hb.armed hb.wps hb.all (fun _ => a5) (fun _ => by simpa using hfree') (by omega) hq

/-- What holds between the steps into the instructions of a line. -/
structure Inside (h : Host) (Tx : Str → Instr → Prop) (P : List Instr) (A : Word → Bool) (dbg : List Word) (wps : Map Word Nat) (n : Native) (s : State) : Prop where
  fine : Native.Fine h Tx P n
  armed : ∀ a, armed n a = A a
  wps : n.wps = wps
  dead : n.link.dead = false
  view : ∃ d, View h n d ∧ d.state = s ∧ (∃ why, d.phase = .stopped why) ∧ d.dbg = dbg

theorem inLine_total (ha : Able h c) {Tx : Str → Instr → Prop} {src : Src.Source} {A : Word → Bool} {dbg : List Word} {wps : Map Word Nat} {s2 : State}
    (hw : 24 ≤ h.wait) (hat : src.Begins s2.pc) (hrun : s2.halted = false) :
    ∀ {fuel k : Nat} {s : State} {n : Native}, Inside h Tx P A dbg wps n s → k + 1 ≤ fuel →
      Clear h.cfg P dbg (fun x => A x.pc = true ∨ src.Begins x.pc) k s s2 →
      Native.Returns (UbPossible h.cfg P) (Src.stepLoop h src (Native.rawStep h c) fuel .singlestep n) fun e n' =>
        e = .singlestep ∧ Inside h Tx P A dbg wps n' s2 := by
  intro fuel
  induction fuel with
  | zero => intro k s n _ hm; omega
  | succ fuel ih =>
    intro k s n hb hm hc
    obtain ⟨d, a1, rfl, ⟨why, a3⟩, rfl⟩ := hb.view
    have hl := live_view a1 hb.dead a3
    unfold Src.stepLoop
    rw [if_pos rfl, Job.bind_eq (getIP_total a1 hl)]
    cases k with
    | zero =>
      have : s2 = d.state := hc
      subst this
      unfold Src.Source.Begins at hat
      cases hx : addrToLine src.lines d.state.pc.toNat with
      | none => rw [hx] at hat; cases hat
      | some l => exact .inl ⟨_, _, rfl, rfl, hb⟩
    | succ k =>
      obtain ⟨q1, q2, q3, t, q4, q5⟩ := hc
      have hs : addrToLine src.lines d.state.pc.toNat = none := by
        have := fun h' => q2 (.inr h')
        unfold Src.Source.Begins at this
        simpa using this
      have hna : Native.armed n d.state.pc = false := by
        rw [hb.armed]
        cases hq : A d.state.pc with
        | false => rfl
        | true => exact absurd (.inl hq) q2
      have hrt := q5.run hrun
      have hran : Ran h.cfg P d.dbg (fun _ => False) n.wps true d.state .singlestep t := .single ⟨q1, id, q3, t, q4, rfl⟩ hrt rfl
      rw [hs]
      refine returns_bind (Q := fun e n' => e = .singlestep ∧ rawStep h c n = (.ok e, n')) ?_ fun e n' ⟨he, hb'⟩ => ?_
      · rcases rawStep_total ha hb.fine a1 hl hna hran hw (by rintro ⟨a, h⟩; cases h) with ⟨e, m1, b1, b2⟩ | ⟨b1, hu⟩
        · exact .inl ⟨e, m1, b1, b2, b1⟩
        · exact .inr ⟨b1, hu.1⟩
      · subst he
        obtain ⟨d', b1, b2, b3, b4, b5, b6, _, b8⟩ := rawStep_view hb.fine.good a1 hb'
        have b1 := b1.free (by unfold Native.stops; rw [hna]; simp)
        obtain ⟨_, rfl⟩ := b1.step_on_path (a1.watched hb.fine.good a3) q3 q1 q4 hrt
        refine ih (k := k) ⟨rawStep_fine _ _ _ hb.fine hb', fun a => ?_, by rw [b3, hb.wps], b4, d', b2, rfl, b8, b5 (by simp)⟩ (by omega) q5
        rw [b3]
        exact hb.armed a

/-- Stepping into the instructions of a line. -/
theorem lineIn_total (ha : Able h c) {Tx : Str → Instr → Prop} (ht : Texts h Tx) {src : Src.Source} {fuel k : Nat} {n : Native} {d : Dbg} {t s2 : State}
    (hf : Native.Fine h Tx P n) (hv : View h n d) {why : Reason} (hph : d.phase = .stopped why) (hl : n.link.Live)
    (h1 : Clear h.cfg P d.dbg (fun _ => False) 1 d.state t)
    (h2 : Clear h.cfg P d.dbg (fun x => Native.armed n x.pc = true ∨ src.Begins x.pc) k t s2) (hat : src.Begins s2.pc) (hrun : s2.halted = false)
    (hm : k + 1 ≤ fuel) (hw : 24 ≤ h.wait) :
    Native.Returns (UbPossible h.cfg P) (Src.stepIn h c src fuel n) fun e n' => e = .singlestep ∧ Inside h Tx P (Native.armed n) d.dbg n.wps n' s2 := by
  unfold Src.stepIn
  have hrt := h2.run hrun
  have hran : Ran h.cfg P d.dbg (fun _ => False) n.wps true d.state .singlestep t := .single h1 hrt rfl
  obtain ⟨q1, q2, q3, t', q4, q5⟩ := h1
  have q5 : t = t' := q5
  subst q5
  refine returns_bind (Q := fun e n' => e = .singlestep ∧ singleStep h c n = (.ok e, n')) ?_ fun e n' ⟨he, hb'⟩ => ?_
  · rcases singleStep_total ha ht hf hv hl hran hw (by rintro ⟨a, h⟩; cases h) with ⟨e, m1, b1, b2⟩ | ⟨b1, hu⟩
    · exact .inl ⟨e, m1, b1, b2, b1⟩
    · exact .inr ⟨b1, hu.1⟩
  · subst he
    obtain ⟨d', b1, b2, b3, b4, b5, b6, _, b8⟩ := singleStep_view ht hf hv hb'
    obtain ⟨_, rfl⟩ := b1.step_on_path (hv.watched hf.good hph) q3 q1 q4 hrt
    exact inLine_total ha hw hat hrun ⟨singleStep_fine ht _ _ _ hf hb', b3.armed, b3.wps, b4, d', b2, rfl, b8, b5 (by simp)⟩ hm h2

end T86
