import Verif.Lemmas.Seen
import Verif.Lemmas.NativeTotal

/-! Stepping over calls. -/

set_option linter.unusedSimpArgs false
set_option linter.unusedVariables false

namespace T86
open Dbg Str Isa Job

/-- Watchpoints are noticed. -/
theorem Watched.hit {D : List Word} {wps : Map Word Nat} (hw : Watched D wps) {a : Word} (ha : (wps.find a).isSome = true) :
    (watchHit D a).isSome = true := by
  obtain ⟨j, hj⟩ := Option.isSome_iff_exists.1 ha
  have hm := (Map.find_iff_mem hw.ok a j).1 hj
  have h1 := hw.small _ hm
  have h2 := hw.addr _ hm
  have h3 := hw.active _ hm
  unfold watchHit
  rw [List.find?_isSome]
  refine ⟨j, ?_, ?_⟩
  · simp only [List.mem_cons, List.not_mem_nil, or_false]
    simp only at h1
    omega
  · unfold watches
    simp only at h2 h3
    rw [h2, h3]
    simp

namespace Isa
variable {cfg : Cfg} {P : List Instr} {dbg : List Word} {stop stop' : State → Prop} {wps : Map Word Nat}

theorem stopCode_zero_bkpt {s : State} {i : Instr} (h0 : stopCode dbg s i = 0) : i ≠ .bkpt := by
  rintro rfl
  simp [stopCode] at h0

theorem stopCode_zero_watch {s : State} {i : Instr} (hw : Watched dbg wps) (h0 : stopCode dbg s i = 0) {a : Word}
    (ha : writeAddr s i = some a) (hf : (wps.find a).isSome = true) : False := by
  have hb := stopCode_zero_bkpt h0
  unfold stopCode at h0
  rw [if_neg hb, ha] at h0
  simp only at h0
  rw [if_pos (hw.hit hf)] at h0
  cases h0

/-- A run along a known path stops at or before the end of the path, at a breakpoint. -/
theorem Ran.on_path (hw : Watched dbg wps) {s2 : State} (hstop : stop s2) (hrun : s2.halted = false) {e : Event} {s' : State} :
    ∀ {j : Nat} {s : State}, Clear cfg P dbg stop' j s s2 → Ran cfg P dbg stop wps false s e s' →
      e = .breakpoint s'.pc ∧ stop s' ∧ ∃ i, Clear cfg P dbg stop' i s' s2 := by
  intro j
  induction j with
  | zero =>
    intro s hc hr
    have hc : s2 = s := hc
    subst hc
    cases hr with
    | @halt k _ h1 h2 h3 =>
      cases k with
      | zero =>
        have : s' = s2 := h1
        rw [this, hrun] at h2
        cases h2
      | succ k => exact absurd hstop h1.2.1
    | single h1 h2 h3 => cases h3
    | @breakpoint k _ h1 h2 h3 h4 =>
      cases k with
      | zero =>
        have : s' = s2 := h1
        subst this
        exact ⟨rfl, hstop, 0, rfl⟩
      | succ k => exact absurd hstop h1.2.1
    | @watch k a s1 _ h1 h2 h3 h4 h5 h6 h7 h8 =>
      cases k with
      | zero =>
        have : s1 = s2 := h1
        subst this
        exact absurd hstop h3
      | succ k => exact absurd hstop h1.2.1
  | succ j ih =>
    intro s hc hr
    have hc0 := hc
    obtain ⟨c1, c2, c3, t, c4, c5⟩ := hc
    cases hr with
    | @halt k _ h1 h2 h3 =>
      cases k with
      | zero =>
        have : s' = s := h1
        rw [this, c1] at h2
        cases h2
      | succ k =>
        obtain ⟨_, _, _, t', g1, g2⟩ := h1
        rw [c4] at g1
        cases g1
        exact ih c5 (.halt g2 h2 (by simp))
    | single h1 h2 h3 => cases h3
    | @breakpoint k _ h1 h2 h3 h4 =>
      cases k with
      | zero =>
        have : s' = s := h1
        subst this
        exact ⟨rfl, h3.resolve_right (stopCode_zero_bkpt c3), _, hc0⟩
      | succ k =>
        obtain ⟨_, _, _, t', g1, g2⟩ := h1
        rw [c4] at g1
        cases g1
        exact ih c5 (.breakpoint g2 h2 h3 (by simp))
    | @watch k a s1 _ h1 h2 h3 h4 h5 h6 h7 h8 =>
      cases k with
      | zero =>
        have : s1 = s := h1
        subst this
        exact (stopCode_zero_watch hw c3 h4 h5).elim
      | succ k =>
        obtain ⟨_, _, _, t', g1, g2⟩ := h1
        rw [c4] at g1
        cases g1
        exact ih c5 (.watch g2 h2 h3 h4 h5 h6 h7 (by simp))

/-- A single step along a known path. -/
theorem Ran.step_on_path (hw : Watched dbg wps) {s t s' : State} {e : Event} (h0 : stopCode dbg s (instrAt P s.pc) = 0)
    (hh : s.halted = false) (hst : step cfg P s = .ok t) (ht : t.halted = false) (hr : Ran cfg P dbg (fun _ => False) wps true s e s') :
    e = .singlestep ∧ s' = t := by
  cases hr with
  | halt h1 h2 h3 =>
    have := h3 rfl
    subst this
    obtain ⟨_, _, _, t', g1, g2⟩ := h1
    rw [hst] at g1
    cases g1
    have : s' = t := g2
    rw [this, ht] at h2
    cases h2
  | single h1 h2 h3 =>
    obtain ⟨_, _, _, t', g1, g2⟩ := h1
    rw [hst] at g1
    cases g1
    exact ⟨rfl, g2⟩
  | breakpoint h1 h2 h3 h4 =>
    have := h4 rfl
    subst this
    have : s' = s := h1
    subst this
    rcases h3 with h3 | h3
    · exact h3.elim
    · exact absurd h3 (stopCode_zero_bkpt h0)
  | @watch k a s1 _ h1 h2 h3 h4 h5 h6 h7 h8 =>
    have := h8 rfl
    subst this
    have : s1 = s := h1
    subst this
    exact (stopCode_zero_watch hw h0 h4 h5).elim

theorem Clear.run {s s2 : State} : ∀ {j : Nat}, Clear cfg P dbg stop j s s2 → s2.halted = false → s.halted = false
  | 0, h, hr => by
    have : s2 = s := h
    rw [← this]; exact hr
  | j + 1, h, _ => h.1

end Isa

namespace Native
variable {h : Host} {c : Client} {Tx : Str → Instr → Prop} {P : List Instr}

theorem View.watched {n : Native} {d : Dbg} (hg : Good h Tx P n) (hv : View h n d) {why : Reason} (hp : d.phase = .stopped why) :
    Watched d.dbg n.wps := by
  rw [← (hv.same.live (by rw [hp]; simp) (by rw [hp]; simp)).2.2.1]
  exact hg.watch

/-- A breakpoint is set. -/
theorem set_view {n n' : Native} {d : Dbg} (hg : Good h Tx P n) (hv : View h n d) {why : Reason}
    (hp : d.phase = .stopped why) {a : Word} (hr : setBreakpoint h a n = (.ok (), n')) :
    ∃ d', View h n' d' ∧ Patched d d' ∧ n'.wps = n.wps ∧ n'.link.dead = n.link.dead ∧ armed n a = false ∧
      (∀ b, armed n' b = if b = a then true else armed n b) := by
  obtain ⟨h1, i, h3, h4⟩ := setBreakpoint_ok hg.rest (fun i hi => hg.text.plainQ hi) hr
  obtain ⟨d', g1, g2⟩ := setProg_view hv hp (wf_bkpt _) (List.getElem?_eq_some_iff.1 h3).1
  subst h4
  refine ⟨d', ⟨g1.rest, g1.same⟩, g2, rfl, rfl, ?_, ?_⟩
  · unfold armed
    rw [h1]
  · intro b
    unfold armed
    rw [Map.emplace, h1]
    simp only [Map.find_append, Map.find_cons]
    by_cases hb : b = a
    · subst hb; simp [h1]
    · have : a ≠ b := fun e => hb e.symm
      simp [hb, this]

/-- A breakpoint is removed. -/
theorem unset_view (ht : Texts h Tx) {n n' : Native} {d : Dbg} (hf : Fine h Tx P n) (hv : View h n d) {why : Reason}
    (hp : d.phase = .stopped why) {a : Word} (hr : unsetBreakpoint h a n = (.ok (), n')) :
    ∃ d', View h n' d' ∧ Patched d d' ∧ n'.wps = n.wps ∧ n'.link.dead = n.link.dead ∧
      (∀ b, armed n' b = if b = a then false else armed n b) := by
  unfold unsetBreakpoint at hr
  obtain ⟨u, n1, h1, hr⟩ := bind_ok hr
  obtain ⟨d', g1, g2, g3, g4, g5, _, _, g6⟩ := disable_view ht hf hv hp h1
  cases hr
  refine ⟨d', ⟨g1.rest, g1.same⟩, g2, g3, g4, ?_⟩
  intro b
  rw [← g5]
  unfold armed
  simp only [Map.find_erase]
  by_cases hb : b = a
  · subst hb
    have := g5 b
    simp only [if_true] at this
    unfold armed at this
    rw [this]
    simp
  · rw [if_neg hb]

/-- The loop of `PerformStepOver`, when the callee returns. -/
theorem overLoop_view (ht : Texts h Tx) {ip bp : Word} {P : List Instr} {s2 : State} {dbg : List Word} {stop' : State → Prop}
    (hpc : s2.pc = ip + 1) (hbp : s2.reg (.int .bp) = bp) (hrun : s2.halted = false) {A : Word → Bool} (hA : A (ip + 1) = true)
    (hout : ∀ s, ¬ stop' s → A s.pc = true → s.pc = ip + 1 ∧ s.reg (.int .bp) ≠ bp) :
    ∀ {fuel : Nat} {n n' : Native} {d : Dbg} {j : Nat} {e : Event}, Fine h Tx P n → View h n d → d.dbg = dbg → d.trap = false →
      (∃ why, d.phase = .stopped why) → (∀ b, armed n b = A b) →
      Clear h.cfg P dbg stop' j d.state s2 → (A d.state.pc = true → d.state.pc = ip + 1 ∧ d.state.reg (.int .bp) ≠ bp) →
      overLoop h c ip bp fuel n = (.ok e, n') →
      ∃ d', View h n' d' ∧ d'.state = s2 ∧ d'.dbg = dbg ∧ d'.trap = false ∧ (∃ why, d'.phase = .stopped why) ∧ Fine h Tx P n' ∧
        (∀ b, armed n' b = A b) ∧ n'.wps = n.wps ∧ n'.link.dead = false := by
  intro fuel
  induction fuel with
  | zero => intro n n' d j e _ _ _ _ _ _ _ _ hr; cases hr
  | succ fuel ih =>
    intro n n' d j e hf hv hdbg htrap hph harm hpath hat hr
    subst hdbg
    obtain ⟨why0, hph0⟩ := hph
    have hwd := hv.watched hf.good hph0
    change (continue' h c >>= fun _ => waitEvent h c >>= fun e => getRegister h "BP".toList >>= fun bp' => getIP h >>= fun ip' =>
      if Event.isBreakpoint e ∧ ip' = ip + 1 ∧ bp ≠ bp' then overLoop h c ip bp fuel else pure e) n = _ at hr
    obtain ⟨u, n1, h1, hr⟩ := bind_ok hr
    obtain ⟨e1, n2, h2, hr⟩ := bind_ok hr
    have hstops : stops n s2 := by
      unfold stops
      rw [harm, hpc]
      exact hA
    have hj : A d.state.pc = true → ∃ j', j = j' + 1 := by
      intro ha
      cases j with
      | zero =>
        have hq : s2 = d.state := hpath
        have := (hat ha).2
        rw [← hq] at this
        exact absurd hbp this
      | succ j => exact ⟨j, rfl⟩
    obtain ⟨d1, w1, w2, w3, w4, w5, w6, w7⟩ := continue_view ht hf hv (by
      intro ha
      rw [harm] at ha
      obtain ⟨j', rfl⟩ := hj ha
      exact stopCode_zero_bkpt hpath.2.2.1) h1 h2
    have hf2 : Fine h Tx P n2 := wait_fine _ _ _ (continue_fineGone ht _ _ _ hf h1) h2
    have key : e1 = .breakpoint d1.state.pc ∧ stops n d1.state ∧ ∃ i, Clear h.cfg P d.dbg stop' i d1.state s2 := by
      rw [htrap] at w1
      cases w1 with
      | free q1 q2 => exact q2.on_path hwd hstops hrun hpath
      | last q1 q2 q3 =>
        have ha : A d.state.pc = true := by rw [← harm]; exact q1
        obtain ⟨j', rfl⟩ := hj ha
        obtain ⟨p1, p2, p3, t, p4, p5⟩ := hpath
        exact absurd (q2.step_on_path hwd p3 p1 p4 (p5.run hrun)).1 q3
      | on q1 q2 q3 =>
        have ha : A d.state.pc = true := by rw [← harm]; exact q1
        obtain ⟨j', rfl⟩ := hj ha
        obtain ⟨p1, p2, p3, t, p4, p5⟩ := hpath
        obtain ⟨_, rfl⟩ := q2.step_on_path hwd p3 p1 p4 (p5.run hrun)
        exact q3.on_path hwd hstops hrun p5
    obtain ⟨rfl, k2, i, k3⟩ := key
    obtain ⟨bp', n3, h3, hr⟩ := bind_ok hr
    obtain ⟨rfl, _, _, rfl⟩ := getBP_view w2 h3
    obtain ⟨ip', n4, h4, hr⟩ := bind_ok hr
    obtain ⟨rfl, _, _, rfl⟩ := getIP_view w2 h4
    have hdbg1 : d1.dbg = d.dbg := w5 (by simp)
    have htr1 : d1.trap = false := w7 (by simp) (by simp) htrap (by simp)
    have harm1 : ∀ b, armed n4 b = A b := fun b => by rw [w3.armed]; exact harm b
    have hA1 : A d1.state.pc = true := by rw [← harm]; exact k2
    split at hr
    · rename_i hcond
      obtain ⟨dd, z1, z2, z3, z4, z5, z6, z7, z8, z9⟩ := ih hf2 w2 hdbg1 htr1 w6 harm1 k3 (fun _ => ⟨hcond.2.1, fun e => hcond.2.2 e.symm⟩) hr
      exact ⟨dd, z1, z2, z3, z4, z5, z6, z7, by rw [z8, w3.wps], z9⟩
    · rename_i hcond
      cases hr
      cases i with
      | zero =>
        have : s2 = d1.state := k3
        exact ⟨d1, w2, this.symm, hdbg1, htr1, w6, hf2, harm1, w3.wps, w4⟩
      | succ i =>
        obtain ⟨p1, p2⟩ := hout _ k3.2.1 hA1
        exact absurd ⟨rfl, p1, fun e => p2 e.symm⟩ hcond

/-- The first word of a printed instruction tells calls. -/
theorem isCall_print (ftos : Word → Str) (i : Instr) : Arch.isCall (i.print ftos) = true ↔ ∃ o, i = .call o := by
  have hp : ∃ r, i.print ftos = i.name ++ r := by
    unfold Instr.print
    split
    · exact ⟨[], by simp⟩
    · exact ⟨_, (by simp only [List.append_assoc]; rfl)⟩
  obtain ⟨r, h1⟩ := hp
  unfold Arch.isCall
  rw [h1, isPrefixOf_iff]
  constructor
  · intro hc
    have hc := List.prefix_or_prefix_of_prefix hc (List.prefix_append i.name r)
    cases i with
    | call o => exact ⟨o, rfl⟩
    | bin op s d x v => cases op <;> exact absurd hc (of_decide_eq_false rfl)
    | fbin op d v => cases op <;> exact absurd hc (of_decide_eq_false rfl)
    | un op d => cases op <;> exact absurd hc (of_decide_eq_false rfl)
    | jcc cc t => cases cc <;> exact absurd hc (of_decide_eq_false rfl)
    | _ => exact absurd hc (of_decide_eq_false rfl)
  · rintro ⟨o, rfl⟩
    exact ⟨r, rfl⟩

/-- What the debugger shows at a stop. -/
theorem View.shows {n : Native} {d : Dbg} (hv : View h n d) {why : Reason} (hp : d.phase = .stopped why) (hd : n.link.dead = false) :
    Native.Shows h n d.state := by
  have hl : n.link.Live := ⟨hv.rest.1, hv.rest.2, hd, why, hv.same.phase.trans hp⟩
  obtain ⟨hi, _⟩ := hv.same.live (by rw [hp]; simp) (by rw [hp]; simp)
  have hq := hv.same.quiet _ hp
  refine ⟨hl, hi.shows hq, ?_⟩
  have hcmd : ∀ w, Cpu.command h.cfg h.gregs h.gram w n.link.vm.cpu .peekRegs =
      .ok (n.link.vm.cpu, .regs ((shown h.cfg).map fun r => (r, d.state.look (.int r))), .stay) := by
    intro w
    have := peekRegs_eq (gregs := h.gregs) (gram := h.gram) (why := w) hi hq
    change (Cpu.peekRegs h.cfg n.link.vm.cpu >>= _) >>= _ = _ at this
    change (Cpu.peekRegs h.cfg n.link.vm.cpu >>= _) = _
    cases hk : Cpu.peekRegs h.cfg n.link.vm.cpu with
    | error f => rw [hk] at this; cases this
    | ok l =>
      rw [hk] at this
      have : l = (shown h.cfg).map fun r => (r, d.state.look (.int r)) := by
        injection this with this
        injection this with _ this
        injection this with this _
        injection this
      rw [this]
      rfl
  have hreg : Proc.fetchRegisters h n.link = (.ok (listed h.cfg d.state), n.link) := by
    unfold Proc.fetchRegisters
    refine Link.fetch_eq (hl.ask_eq (Proto.parse_regs h) fun w => hcmd w) ?_
    change Proc.regMap Proc.signed (Proto.lines (List.map _ _)) = _
    have hreg := Proc.regMap_eq (num := Proc.signed) (t := fun v => ofInt v.toInt) Proc.signed_text (l := listed h.cfg d.state)
      (by intro p hp; obtain ⟨r, _, rfl⟩ := List.mem_map.1 hp; exact Proc.field_reg r) (listed_ok _ _)
    rw [← hreg]
    unfold listed
    rw [List.map_map, List.map_map]
    rfl
  intro r hr
  unfold getRegister getRegisters
  rw [Job.bind_eq (x := proc (Proc.fetchRegisters h)) (t := n) (a := listed h.cfg d.state) (by
    unfold proc
    rw [hreg])]
  rw [find_listed _ hr]
  rfl

end Native
end T86
