import Verif.Lemmas.Over
import Verif.Props.Native

/-! # Stepping, continuing and stops (C12, C19, C31, C33, C34, C46)

`Careful` (`Verif/Spec/Native.lean`) are the sessions for which the correspondence with the sequential machine is proved.
`P` is the text as the user sees it. `Native.Shows h n s`: the debugger is at a stop and shows the state `s` of the sequential
machine. `Native.armed n a`: there is an enabled breakpoint at `a`. `Isa.Ran` and `Isa.Went` say what a debugger should report
after a run, and where the program should then be. -/

set_option linter.unusedSimpArgs false
set_option linter.unusedVariables false
set_option maxRecDepth 100000

namespace T86
open Dbg Str Native Isa

section
variable {h : Host} {c : Client} {Tx : Str → Instr → Prop} {prog P : List Instr} {data : List Word} {inp : List (BitVec 8)} {n n1 n' : Native}

theorem careful_view (ht : Texts h Tx) (hs : prog.length < 2 ^ 63) (hp : ∀ i ∈ prog, Plain h i) (hset : Setup h.cfg prog data)
    (hx : Careful h c Tx prog data inp P n) : Fine h Tx P n ∧ ∃ d, View h n d := by
  have hf := careful_fine ht hs hp hset hx
  obtain ⟨d, hd, _⟩ := hf.stood
  exact ⟨hf, d, hf.good.rest, hd⟩

theorem dbg_view {d : Dbg} (hv : View h n d) {why : Reason} (hp : d.phase = .stopped why) : n.link.vm.cpu.dbg = d.dbg :=
  (hv.same.live (by rw [hp]; simp) (by rw [hp]; simp)).2.2.1

/-- A single step executes one instruction, unless it is BKPT. -/
theorem Ran.one {cfg : Cfg} {dbg : List Word} {wps : Map Word Nat} {s s' : State} {e : Event}
    (hr : Ran cfg P dbg (fun _ => False) wps true s e s') (hb : instrAt P s.pc ≠ .bkpt) :
    step cfg P s = .ok s' ∧ (e = .end' ∧ s'.halted = true ∨ e = .singlestep ∧ s'.halted = false ∨
      ∃ a, e = .watchpoint a ∧ writeAddr s (instrAt P s.pc) = some a ∧ (wps.find a).isSome = true ∧ s'.halted = false) := by
  cases hr with
  | halt h1 h2 h3 =>
    have := h3 rfl
    subst this
    obtain ⟨_, _, _, t, g1, g2⟩ := h1
    have : s' = t := g2
    rw [this] at h2 ⊢
    exact ⟨g1, .inl ⟨rfl, h2⟩⟩
  | single h1 h2 h3 =>
    obtain ⟨_, _, _, t, g1, g2⟩ := h1
    have : s' = t := g2
    rw [this] at h2 ⊢
    exact ⟨g1, .inr (.inl ⟨rfl, h2⟩)⟩
  | breakpoint h1 h2 h3 h4 =>
    have := h4 rfl
    subst this
    have : s' = s := h1
    subst this
    exact absurd (h3.resolve_left id) hb
  | @watch k a s1 _ h1 h2 h3 h4 h5 h6 h7 h8 =>
    have := h8 rfl
    subst this
    have : s1 = s := h1
    subst this
    exact ⟨h6, .inr (.inr ⟨a, rfl, h4, h5, h7⟩)⟩

/-! ## C31 -/

/-- C31, stepping. A single step, whether or not there is a breakpoint at the current instruction, executes the instruction of
the user's text exactly once (if it is not itself BKPT) and leaves the same breakpoints armed. The event says whether the
program has ended or has written to a watched address. -/
theorem C31_step (ht : Texts h Tx) (hs : prog.length < 2 ^ 63) (hp : ∀ i ∈ prog, Plain h i) (hset : Setup h.cfg prog data)
    (hx : Careful h c Tx prog data inp P n) {e : Event} (hr : singleStep h c n = (.ok e, n')) :
    ∃ s s', Native.Shows h n s ∧ Native.Shows h n' s' ∧ (∀ a, armed n' a = armed n a) ∧ n'.wps = n.wps ∧
      (instrAt P s.pc = .bkpt → e = .breakpoint s.pc ∧ s' = s) ∧
      (instrAt P s.pc ≠ .bkpt → step h.cfg P s = .ok s' ∧ (e = .end' ∧ s'.halted = true ∨ e = .singlestep ∧ s'.halted = false ∨
        ∃ a, e = .watchpoint a ∧ writeAddr s (instrAt P s.pc) = some a ∧ (n.wps.find a).isSome = true ∧ s'.halted = false)) := by
  obtain ⟨hf, d, hv⟩ := careful_view ht hs hp hset hx
  obtain ⟨d', h1, h2, h3, h4, h5, h6, ⟨why, h7, _⟩, why', h8⟩ := singleStep_view ht hf hv hr
  have hd : n.link.dead = false := by
    unfold singleStep at hr
    rw [singleStepLoop_succ] at hr
    obtain ⟨ip, n1, g1, _⟩ := Job.bind_ok hr
    exact (getIP_view hv g1).2.2.1
  refine ⟨d.state, d'.state, hv.shows h7 hd, h2.shows h8 h4, h3.armed, h3.wps, fun hb => ?_, fun hb => Ran.one h1 hb⟩
  cases h1 with
  | halt q1 q2 q3 =>
    have := q3 rfl
    subst this
    have := q1.2.2.1
    rw [hb] at this
    simp [stopCode] at this
  | single q1 q2 q3 =>
    have := q1.2.2.1
    rw [hb] at this
    simp [stopCode] at this
  | breakpoint q1 q2 q3 q4 =>
    have := q4 rfl
    subst this
    have : d'.state = d.state := q1
    rw [this]
    exact ⟨rfl, rfl⟩
  | @watch k a s1 _ q1 q2 q3 q4 q5 q6 q7 q8 =>
    have := q8 rfl
    subst this
    have : s1 = d.state := q1
    subst this
    rw [hb] at q4
    cases q4

/-- C31, continuing (except from a breakpoint set on a BKPT of the program itself, see `C31_own_bkpt`). Continuing from an
enabled breakpoint executes the instruction of the user's text first. If this ends the program or writes to a watched address,
that is reported; otherwise the program runs on with the same breakpoints. The same breakpoints are armed afterwards. -/
theorem C31_continue_partial (ht : Texts h Tx) (hs : prog.length < 2 ^ 63) (hp : ∀ i ∈ prog, Plain h i) (hset : Setup h.cfg prog data)
    (hx : Careful h c Tx prog data inp P n) {ip : Word} (hip : getIP h n = (.ok ip, n)) (ha : armed n ip = true)
    (hb : instrAt P ip ≠ .bkpt) {e : Event} (hr : continue' h c n = (.ok (), n1)) (hw : waitEvent h c n1 = (.ok e, n')) :
    ∃ s t s', Native.Shows h n s ∧ s.pc = ip ∧ step h.cfg P s = .ok t ∧ Native.Shows h n' s' ∧
      (∀ a, armed n' a = armed n a) ∧ n'.wps = n.wps ∧
      ((s' = t ∧ (e = .end' ∧ t.halted = true ∨ ∃ a, e = .watchpoint a ∧ writeAddr s (instrAt P s.pc) = some a ∧ (n.wps.find a).isSome = true)) ∨
        Ran h.cfg P n.link.vm.cpu.dbg (fun s => armed n s.pc = true) n.wps false t e s') := by
  obtain ⟨hf, d, hv⟩ := careful_view ht hs hp hset hx
  obtain ⟨_, ⟨why, hph⟩, hd, rfl⟩ := getIP_view hv hip
  obtain ⟨d', h1, h2, h3, h4, h5, ⟨why', h6⟩, _⟩ := continue_view ht hf hv (fun _ => hb) hr hw
  cases h1 with
  | free q1 => exact absurd ha q1
  | last q1 q2 q3 =>
    obtain ⟨g1, g2⟩ := Ran.one q2 hb
    refine ⟨d.state, d'.state, d'.state, hv.shows hph hd, rfl, g1, h2.shows h6 h4, h3.armed, h3.wps, .inl ⟨rfl, ?_⟩⟩
    rcases g2 with g2 | g2 | ⟨a, g3, g4, g5, _⟩
    · exact .inl g2
    · exact absurd g2.1 q3
    · exact .inr ⟨a, g3, g4, g5⟩
  | on q1 q2 q3 =>
    obtain ⟨g1, g2⟩ := Ran.one q2 hb
    refine ⟨d.state, _, d'.state, hv.shows hph hd, rfl, g1, h2.shows h6 h4, h3.armed, h3.wps, .inr ?_⟩
    rw [dbg_view hv hph]
    exact q3

/-- Continuing when there is no breakpoint at the current instruction: the program runs until the first breakpoint, BKPT, write
to a watched address or its end. If the machine's single-step mode is still on from an interrupted single step, it stops
after one instruction (see `C31_step_mode`). The same breakpoints are armed afterwards. -/
theorem C31_continue_free (ht : Texts h Tx) (hs : prog.length < 2 ^ 63) (hp : ∀ i ∈ prog, Plain h i) (hset : Setup h.cfg prog data)
    (hx : Careful h c Tx prog data inp P n) {ip : Word} (hip : getIP h n = (.ok ip, n)) (ha : armed n ip = false)
    {e : Event} (hr : continue' h c n = (.ok (), n1)) (hw : waitEvent h c n1 = (.ok e, n')) :
    ∃ s s', Native.Shows h n s ∧ s.pc = ip ∧ Native.Shows h n' s' ∧ (∀ a, armed n' a = armed n a) ∧ n'.wps = n.wps ∧
      Ran h.cfg P n.link.vm.cpu.dbg (fun s => armed n s.pc = true) n.wps n.link.vm.cpu.trap s e s' := by
  obtain ⟨hf, d, hv⟩ := careful_view ht hs hp hset hx
  obtain ⟨_, ⟨why, hph⟩, hd, rfl⟩ := getIP_view hv hip
  obtain ⟨d', h1, h2, h3, h4, h5, ⟨why', h6⟩, _⟩ := continue_view ht hf hv (fun hb => by rw [ha] at hb; cases hb) hr hw
  obtain ⟨_, _, g1, g2, _⟩ := hv.same.live (by rw [hph]; simp) (by rw [hph]; simp)
  cases h1 with
  | free q1 q2 => exact ⟨d.state, d'.state, hv.shows hph hd, rfl, h2.shows h6 h4, h3.armed, h3.wps, by rw [g1, g2]; exact q2⟩
  | last q1 => exact absurd q1 (by unfold stops; rw [ha]; simp)
  | on q1 => exact absurd q1 (by unfold stops; rw [ha]; simp)

/-! ## C34 -/

theorem Ran.breakpoint_pc {cfg : Cfg} {dbg : List Word} {stop : State → Prop} {wps : Map Word Nat} {trap : Bool} {s s' : State} {a : Word}
    (hr : Ran cfg P dbg stop wps trap s (.breakpoint a) s') : s'.pc = a ∧ (stop s' ∨ instrAt P s'.pc = .bkpt) := by
  cases hr with
  | breakpoint h1 h2 h3 h4 => exact ⟨rfl, h3⟩

/-- C34, stepping. When a single step reports a breakpoint, IP is at the reported address and the program has a BKPT there (a
breakpoint at the current instruction is stepped over). -/
theorem C34_step (ht : Texts h Tx) (hs : prog.length < 2 ^ 63) (hp : ∀ i ∈ prog, Plain h i) (hset : Setup h.cfg prog data)
    (hx : Careful h c Tx prog data inp P n) {a : Word} (hr : singleStep h c n = (.ok (.breakpoint a), n')) :
    getIP h n' = (.ok a, n') ∧ instrAt P a = .bkpt := by
  obtain ⟨hf, d, hv⟩ := careful_view ht hs hp hset hx
  obtain ⟨d', h1, h2, h3, h4, h5, h6, _, why', h8⟩ := singleStep_view ht hf hv hr
  obtain ⟨g1, g2⟩ := Ran.breakpoint_pc h1
  subst g1
  exact ⟨(h2.shows h8 h4).regs .pc (pc_shown _), g2.resolve_left id⟩

/-- C34, continuing (except from a breakpoint set on a BKPT of the program itself, see `C31_own_bkpt`). When continuing ends
with the report of a breakpoint, IP is at the reported address, and there is an enabled breakpoint or a BKPT of the program. -/
theorem C34_continue_partial (ht : Texts h Tx) (hs : prog.length < 2 ^ 63) (hp : ∀ i ∈ prog, Plain h i) (hset : Setup h.cfg prog data)
    (hx : Careful h c Tx prog data inp P n) (hb : ∀ a, armed n a = true → instrAt P a ≠ .bkpt) {a : Word}
    (hr : continue' h c n = (.ok (), n1)) (hw : waitEvent h c n1 = (.ok (.breakpoint a), n')) :
    getIP h n' = (.ok a, n') ∧ (armed n' a = true ∨ instrAt P a = .bkpt) := by
  obtain ⟨hf, d, hv⟩ := careful_view ht hs hp hset hx
  obtain ⟨d', h1, h2, h3, h4, h5, ⟨why', h6⟩, _⟩ := continue_view ht hf hv (hb _) hr hw
  have key : d'.state.pc = a ∧ (stops n d'.state ∨ instrAt P d'.state.pc = .bkpt) := by
    cases h1 with
    | free q1 q2 => exact Ran.breakpoint_pc q2
    | last q1 q2 => exact ⟨(Ran.breakpoint_pc q2).1, .inr ((Ran.breakpoint_pc q2).2.resolve_left id)⟩
    | on q1 q2 q3 => exact Ran.breakpoint_pc q3
  obtain ⟨g1, g2⟩ := key
  subst g1
  refine ⟨(h2.shows h6 h4).regs .pc (pc_shown _), ?_⟩
  rw [h3.armed]
  exact g2

/-! ## C46 -/

theorem over_first {ip : Word} {r : List Str} {i : Instr} (hl : r.length = (1 : Word).toNat)
    (hr : ∀ j k, j < (1 : Word).toNat → P[ip.toNat + j]? = some k → ∃ s, r[j]? = some s ∧ s = k.print h.ftos ∧ Plain h k)
    (hi : P[ip.toNat]? = some i) : ∃ l, r = i.print h.ftos :: l := by
  obtain ⟨s, h1, h2, _⟩ := hr 0 i (by decide) hi
  cases r with
  | nil => cases h1
  | cons x l =>
    simp only [List.getElem?_cons_zero, Option.some.injEq] at h1
    exact ⟨l, by rw [h1, h2]⟩

theorem instrAt_some {ip : Word} {i : Instr} (hi : P[ip.toNat]? = some i) : instrAt P ip = i := by
  unfold instrAt
  rw [hi]
  rfl

/-- C46, other instructions: stepping over an instruction that is not CALL is a single step (see `C31_step`). -/
theorem C46_other (hs : prog.length < 2 ^ 63) (hp : ∀ i ∈ prog, Plain h i)
    (hx : Session h c (fun s i => s = i.print h.ftos ∧ Plain h i) prog data inp P n) {ip : Word} (hip : getIP h n = (.ok ip, n))
    (hc : ∀ o, instrAt P ip ≠ .call o) {e : Event} {fuel : Nat} (hr : stepOver h c fuel true n = (.ok e, n')) :
    singleStep h c n = (.ok e, n') := by
  unfold stepOver at hr
  obtain ⟨ip', n1, h1, hr⟩ := Job.bind_ok hr
  rw [hip] at h1
  cases h1
  obtain ⟨r, n2, h2, hr⟩ := Job.bind_ok hr
  have hg := session_good (texts_print h) hs hp hx
  obtain ⟨rfl, g1, g2, g3⟩ := readText_ok (texts_print h) hg h2
  have hlt : ip.toNat < P.length := by
    have : (1 : Word).toNat = 1 := rfl
    omega
  have hi := List.getElem?_eq_getElem hlt
  obtain ⟨l, rfl⟩ := over_first g2 g3 hi
  obtain ⟨s, n3, h3, hr⟩ := Job.bind_ok hr
  cases h3
  have hn : ¬ Arch.isCall (P[ip.toNat].print h.ftos) = true := by
    rw [isCall_print]
    rintro ⟨o, ho⟩
    exact hc o (by rw [instrAt_some hi, ho])
  rw [if_neg hn] at hr
  exact hr

/-- C46, calls whose callee returns. Let the current instruction be CALL, executed in state `s` with result `s1`, and let the
callee return: after `k` more instructions the program is at the instruction after the call, with the BP it had before (state
`s2`), and not earlier; on the way it does not meet a breakpoint (one at the instruction after the call does not count while
BP differs), a BKPT, a write to a watched address or the end. Then stepping over the call ends with a single-step event in
`s2`, and the same breakpoints are armed. What is missing: a disabled breakpoint at the instruction after the call, and a
breakpoint at the first instruction of the callee (see `C46_disabled`, `C46_entry`). -/
theorem C46_call_partial (hs : prog.length < 2 ^ 63) (hp : ∀ i ∈ prog, Plain h i) (hset : Setup h.cfg prog data)
    (hx : Careful h c (fun s i => s = i.print h.ftos ∧ Plain h i) prog data inp P n) {ip : Word} (hip : getIP h n = (.ok ip, n))
    {o : Operand} (hc : instrAt P ip = .call o) :
    ∃ s, Native.Shows h n s ∧ s.pc = ip ∧ ∀ (s1 s2 : State) (k fuel : Nat) (e : Event) (n' : Native),
      step h.cfg P s = .ok s1 → stopCode n.link.vm.cpu.dbg s (.call o) = 0 → s1.pc ≠ ip + 1 → armed n s1.pc = false →
      Clear h.cfg P n.link.vm.cpu.dbg (fun t => armed n t.pc = true ∧ t.pc ≠ ip + 1 ∨ t.pc = ip + 1 ∧ t.reg (.int .bp) = s1.reg (.int .bp)) k s1 s2 →
      s2.pc = ip + 1 → s2.reg (.int .bp) = s1.reg (.int .bp) → s2.halted = false →
      (∀ bp, n.bps.find (ip + 1) = some bp → bp.enabled = true) →
      stepOver h c fuel true n = (.ok e, n') →
      e = .singlestep ∧ Native.Shows h n' s2 ∧ (∀ a, armed n' a = armed n a) ∧ n'.wps = n.wps := by
  have ht := texts_print h
  obtain ⟨hf, d, hv⟩ := careful_view ht hs hp hset hx
  obtain ⟨_, ⟨why, hph⟩, hd, rfl⟩ := getIP_view hv hip
  refine ⟨d.state, hv.shows hph hd, rfl, ?_⟩
  rw [dbg_view hv hph]
  intro s1 s2 k fuel e n' hst h0 hne hna hpath hpc hbp hrun hen hr
  have hcall : ∀ i, P[d.state.pc.toNat]? = some i → i = .call o := fun i hi => by rw [← hc, instrAt_some hi]
  unfold stepOver at hr
  obtain ⟨ip', n1, h1, hr⟩ := Job.bind_ok hr
  rw [hip] at h1
  cases h1
  obtain ⟨r, n2, h2, hr⟩ := Job.bind_ok hr
  obtain ⟨rfl, g1, g2, g3⟩ := readText_ok ht hf.good h2
  have hlt : d.state.pc.toNat < P.length := by
    have : (1 : Word).toNat = 1 := rfl
    omega
  obtain ⟨l, rfl⟩ := over_first g2 g3 (List.getElem?_eq_getElem hlt)
  rw [hcall _ (List.getElem?_eq_getElem hlt)] at hr
  obtain ⟨s, n3, h3, hr⟩ := Job.bind_ok hr
  cases h3
  rw [if_pos ((isCall_print _ _).2 ⟨o, rfl⟩)] at hr
  obtain ⟨n4, n5, h4, hr⟩ := Job.bind_ok hr
  cases h4
  dsimp only at hr
  rw [if_pos rfl] at hr
  have htail : ∀ (m : Native) (K : Event → N Event) (dm : Dbg), Fine h (fun s i => s = i.print h.ftos ∧ Plain h i) P m → View h m dm →
      Patched d dm → m.wps = n2.wps → (∀ b, armed m b = if b = d.state.pc + 1 then true else armed n2 b) →
      (singleStep h c >>= fun _ => getRegister h "BP".toList >>= fun bp => overLoop h c d.state.pc bp fuel >>= K) m = (.ok e, n') →
      ∃ e1 m2 d2, K e1 m2 = (.ok e, n') ∧ Fine h (fun s i => s = i.print h.ftos ∧ Plain h i) P m2 ∧ View h m2 d2 ∧ d2.state = s2 ∧
        (∃ why, d2.phase = .stopped why) ∧ (∀ b, armed m2 b = if b = d.state.pc + 1 then true else armed n2 b) ∧ m2.wps = n2.wps ∧
        m2.link.dead = false := by
    intro m K dm a1 a2 a3 a4 a5 a6
    obtain ⟨e0, m1, b1, a6⟩ := Job.bind_ok a6
    obtain ⟨d1, c1, c2, c3, c4, c5, c6, ⟨w0, c7, c8⟩, w1, c9⟩ := singleStep_view ht a1 a2 b1
    have hwd : Watched dm.dbg m.wps := a2.watched a1.good c7
    rw [a3.dbg] at hwd c1
    rw [a3.state] at c1
    have hph' : d.phase = .stopped w0 := by rw [← a3.phase]; exact c7
    have hh : d.state.halted = false := (hv.same.run (.inr ⟨w0, hph', c8⟩)).1
    obtain ⟨rfl, hs1⟩ := c1.step_on_path hwd (by rw [hc]; exact h0) hh hst (hpath.run hrun)
    have hf1 := singleStep_fine ht _ _ _ a1 b1
    obtain ⟨bp, m2, b2, a6⟩ := Job.bind_ok a6
    obtain ⟨rfl, _, _, rfl⟩ := getBP_view c2 b2
    obtain ⟨e2, m3, b3, a6⟩ := Job.bind_ok a6
    have hA : ∀ b, armed m2 b = if b = d.state.pc + 1 then true else armed n2 b := fun b => by rw [c3.armed]; exact a5 b
    have hdbg : d1.dbg = d.dbg := by rw [c5 (by simp), a3.dbg]
    rw [← hs1] at hpath hbp hne hna
    obtain ⟨d2, z1, z2, z3, z4, z5, z6, z7, z8, z9⟩ := overLoop_view (ht := ht) (dbg := d.dbg) (s2 := s2)
      (stop' := fun t => armed n2 t.pc = true ∧ t.pc ≠ d.state.pc + 1 ∨ t.pc = d.state.pc + 1 ∧ t.reg (.int .bp) = d1.state.reg (.int .bp))
      (A := fun b => if b = d.state.pc + 1 then true else armed n2 b) hpc hbp hrun (by simp)
      (by
        intro t ht1 ht2
        by_cases hb : t.pc = d.state.pc + 1
        · exact ⟨hb, fun e => ht1 (.inr ⟨hb, e⟩)⟩
        · simp only [hb, if_false] at ht2
          exact absurd (.inl ⟨ht2, hb⟩) ht1)
      hf1 c2 hdbg (by rw [c6]; rfl) ⟨w1, c9⟩ hA hpath (by
        intro hb
        simp only [hne, if_false] at hb
        rw [hna] at hb
        cases hb) b3
    exact ⟨e2, m3, d2, a6, z6, z1, z2, z5, z7, by rw [z8, c3.wps, a4], z9⟩
  cases hex : (n2.bps.find (d.state.pc + 1)).isSome with
  | true =>
    simp only [hex, if_true] at hr
    obtain ⟨bp, hbpf⟩ := Option.isSome_iff_exists.1 hex
    have harm : armed n2 (d.state.pc + 1) = true := by
      unfold armed
      rw [hbpf]
      exact hen bp hbpf
    have hsame : ∀ b, (if b = d.state.pc + 1 then true else armed n2 b) = armed n2 b := by
      intro b
      by_cases hb : b = d.state.pc + 1
      · rw [if_pos hb, hb]; exact harm.symm
      · rw [if_neg hb]
    obtain ⟨e1, m2, d2, hr, y1, y2, y3, ⟨w, y4⟩, y5, y6, y7⟩ := htail n2 _ d hf hv ⟨rfl, rfl, rfl, rfl⟩ rfl (fun b => (hsame b).symm) hr
    obtain ⟨ip2, m3, h5, hr⟩ := Job.bind_ok hr
    obtain ⟨rfl, _, _, rfl⟩ := getIP_view y2 h5
    rw [y3, hpc] at hr
    simp only [ne_eq, not_true_eq_false, if_false] at hr
    cases hr
    exact ⟨rfl, by rw [← y3]; exact y2.shows y4 y7, fun b => by rw [y5, hsame], y6⟩
  | false =>
    simp only [hex, Bool.false_eq_true, if_false] at hr
    obtain ⟨u, m, h5, hr⟩ := Job.bind_ok hr
    obtain ⟨dm, k1, k2, k3, k4, k5, k6⟩ := set_view hf.good hv hph h5
    obtain ⟨e1, m2, d2, hr, y1, y2, y3, ⟨w, y4⟩, y5, y6, y7⟩ := htail m _ dm (set_fine ht _ _ _ hf h5) k1 k2 k3 k6 hr
    obtain ⟨u, m3, h6, hr⟩ := Job.bind_ok hr
    obtain ⟨d3, j1, j2, j3, j4, j5⟩ := unset_view ht y1 y2 y4 h6
    obtain ⟨ip2, m4, h7, hr⟩ := Job.bind_ok hr
    obtain ⟨rfl, _, _, rfl⟩ := getIP_view j1 h7
    rw [j2.state, y3, hpc] at hr
    simp only [ne_eq, not_true_eq_false, if_false] at hr
    cases hr
    refine ⟨rfl, ?_, fun b => ?_, by rw [j3, y6]⟩
    · rw [← y3, ← j2.state]
      exact j1.shows (by rw [j2.phase]; exact y4) (by rw [j4]; exact y7)
    · rw [j5, y5]
      by_cases hb : b = d.state.pc + 1
      · rw [if_pos hb, hb, k5]
      · rw [if_neg hb, if_neg hb]

/-! ## C12, C33 -/

/-- C12, decoding. After a hit of debug register `j` the control register is as in `C12_watchpoint`; the debugger, which fetches
the five debug registers, decodes `j` from it. -/
theorem C12_decoded {D : List Word} (hD : D.length = 5) {j : Nat} (hj : j < 4) :
    ∀ l : Link, l.Live → l.vm.cpu.dbg = D.set 4 ((D.getD 4 0 &&& 0xFFFFFFFFFFFF00FF#64) ||| BitVec.ofNat 64 (2 ^ (8 + j))) →
      ∃ regs, Proc.fetchDebugRegisters h l = (.ok regs, l) ∧ Arch.responsible regs = .ok j := by
  intro l hl he
  refine ⟨_, Proc.fetchDebugs_live hl, ?_⟩
  rw [he]
  exact responsible_mark hD hj

/-- C12 in a session: when a step or continuing reports a watchpoint at `a`, there is a watchpoint at `a`, the last instruction
wrote to `a`, and no instruction of the run before it caused an interrupt. -/
theorem C12_event (ht : Texts h Tx) (hs : prog.length < 2 ^ 63) (hp : ∀ i ∈ prog, Plain h i) (hset : Setup h.cfg prog data)
    (hx : Careful h c Tx prog data inp P n) {ip : Word} (hip : getIP h n = (.ok ip, n)) (ha : armed n ip = false)
    {a : Word} (hr : continue' h c n = (.ok (), n1)) (hw : waitEvent h c n1 = (.ok (.watchpoint a), n')) :
    ∃ s s1 s' k, Native.Shows h n s ∧ Clear h.cfg P n.link.vm.cpu.dbg (fun s => armed n s.pc = true) k s s1 ∧
      writeAddr s1 (instrAt P s1.pc) = some a ∧ (n.wps.find a).isSome = true ∧ step h.cfg P s1 = .ok s' ∧ Native.Shows h n' s' := by
  obtain ⟨s, s', h1, _, h2, _, _, h3⟩ := C31_continue_free ht hs hp hset hx hip ha hr hw
  cases h3 with
  | @watch k a s1 _ q1 q2 q3 q4 q5 q6 q7 q8 => exact ⟨s, s1, s', k, h1, q1, q4, q5, q6, h2⟩

/-- C33 fails for every session: removing a watchpoint does not change the debug registers of the debuggee, so the register
goes on holding the address and being active. -/
theorem C33_still_active (ht : Texts h Tx) (hs : prog.length < 2 ^ 63) (hp : ∀ i ∈ prog, Plain h i)
    (hx : Session h c Tx prog data inp P n) {a : Word} (hr : removeWatchpoint h a n = (.ok (), n')) :
    n'.wps.find a = none ∧ ∃ i, i < 4 ∧ n'.link.vm.cpu.dbg.getD i 0 = a ∧ (n'.link.vm.cpu.dbg.getD 4 0).getLsbD i = true ∧
      (watchHit n'.link.vm.cpu.dbg a).isSome = true := by
  have hg := session_good ht hs hp hx
  unfold removeWatchpoint at hr
  obtain ⟨m, n1, h1, hr⟩ := Job.bind_ok hr
  cases h1
  cases hf : n.wps.find a with
  | none => rw [hf] at hr; cases hr
  | some i =>
    rw [hf] at hr
    simp only at hr
    obtain ⟨regs, n2, h2, hr2⟩ := Job.bind_ok hr
    obtain ⟨g1, g2⟩ := proc_ok h2
    have hl := (Proc.fetchDebugs_eq hg.rest g1).1
    have hn2 : n2 = n := by rw [g2, hl]
    subst hn2
    obtain ⟨x, n3, h3, hr3⟩ := Job.bind_ok hr2
    have hn3 : n3 = n2 := (congrArg Prod.snd h3).symm
    subst hn3
    cases hr3
    have hm := (Map.find_iff_mem hg.watch.ok a i).1 hf
    refine ⟨by simp [Map.find_erase], i, hg.watch.small _ hm, hg.watch.addr _ hm, hg.watch.active _ hm, hg.watch.hit (by rw [hf]; rfl)⟩

/-- C33, the one case in which it holds: the debug register of the removed watchpoint is taken by the next one that is set. If
every active debug register belonged to a watchpoint, no register watches the old address then. -/
theorem C33_reused_partial (ht : Texts h Tx) (hs : prog.length < 2 ^ 63) (hp : ∀ i ∈ prog, Plain h i)
    (hx : Session h c Tx prog data inp P n) {a b : Word} {i : Nat} (hi : n.wps.find a = some i) (hr : removeWatchpoint h a n = (.ok (), n1))
    (hw : setWatchpoint h b n1 = (.ok (), n')) (hb : n'.wps.find b = some i) (hne : b ≠ a)
    (hall : ∀ j, j < 4 → (n.link.vm.cpu.dbg.getD 4 0).getLsbD j = true → ∃ w ∈ n.wps, w.2 = j) :
    watchHit n'.link.vm.cpu.dbg a = none := by
  have hg := session_good ht hs hp hx
  have hx1 : Session h c Tx prog data inp P n1 := .call (.unwatch a) hx hr rfl
  have hd : n1.link.vm.cpu.dbg = n.link.vm.cpu.dbg := by
    unfold removeWatchpoint at hr
    obtain ⟨m, n1, h1, hr⟩ := Job.bind_ok hr
    cases h1
    rw [hi] at hr
    simp only at hr
    obtain ⟨regs, n2, h2, hr2⟩ := Job.bind_ok hr
    obtain ⟨g1, g2⟩ := proc_ok h2
    have hl := (Proc.fetchDebugs_eq hg.rest g1).1
    have hn2 : n2 = n := by rw [g2, hl]
    obtain ⟨x, n3, h3, hr3⟩ := Job.bind_ok hr2
    have hn3 : n3 = n2 := (congrArg Prod.snd h3).symm
    cases hr3
    rw [hn3, hn2]
  obtain ⟨h1, k, h2, h3, h4, h5, h6, h7⟩ := C32_set ht hs hp hx1 hw
  have hki : k = i := by
    rw [h4, Map.find_append, h1] at hb
    simpa [Map.find_cons] using hb
  subst hki
  rw [hd] at h7
  unfold watchHit
  rw [List.find?_eq_none]
  intro j hj hh
  have hj4 : j < 4 := by
    simp only [List.mem_cons, List.not_mem_nil, or_false] at hj
    omega
  unfold watches at hh
  simp only [Bool.and_eq_true, beq_iff_eq] at hh
  by_cases hjk : j = k
  · subst hjk
    exact hne (h5.symm.trans hh.2)
  · obtain ⟨g1, g2⟩ := h7 j hj4 hjk
    rw [g1, g2] at hh
    obtain ⟨w, w1, w2⟩ := hall j hj4 hh.1
    have := hg.watch.addr w w1
    rw [w2, hh.2] at this
    have hf := Map.find_eq_some_of_mem hg.watch.ok (k := w.1) (v := w.2) w1
    rw [← this, hi] at hf
    injection hf with hf
    exact hjk (w2.symm.trans hf.symm)

/-! ## C19 -/

/-- C19. The reason sent by the machine is decoded by the debugger to the same reason. -/
theorem C19_decoded (r : Reason) : Proc.decodeReason (Proto.reason r) = .ok r := by cases r <;> rfl

/-- C19. Every other reply is rejected. -/
theorem C19_rejected (m : Str) (hm : ∀ r, m ≠ Proto.reason r) : Proc.decodeReason m = .error .runtime := by
  unfold Proc.decodeReason
  have h1 : m ≠ "START".toList := hm .begin
  have h2 : m ≠ "SW_BKPT".toList := hm .swBkpt
  have h3 : m ≠ "HW_BKPT".toList := hm .hwBkpt
  have h4 : m ≠ "SINGLESTEP".toList := hm .singleStep
  have h5 : m ≠ "HALT".toList := hm .halt
  have h6 : m ≠ "CPU_ERROR".toList := hm .cpuError
  rw [if_neg h1, if_neg h2, if_neg h3, if_neg h4, if_neg h5, if_neg h6]

/-- C19. The debugger that asks a stopped machine for the reason gets the reason for which it stopped. -/
theorem C19_received {l : Link} (hl : l.Live) : ∃ why, l.vm.phase = .stopped why ∧ Proc.getReason h l = (.ok why, l) := by
  obtain ⟨why, hw⟩ := hl.stopped
  refine ⟨why, hw, ?_⟩
  unfold Proc.getReason
  have hask : (Link.send "REASON".toList >>= fun _ => Link.receive h) l = (.ok (some (Proto.reason why)), l) := by
    rw [Link.ask_eq hl.1 hl.2 hl.3 hw (Proto.parse_reason h)
      (show Cpu.command h.cfg h.gregs h.gram why l.vm.cpu .reason = .ok (l.vm.cpu, .reason why, .stay) from rfl), Link.leave_stay hw]
    rfl
  rw [Link.answer_eq hask]
  unfold Job.ofExcept
  rw [C19_decoded]

/-- C19. An interrupt number has exactly one reason: 1 is a single step, 2 a hardware breakpoint, 3 a software breakpoint; 0
is no interrupt, and every other number is an error. -/
theorem C19_interrupt {cfg : Cfg} {x x' : Cpu} (hx : Cpu.tick cfg x = .ok x') (hh : x'.halted = false) :
    (x'.intr = 0 → Vm.tick cfg x = .ok (⟨x', .running⟩, [])) ∧
    (∀ r, (∃ vm rs, Vm.tick cfg x = .ok (vm, rs) ∧ vm.phase = .stopped r) ↔
      x'.intr = 1 ∧ r = .singleStep ∨ x'.intr = 2 ∧ r = .hwBkpt ∨ x'.intr = 3 ∧ r = .swBkpt) ∧
    (3 < x'.intr → Vm.tick cfg x = .error (.exn .runtimeError)) := by
  unfold Vm.tick
  rw [hx]
  simp only [hh, Bool.false_eq_true, if_false]
  generalize x'.intr = k
  match k with
  | 0 => simp
  | 1 => simp [Vm.enter, eq_comm]
  | 2 => simp [Vm.enter, eq_comm]
  | 3 => simp [Vm.enter, eq_comm]
  | k + 4 => simp

end

/-! ## Examples and counterexamples -/

/-- Calls other than writes of text and memory make a careful session. -/
theorem Sample.careful {Tx : Str → Instr → Prop} {p : List Instr} : ∀ {l : List Op} {n : Native}, Careful Sample.host Sample.client Tx p [] [] p n →
    l.all (fun o => match o with | .write _ _ => false | .writeMemory _ _ => false | _ => true) = true → Sample.succeed n l = true →
    Careful Sample.host Sample.client Tx p [] [] p (Sample.after n l)
  | [], _, hn, _, _ => hn
  | o :: l, n, hn, hw, hs => by
    simp only [List.all_cons, Bool.and_eq_true, Sample.succeed, decide_eq_true_eq] at hw hs
    refine Sample.careful (l := l) (.call o hn (Prod.ext hs.1 rfl) ?_ ?_) hw.2 hs.2
    · cases o <;> first | rfl | (exact absurd hw.1 (by simp))
    · cases o <;> first | trivial | (exact absurd hw.1 (by simp))

theorem Sample.starts {Tx : Str → Instr → Prop} {p : List Instr}
    (hb : ((Native.waitEvent Sample.host Sample.client (Native.connect Sample.host p [] [])).1 = .ok .begin)) :
    Careful Sample.host Sample.client Tx p [] [] p (Sample.started p) := .begin (Prod.ext hb rfl)

/-- Non-vacuity: the history of `Verif/Props/Native.lean` is careful. -/
theorem Sample.history_careful {Tx : Str → Instr → Prop} :
    Careful Sample.host Sample.client Tx Sample.calls [] [] Sample.calls (Sample.after (Sample.started Sample.calls) Sample.history) :=
  Sample.careful (Sample.starts (by decide +kernel)) (by decide) (by decide +kernel)

theorem Sample.calls_setup : Setup Sample.host.cfg Sample.calls [] := ⟨by decide, by decide, by decide⟩

/-- Non-vacuity of C31 and C34: from the breakpoint at 1 (on the CALL), a step leads into the callee; continuing from there
stops at the breakpoint at 4. -/
example :
    (Native.getIP Sample.host (Sample.after (Sample.started Sample.calls) [.set 1, .set 4, .go])).1 = .ok 1 ∧
    Native.armed (Sample.after (Sample.started Sample.calls) [.set 1, .set 4, .go]) 1 = true ∧
    (Native.singleStep Sample.host Sample.client (Sample.after (Sample.started Sample.calls) [.set 1, .set 4, .go])).1 = .ok .singlestep ∧
    (Native.getIP Sample.host (Sample.after (Sample.started Sample.calls) [.set 1, .set 4, .go, .step])).1 = .ok 6 ∧
    (Native.waitEvent Sample.host Sample.client
      (Native.continue' Sample.host Sample.client (Sample.after (Sample.started Sample.calls) [.set 1, .set 4, .go])).2).1 = .ok (.breakpoint 4) ∧
    (Native.getIP Sample.host (Sample.after (Sample.started Sample.calls) [.set 1, .set 4, .go, .go])).1 = .ok 4 := by
  decide +kernel

/-- A program with a BKPT of its own. -/
def Sample.owns : List Instr := [.mov (.val (.reg (.gp 0))) (.imm 3), .bkpt, .mov (.val (.reg (.gp 1))) (.imm 4), .halt]

/-- C31 and C34 fail for a breakpoint set on a BKPT of the program itself: continuing from it reports the breakpoint at 1, but
IP has been decremented twice and is 0. -/
theorem C31_own_bkpt :
    (Native.getIP Sample.host (Sample.after (Sample.started Sample.owns) [.set 1, .go])).1 = .ok 1 ∧
    (Native.waitEvent Sample.host Sample.client
      (Native.continue' Sample.host Sample.client (Sample.after (Sample.started Sample.owns) [.set 1, .go])).2).1 = .ok (.breakpoint 1) ∧
    (Native.getIP Sample.host (Sample.after (Sample.started Sample.owns) [.set 1, .go, .go])).1 = .ok 0 := by
  decide +kernel

/-- A BKPT of the program itself cannot be passed, neither by continuing nor by stepping. -/
theorem C31_own_bkpt_stuck :
    (Native.getIP Sample.host (Sample.after (Sample.started Sample.owns) [.go])).1 = .ok 1 ∧
    (Native.getIP Sample.host (Sample.after (Sample.started Sample.owns) [.go, .go])).1 = .ok 1 ∧
    (Native.getIP Sample.host (Sample.after (Sample.started Sample.owns) [.go, .step])).1 = .ok 1 := by
  decide +kernel

/-- After a step that was interrupted by a watchpoint, single-step mode is still on: continuing executes one instruction only
and reports a single step. -/
theorem C31_step_mode :
    (Native.singleStep Sample.host Sample.client (Sample.after (Sample.started Sample.calls) [.watch 8, .set 2, .go])).1 = .ok (.watchpoint 8) ∧
    (Native.waitEvent Sample.host Sample.client
      (Native.continue' Sample.host Sample.client (Sample.after (Sample.started Sample.calls) [.watch 8, .set 2, .go, .step])).2).1 = .ok .singlestep ∧
    (Native.getIP Sample.host (Sample.after (Sample.started Sample.calls) [.watch 8, .set 2, .go, .step, .go])).1 = .ok 4 := by
  decide +kernel

/-- C33 fails: after the watchpoint at 8 has been removed the store to 8 interrupts the debuggee, and the debugger, which does
not know the watchpoint any more, fails an assertion. -/
theorem C33_removed_hit :
    Sample.succeed (Sample.started Sample.calls) [.watch 8, .unwatch 8] = true ∧
    (Native.waitEvent Sample.host Sample.client
      (Native.continue' Sample.host Sample.client (Sample.after (Sample.started Sample.calls) [.watch 8, .unwatch 8])).2).1 = .error .abort := by
  decide +kernel

/-- Non-vacuity of `C33_reused_partial`: after the watchpoint at 8 has been replaced by one at 9, the store to 8 passes. -/
example :
    (Sample.after (Sample.started Sample.calls) [.watch 8]).wps.find 8 = some 0 ∧
    (Sample.after (Sample.started Sample.calls) [.watch 8, .unwatch 8, .watch 9]).wps.find 9 = some 0 ∧
    (Native.waitEvent Sample.host Sample.client
      (Native.continue' Sample.host Sample.client (Sample.after (Sample.started Sample.calls) [.watch 8, .unwatch 8, .watch 9])).2).1 = .ok .end' := by
  decide +kernel

/-- Non-vacuity of C12: the watchpoint at 8 is hit by the store at 2 and reported. -/
example :
    (Native.waitEvent Sample.host Sample.client
      (Native.continue' Sample.host Sample.client (Sample.after (Sample.started Sample.calls) [.watch 8])).2).1 = .ok (.watchpoint 8) ∧
    (Native.getIP Sample.host (Sample.after (Sample.started Sample.calls) [.watch 8, .go])).1 = .ok 3 := by
  decide +kernel

/-- Non-vacuity of C46: stepping over the CALL at 1, with and without a breakpoint at 2, ends at 2. -/
example :
    (Native.stepOver Sample.host Sample.client 5 true (Sample.after (Sample.started Sample.calls) [.step])).1 = .ok .singlestep ∧
    (Native.getIP Sample.host (Sample.after (Sample.started Sample.calls) [.step, .over 5 true])).1 = .ok 2 ∧
    (Sample.after (Sample.started Sample.calls) [.step, .over 5 true]).bps = [] ∧
    (Native.getIP Sample.host (Sample.after (Sample.started Sample.calls) [.set 2, .step, .over 5 true])).1 = .ok 2 ∧
    Native.armed (Sample.after (Sample.started Sample.calls) [.set 2, .step, .over 5 true]) 2 = true := by
  decide +kernel

/-- Non-vacuity of the hypotheses of `C46_call_partial`: in the sample program the state after the first instruction is at the
CALL, and the callee returns after two instructions. -/
example : ∃ s s1 s2, Isa.runs Sample.cfg Sample.calls 1 (Isa.start Sample.cfg [] []) s ∧ instrAt Sample.calls s.pc = .call (.imm 6) ∧
    step Sample.cfg Sample.calls s = .ok s1 ∧ stopCode [0, 0, 0, 0, 0] s (.call (.imm 6)) = 0 ∧ s1.pc ≠ s.pc + 1 ∧
    Clear Sample.cfg Sample.calls [0, 0, 0, 0, 0] (fun t => t.pc = s.pc + 1 ∧ t.reg (.int .bp) = s1.reg (.int .bp)) 2 s1 s2 ∧
    s2.pc = s.pc + 1 ∧ s2.reg (.int .bp) = s1.reg (.int .bp) ∧ s2.halted = false := by
  refine ⟨_, _, _, ⟨rfl, _, rfl, rfl⟩, rfl, rfl, by decide, by decide, ⟨rfl, ?_, by decide, _, rfl, rfl, ?_, by decide, _, rfl, rfl⟩, rfl, rfl, rfl⟩
  · rintro ⟨h, _⟩; revert h; decide
  · rintro ⟨h, _⟩; revert h; decide

/-- C46 fails when there is a disabled breakpoint at the instruction after the call: stepping over runs to the end. -/
theorem C46_disabled :
    (Native.stepOver Sample.host Sample.client 5 true (Sample.after (Sample.started Sample.calls) [.set 2, .disable 2, .step])).1 = .ok .end' := by
  decide +kernel

/-- A breakpoint at the first instruction of the callee is not noticed by stepping over. -/
theorem C46_entry :
    (Native.stepOver Sample.host Sample.client 5 true (Sample.after (Sample.started Sample.calls) [.set 6, .step])).1 = .ok .singlestep ∧
    (Native.getIP Sample.host (Sample.after (Sample.started Sample.calls) [.set 6, .step, .over 5 true])).1 = .ok 2 := by
  decide +kernel

/-- On a machine with more than ten registers, a breakpoint stop cannot be handled by a debugger that expects ten: moving IP
back writes all registers, and `R10` is rejected. -/
theorem C34_many_registers :
    (Native.waitEvent { Sample.host with cfg := { Sample.cfg with nreg := 11 } } Sample.client
      (Native.continue' { Sample.host with cfg := { Sample.cfg with nreg := 11 } } Sample.client
        (Native.setBreakpoint { Sample.host with cfg := { Sample.cfg with nreg := 11 } } 1
          (Native.waitEvent { Sample.host with cfg := { Sample.cfg with nreg := 11 } } Sample.client
            (Native.connect { Sample.host with cfg := { Sample.cfg with nreg := 11 } } Sample.calls [] [])).2).2).2).1 = .error .debugger := by
  decide +kernel

end T86
