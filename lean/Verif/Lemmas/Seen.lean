import Verif.Lemmas.View

/-! The debugger's calls in terms of the debugged sequential machine. -/

set_option linter.unusedSimpArgs false
set_option linter.unusedVariables false

namespace T86
open Dbg Str Isa Job

namespace Proc
open Link
variable {h : Host}

/-- A stop that is announced was the end of a run. -/
theorem wait_running {s : Str} {fuel : Nat} {l l' : Link} (hv : l.toVm = []) (hd : l.toDbg = [])
    (hr : receiveLoop h fuel l = (.ok (some s), l')) : l.vm.phase = .running := by
  cases fuel with
  | zero => unfold receiveLoop at hr; rw [hd] at hr; cases hr
  | succ fuel =>
    unfold receiveLoop at hr
    rw [hd] at hr
    simp only at hr
    unfold turn at hr
    cases hdd : l.dead with
    | true => rw [hdd] at hr; cases hr
    | false =>
      rw [hdd] at hr
      cases hp : l.vm.phase with
      | running => rfl
      | stopped w => rw [hp] at hr; simp only [Bool.false_eq_true, if_false, hv] at hr; cases hr
      | failed => rw [hp] at hr; simp only [Bool.false_eq_true, if_false, hv] at hr; cases hr
      | ended b => rw [hp] at hr; simp only [Bool.false_eq_true, if_false] at hr; cases hr

end Proc

/-- Decoding the control register. -/
theorem responsible_mark {D : List Word} (hD : D.length = 5) {j : Nat} (hj : j < 4) :
    Arch.responsible (Proc.listing 0 (mark D j)) = .ok j := by
  have h4 := Proc.find_listing 0 (mark D j) 4
  have h5 : (mark D j)[4]? = some ((D.getD 4 0 &&& 0xFFFFFFFFFFFF00FF#64) ||| BitVec.ofNat 64 (2 ^ (8 + j))) := by
    unfold mark
    rw [List.getElem?_set_self (by omega)]
  rw [h5] at h4
  have h7 : Arch.at' (Proc.listing 0 (mark D j)) "D4".toList = .ok ((D.getD 4 0 &&& 0xFFFFFFFFFFFF00FF#64) ||| BitVec.ofNat 64 (2 ^ (8 + j))) := by
    unfold Arch.at'
    rw [show Map.find (Proc.listing 0 (mark D j)) "D4".toList = _ from h4]
  unfold Arch.responsible
  rw [h7]
  simp only [Bind.bind, Except.bind]
  generalize D.getD 4 0 = w
  have dist : ∀ w A B C : Word, ((w &&& A) ||| B) &&& C = (w &&& (A &&& C)) ||| (B &&& C) := by
    intro w A B C
    apply BitVec.eq_of_getLsbD_eq
    intro i _
    simp only [BitVec.getLsbD_and, BitVec.getLsbD_or]
    cases w.getLsbD i <;> cases A.getLsbD i <;> cases B.getLsbD i <;> cases C.getLsbD i <;> rfl
  have key : ((((w &&& 0xFFFFFFFFFFFF00FF#64) ||| BitVec.ofNat 64 (2 ^ (8 + j))) &&& (0xFF00 : Word)) >>> 8) = BitVec.ofNat 64 (2 ^ j) := by
    rw [dist]
    have h0 : (0xFFFFFFFFFFFF00FF#64 &&& (0xFF00 : Word)) = 0#64 := by decide
    rw [h0, BitVec.and_zero, BitVec.zero_or]
    have hj' : j = 0 ∨ j = 1 ∨ j = 2 ∨ j = 3 := by omega
    rcases hj' with rfl | rfl | rfl | rfl <;> decide
  rw [key]
  have hj' : j = 0 ∨ j = 1 ∨ j = 2 ∨ j = 3 := by omega
  rcases hj' with rfl | rfl | rfl | rfl <;> decide

/-- What `MapReasonToEvent` makes of a stop. -/
def Told (wps : Map Word Nat) (d : Dbg) : Reason → Event → Prop
  | .swBkpt, e => e = .breakpoint (d.state.pc - 1)
  | .hwBkpt, e => ∃ w ∈ wps, Arch.responsible (Proc.listing 0 d.dbg) = .ok w.2 ∧ e = .watchpoint w.1
  | .singleStep, e => e = .singlestep
  | .halt, e => e = .end'
  | .begin, e => e = .begin
  | .cpuError, e => e = .cpuError d.state.pc

/-- The correction of IP. -/
def back (d : Dbg) (e : Event) : Dbg :=
  if Native.Event.isBreakpoint e then { d with state := { d.state with pc := d.state.pc - 1 } } else d

namespace Native
open Proc
variable {h : Host} {c : Client} {Tx : Str → Instr → Prop} {P : List Instr}

/-- The debugger at a stop. -/
structure View (h : Host) (n : Native) (d : Dbg) : Prop where
  rest : n.link.At
  same : Matches h.cfg n.link.vm d

theorem getRegisters_view {n n' : Native} {d : Dbg} (hv : View h n d) {m : Map Str Word} (hr : getRegisters h n = (.ok m, n')) :
    n' = n ∧ (∃ why, d.phase = .stopped why) ∧ n.link.dead = false ∧ m = listed h.cfg d.state := by
  have h0 := getRegisters_ok hv.rest hr
  obtain ⟨h1, h2⟩ := proc_ok hr
  obtain ⟨_, h4, h5, h6⟩ := fetchRegisters_view hv.rest hv.same h1
  exact ⟨h0, h4, h5, h6⟩

theorem getRegister_view {n n' : Native} {d : Dbg} (hv : View h n d) {r : Reg} (hr : r ∈ shown h.cfg) {v : Word}
    (he : getRegister h r.print n = (.ok v, n')) :
    n' = n ∧ (∃ why, d.phase = .stopped why) ∧ n.link.dead = false ∧ v = d.state.look (.int r) := by
  unfold getRegister at he
  obtain ⟨m, n1, h1, h2⟩ := bind_ok he
  obtain ⟨rfl, h3, h4, rfl⟩ := getRegisters_view hv h1
  rw [find_listed _ hr] at h2
  cases h2
  exact ⟨rfl, h3, h4, rfl⟩

theorem getIP_view {n n' : Native} {d : Dbg} (hv : View h n d) {v : Word} (he : getIP h n = (.ok v, n')) :
    n' = n ∧ (∃ why, d.phase = .stopped why) ∧ n.link.dead = false ∧ v = d.state.pc :=
  getRegister_view hv (r := .pc) (pc_shown _) he

theorem getBP_view {n n' : Native} {d : Dbg} (hv : View h n d) {v : Word} (he : getRegister h "BP".toList n = (.ok v, n')) :
    n' = n ∧ (∃ why, d.phase = .stopped why) ∧ n.link.dead = false ∧ v = d.state.reg (.int .bp) :=
  getRegister_view hv (r := .bp) (bp_shown _) he

theorem mapReason_view {n n' : Native} {d : Dbg} (hv : View h n d) {r : Reason} {e : Event} (he : mapReason h r n = (.ok e, n')) :
    n' = n ∧ Told n.wps d r e ∧ (r = .swBkpt ∨ r = .cpuError → ∃ why, d.phase = .stopped why) ∧
      (r = .hwBkpt → d.phase ≠ .failed → n.link.vm.cpu.dbg = d.dbg) := by
  have h0 := mapReason_ok hv.rest he
  refine ⟨h0, ?_⟩
  cases r with
  | swBkpt =>
    obtain ⟨ip, n1, h1, h2⟩ := bind_ok (show (getIP h >>= fun ip => (pure (.breakpoint (ip - 1)) : N Event)) n = _ from he)
    obtain ⟨_, h3, _, h4⟩ := getIP_view hv h1
    cases h2
    rw [h4]
    exact ⟨rfl, fun _ => h3, by simp⟩
  | hwBkpt =>
    unfold mapReason at he
    obtain ⟨regs, n1, h1, h2⟩ := bind_ok he
    obtain ⟨g1, g2⟩ := proc_ok h1
    obtain ⟨g3, g4⟩ := fetchDebugs_eq hv.rest g1
    have hn1 : n1 = n := by rw [g2, g3]
    rw [hn1] at h2
    obtain ⟨i, n2, h3, h4⟩ := bind_ok h2
    have e1 : Arch.responsible regs = .ok i := congrArg Prod.fst h3
    have e2 : n2 = n := (congrArg Prod.snd h3).symm
    rw [e2] at h4
    have hd : n.link.vm.cpu.dbg = d.dbg := by
      obtain ⟨k, s, a1, a2, a3⟩ := Link.ask_fetch hv.rest g1
      rw [Proto.parse_debugs] at a1
      cases a1
      rcases a2 with ⟨why, c', rep, nx, b1, _⟩ | ⟨b1, b2 | b2⟩
      · have hp : d.phase = .stopped why := hv.same.phase.symm.trans b1
        exact (hv.same.live (by rw [hp]; simp) (by rw [hp]; simp)).2.2.1
      · cases b2.1
      · cases b2.1
    refine ⟨?_, by simp, fun _ _ => hd⟩
    obtain ⟨n3, n4, h5, h6⟩ := bind_ok h4
    cases h5
    cases hf : List.find? (fun w => decide (w.2 = i)) n.wps with
    | none => rw [hf] at h6; cases h6
    | some w =>
      rw [hf] at h6
      cases h6
      refine ⟨w, List.mem_of_find?_eq_some hf, ?_, rfl⟩
      have := List.find?_some hf
      simp only [decide_eq_true_eq] at this
      rw [this, ← hd, ← g4]
      exact e1
  | singleStep => cases he; exact ⟨rfl, by simp, by simp⟩
  | halt => cases he; exact ⟨rfl, by simp, by simp⟩
  | begin => cases he; exact ⟨rfl, by simp, by simp⟩
  | cpuError =>
    obtain ⟨ip, n1, h1, h2⟩ := bind_ok (show (getIP h >>= fun ip => (pure (.cpuError ip) : N Event)) n = _ from he)
    obtain ⟨_, h3, _, h4⟩ := getIP_view hv h1
    cases h2
    rw [h4]
    exact ⟨rfl, fun _ => h3, by simp⟩

theorem adjust_view {n n' : Native} {d : Dbg} (hv : View h n d) {e e' : Event} (hd : n.link.dead = false)
    (hr : adjust h c e n = (.ok e', n')) :
    e' = e ∧ View h n' (back d e) ∧ n' = { n with link := n'.link } ∧ n'.link.dead = false := by
  unfold adjust at hr
  unfold back
  split at hr
  · rename_i hb
    rw [if_pos hb]
    obtain ⟨m, n1, h1, h2⟩ := bind_ok hr
    obtain ⟨rfl, h3, h4, rfl⟩ := getRegisters_view hv h1
    obtain ⟨ip, n2, h5, h6⟩ := bind_ok h2
    have e1 : Arch.at' (listed h.cfg d.state) "IP".toList = .ok ip := congrArg Prod.fst h5
    have e2 : n2 = n1 := (congrArg Prod.snd h5).symm
    rw [e2] at h6
    have hip := at_ok e1
    have : ip = d.state.pc := by
      have h7 := find_listed (cfg := h.cfg) d.state (pc_shown _)
      rw [show (Reg.pc.print : Str) = "IP".toList from rfl, hip] at h7
      injection h7
    rw [this] at h6
    obtain ⟨u, n3, h8, h9⟩ := bind_ok h6
    cases h9
    obtain ⟨g1, g2⟩ := proc_ok h8
    obtain ⟨a1, a2, a3⟩ := setIP_view hv.rest hv.same g1
    exact ⟨rfl, ⟨a1, a3⟩, g2, a2⟩
  · rename_i hb
    rw [if_neg hb]
    cases hr
    exact ⟨rfl, hv, rfl, hd⟩

/-- The machine runs and the debugger waits for it. -/
structure Flying (h : Host) (n : Native) (d0 d : Dbg) : Prop where
  cached : n.cached = none
  toVm : n.link.toVm = []
  toDbg : n.link.toDbg = []
  same : n.link.vm.phase = .running → Matches h.cfg n.link.vm d ∧ Since h.cfg d0 d

theorem waitEvent_view {n n' : Native} {d0 d : Dbg} (hf : Flying h n d0 d) {e : Event} (hr : waitEvent h c n = (.ok e, n')) :
    ∃ d' r, Since h.cfg d0 d' ∧ d'.phase = .stopped r ∧ Told n.wps d' r e ∧ View h n' (back d' e) ∧
      n' = { n with link := n'.link } ∧ n'.link.dead = false ∧ n.link.vm.phase = .running := by
  unfold waitEvent at hr
  obtain ⟨m, n1, h1, hr⟩ := bind_ok hr
  cases h1
  rw [hf.cached] at hr
  obtain ⟨u, n2, h2, hr⟩ := bind_ok hr
  obtain ⟨h3, h4⟩ := proc_ok h2
  have hw : ∃ s, Link.receiveLoop h (h.wait + 2) n.link = (.ok (some s), n2.link) := by
    unfold Proc.wait at h3
    obtain ⟨a, t, g1, g2⟩ := Job.bind_ok h3
    cases a with
    | none => cases g2
    | some m =>
      simp only at g2
      split at g2
      · cases g2
        exact ⟨m, g1⟩
      · cases g2
  obtain ⟨s, hw⟩ := hw
  have hrun := wait_running hf.toVm hf.toDbg hw
  obtain ⟨hm, hs⟩ := hf.same hrun
  obtain ⟨d', a1, a2, a3⟩ := wait_view hf.toVm hm hs (.inl ⟨hf.toDbg, hm.phase.symm.trans hrun⟩) hw
  have hdead := receive_alive (fun hne => absurd hf.toDbg hne) hw
  have hv2 : View h n2 d' := ⟨a3, a1⟩
  obtain ⟨r, n3, h5, hr1⟩ := bind_ok hr
  obtain ⟨h6, h7⟩ := proc_ok h5
  obtain ⟨h8, h9⟩ := getReason_ok hv2.rest h6
  rw [h8] at h7
  have hn3 : n3 = n2 := h7
  rw [hn3] at hr1
  obtain ⟨ev, n4, h10, hr2⟩ := bind_ok hr1
  obtain ⟨rfl, b1, b2, b3⟩ := mapReason_view hv2 h10
  obtain ⟨rfl, c1, c2, c3⟩ := adjust_view hv2 hdead hr2
  refine ⟨d', r, a2, ?_, ?_, c1, ?_, c3, hrun⟩
  · rcases h9 with h9 | ⟨h9, rfl⟩
    · exact a1.phase.symm.trans h9
    · obtain ⟨why, hp⟩ := b2 (.inr rfl)
      rw [a1.phase, hp] at h9
      cases h9
  · rw [h4] at b1
    exact b1
  · rw [c2, h4]

/-! ### From the armed text to the text of the user -/

/-- The debugger stops here because of a breakpoint. -/
def stops (n : Native) (s : State) : Prop := armed n s.pc = true

theorem instrAt_shape {n : Native} {Q : List Instr} (hs : Shape h Tx P n.bps Q) (a : Word) :
    instrAt Q a = if armed n a then .bkpt else instrAt P a := by
  unfold instrAt armed
  cases hf : n.bps.find a with
  | none =>
    rw [hs.clear a (by rw [hf]; simp)]
    rfl
  | some bp =>
    simp only
    by_cases he : bp.enabled = true
    · rw [hs.armed a bp hf he, if_pos he]; rfl
    · rw [hs.clear a (by rw [hf]; intro b hb; cases hb; simpa using he), if_neg he]

theorem clear_of_passes {n : Native} {Q : List Instr} (hs : Shape h Tx P n.bps Q) {dbg : List Word} : ∀ {k : Nat} {s s' : State},
    passes h.cfg Q dbg k s s' → Clear h.cfg P dbg (stops n) k s s'
  | 0, s, s', hp => hp
  | k + 1, s, s', ⟨h1, h2, t, h3, h4⟩ => by
    have he := instrAt_shape hs s.pc
    have hb := (stopCode_eq_zero.1 h2).1
    have hna : armed n s.pc = false := by
      cases ha : armed n s.pc with
      | false => rfl
      | true => rw [ha, if_pos rfl] at he; exact absurd he hb
    rw [hna] at he
    simp only [Bool.false_eq_true, if_false] at he
    refine ⟨h1, by unfold stops; rw [hna]; simp, by rw [← he]; exact h2, t, ?_, clear_of_passes hs h4⟩
    unfold Isa.step at h3 ⊢
    rw [← he]
    exact h3

theorem stopCode_bkpt {dbg : List Word} {s : State} {i : Instr} (hn : reasonOf (stopCode dbg s i) = .swBkpt) : i = .bkpt := by
  unfold reasonOf stopCode at hn
  by_cases hb : i = .bkpt
  · exact hb
  · exfalso
    rw [if_neg hb] at hn
    revert hn
    cases writeAddr s i with
    | none => simp
    | some a => simp only; split <;> simp

theorem stopCode_watch {dbg : List Word} {s : State} {i : Instr} (hn : reasonOf (stopCode dbg s i) = .hwBkpt) (h0 : stopCode dbg s i ≠ 0) :
    i ≠ .bkpt ∧ ∃ a j, writeAddr s i = some a ∧ watchHit dbg a = some j := by
  have hb : i ≠ .bkpt := by
    rintro rfl
    simp [reasonOf, stopCode] at hn
  refine ⟨hb, ?_⟩
  unfold stopCode at h0
  rw [if_neg hb] at h0
  cases hw : writeAddr s i with
  | none => rw [hw] at h0; simp at h0
  | some a =>
    rw [hw] at h0
    simp only at h0
    cases hj : watchHit dbg a with
    | none => rw [hj] at h0; simp at h0
    | some j => exact ⟨a, j, rfl, hj⟩

theorem ran_of_since {n : Native} {d0 d : Dbg} {r : Reason} {e : Event} (hs : Shape h Tx P n.bps d0.prog) (hw : Watched d0.dbg n.wps)
    (hx : Since h.cfg d0 d) (hp : d.phase = .stopped r) (ht : Told n.wps d r e) :
    Ran h.cfg P d0.dbg (stops n) n.wps d0.trap d0.state e (back d e).state ∧
      ((∀ a, e ≠ .watchpoint a) → d.dbg = d0.dbg) ∧ (d.trap = if e = .singlestep then false else d0.trap) := by
  cases hx with
  | go h1 => rw [h1] at hp; cases hp
  | fail h1 => rw [h1] at hp; cases hp
  | halt h1 h2 h3 h4 h5 h6 h7 =>
    rw [h1] at hp
    cases hp
    cases ht
    exact ⟨.halt (clear_of_passes hs h2) h3 h4, fun _ => h6, h7⟩
  | single h1 h2 h3 h4 h5 h6 h7 =>
    rw [h1] at hp
    cases hp
    cases ht
    exact ⟨.single (clear_of_passes hs h2) h3 h4, fun _ => h6, h7⟩
  | @stop k m s h1 h2 h3 h4 h5 h6 h7 h8 h9 h10 h11 =>
    rw [h1] at hp
    have hr : reasonOf m = r := by injection hp
    have he := instrAt_shape hs s.pc
    rw [← h7] at hr
    have hcase : r = .swBkpt ∨ r = .hwBkpt := by
      rw [← hr]
      unfold reasonOf
      split
      · exact .inl rfl
      · exact .inr rfl
    rcases hcase with rfl | rfl
    · have hb := stopCode_bkpt hr
      unfold Isa.step at h4
      rw [hb] at h4
      have hst : d.state = s.next := by injection h4 with h4; exact h4.symm
      have hev : e = .breakpoint s.pc := by
        rw [show e = .breakpoint (d.state.pc - 1) from ht, hst]
        simp only [State.next]
        rw [show s.pc + 1 - 1 = s.pc from BitVec.add_sub_cancel _ _]
      subst hev
      have hbk : (back d (.breakpoint s.pc)).state = s := by
        unfold back Event.isBreakpoint
        rw [if_pos rfl, hst]
        simp only [State.next]
        rw [show s.pc + 1 - 1 = s.pc from BitVec.add_sub_cancel _ _]
      rw [hbk]
      refine ⟨.breakpoint (clear_of_passes hs h2) h3 ?_ h6, ?_, ?_⟩
      · rw [hb] at he
        cases ha : armed n s.pc with
        | true => exact .inl ha
        | false => rw [ha] at he; exact .inr he.symm
      · intro _
        rw [h10, hb]
        rfl
      · simpa using h11
    · obtain ⟨hnb, a, j, hwa, hj⟩ := stopCode_watch hr (by rw [h7]; exact h8)
      have hna : armed n s.pc = false := by
        cases ha : armed n s.pc with
        | false => rfl
        | true => rw [ha, if_pos rfl] at he; exact absurd he hnb
      rw [hna] at he
      simp only [Bool.false_eq_true, if_false] at he
      obtain ⟨w, hwm, hwr, rfl⟩ := ht
      have hdbg : d.dbg = mark d0.dbg j := by
        rw [h10]
        unfold marked
        rw [hwa]
        simp only [Option.bind_some, hj]
      rw [hdbg, responsible_mark hw.length (watchHit_lt hj)] at hwr
      have hwj : w.2 = j := by injection hwr with hwr; exact hwr.symm
      have hwa' : w.1 = a := by
        rw [← hw.addr w hwm, hwj]
        have := List.find?_some hj
        unfold watches at this
        simp only [Bool.and_eq_true, beq_iff_eq] at this
        exact this.2
      have hbk : (back d (.watchpoint w.1)) = d := by
        unfold back Event.isBreakpoint
        rfl
      rw [hbk, hwa']
      refine ⟨.watch (clear_of_passes hs h2) h3 (by unfold stops; rw [hna]; simp) (by rw [← he]; exact hwa) ?_ ?_ h5 h6, ?_, ?_⟩
      · have := Map.find_eq_some_of_mem hw.ok (k := a) (v := j) (by rw [← hwa', ← hwj]; exact hwm)
        rw [this]; rfl
      · unfold Isa.step at h4 ⊢
        rw [← he]
        exact h4
      · intro hne
        exact absurd rfl (hne a)
      · simpa using h11

/-- Resuming, followed by waiting. -/
theorem run_view {n n1 n' : Native} {d : Dbg} {m : Str} {k : Cmd} (hg : Good h Tx P n) (hv : View h n d) (hk : k = .cont ∨ k = .step)
    (hp : Proto.parse h m = .ok k) (hr : proc (Link.send m >>= fun _ => Proc.check h) n = (.ok (), n1)) {e : Event}
    (hw : waitEvent h c n1 = (.ok e, n')) :
    ∃ d', Ran h.cfg P d.dbg (stops n) n.wps (d.trap || k = .step) d.state e d'.state ∧ View h n' d' ∧ n' = { n with link := n'.link } ∧
      n'.link.dead = false ∧ ((∀ a, e ≠ .watchpoint a) → d'.dbg = d.dbg) ∧
      (d'.trap = if e = .singlestep then false else d.trap || k = .step) ∧
      (∃ why, d.phase = .stopped why ∧ why ≠ .halt) ∧ (∃ why, d'.phase = .stopped why) := by
  obtain ⟨h1, h2⟩ := proc_ok hr
  obtain ⟨g1, g2, g3, g4⟩ := go_view hv.rest hv.same hk hp h1
  have hfl : Flying h n1 { d with phase := .running, trap := d.trap || k = .step } { d with phase := .running, trap := d.trap || k = .step } := by
    refine ⟨by rw [h2]; exact hg.fresh, g1, g2, ?_⟩
    intro hrun
    obtain ⟨⟨why, hst, hne⟩, hm⟩ := g4 hrun
    exact ⟨hm, .go (k := 0) rfl rfl (fun _ => rfl) rfl rfl rfl rfl (hv.same.run (.inr ⟨why, hst, hne⟩)).1⟩
  obtain ⟨d', r, a1, a2, a3, a4, a5, a6, a7⟩ := waitEvent_view hfl hw
  obtain ⟨⟨why, hst, hne⟩, _⟩ := g4 a7
  obtain ⟨_, hprog, hdbg, _⟩ := hv.same.live (by rw [hst]; simp) (by rw [hst]; simp)
  have hwps : n1.wps = n.wps := by rw [h2]
  rw [hwps] at a3
  obtain ⟨b1, b2, b3⟩ := ran_of_since (n := n) (h := h) (Tx := Tx) (P := P) (d0 := { d with phase := .running, trap := d.trap || k = .step })
    (by rw [← hprog]; exact hg.text) (by rw [← hdbg]; exact hg.watch) a1 a2 a3
  refine ⟨back d' e, b1, a4, by rw [a5, h2], a6, ?_, ?_, ⟨why, hst, hne⟩, ?_⟩
  · intro hne
    rw [← b2 hne]
    unfold back
    split <;> rfl
  · rw [← b3]
    unfold back
    split <;> rfl
  · refine ⟨r, ?_⟩
    rw [← a2]
    unfold back
    split <;> rfl

/-- A raw single step. -/
theorem rawStep_view {n n' : Native} {d : Dbg} (hg : Good h Tx P n) (hv : View h n d) {e : Event} (hr : rawStep h c n = (.ok e, n')) :
    ∃ d', Ran h.cfg P d.dbg (stops n) n.wps true d.state e d'.state ∧ View h n' d' ∧ n' = { n with link := n'.link } ∧
      n'.link.dead = false ∧ ((∀ a, e ≠ .watchpoint a) → d'.dbg = d.dbg) ∧ (d'.trap = if e = .singlestep then false else true) ∧
      (∃ why, d.phase = .stopped why ∧ why ≠ .halt) ∧ (∃ why, d'.phase = .stopped why) := by
  unfold rawStep at hr
  obtain ⟨u, n1, h1, h2⟩ := bind_ok hr
  have := run_view hg hv (.inr rfl) (Proto.parse_step h) h1 h2
  simpa using this

/-- Only the text changes. -/
structure Patched (d d' : Dbg) : Prop where
  state : d'.state = d.state
  dbg : d'.dbg = d.dbg
  trap : d'.trap = d.trap
  phase : d'.phase = d.phase

theorem setProg_view {n : Native} {d : Dbg} (hv : View h n d) {why : Reason} (hp : d.phase = .stopped why) {a : Word} {i : Instr}
    (hw : i.wf h.cfg = true) (ha : a.toNat < n.link.vm.cpu.prog.length) :
    ∃ d', View h (setProg n (n.link.vm.cpu.prog.set a.toNat i)) d' ∧ Patched d d' :=
  ⟨{ d with prog := d.prog.set a.toNat i }, ⟨⟨hv.rest.1, hv.rest.2, hv.rest.3⟩, matches_setText hv.same hp hw ha⟩, ⟨rfl, rfl, rfl, rfl⟩⟩

theorem disable_view (ht : Texts h Tx) {n n' : Native} {d : Dbg} (hf : Fine h Tx P n) (hv : View h n d) {why : Reason}
    (hp : d.phase = .stopped why) {a : Word} (hr : disable h a n = (.ok (), n')) :
    ∃ d', View h n' d' ∧ Patched d d' ∧ n'.wps = n.wps ∧ n'.link.dead = n.link.dead ∧
      (∀ b, armed n' b = if b = a then false else armed n b) ∧ (∃ bp, n.bps.find a = some bp) ∧
      (∃ bp, n'.bps.find a = some bp) ∧ (∀ b, b ≠ a → n'.bps.find b = n.bps.find b) := by
  obtain ⟨bp, h1, ⟨h2, h3⟩ | ⟨h2, h3, i, h4, h5⟩⟩ := disable_ok hf.good.rest (fun bp hb => (saved_means ht hf.good hb).1) hr
  · subst h3
    refine ⟨d, hv, ⟨rfl, rfl, rfl, rfl⟩, rfl, rfl, ?_, ⟨bp, h1⟩, ⟨bp, h1⟩, fun _ _ => rfl⟩
    intro b
    by_cases hb : b = a
    · subst hb
      simp [armed, h1, h2]
    · simp [hb]
  · obtain ⟨hq, j, h6, h7⟩ := saved_means ht hf.good h1
    rw [h7] at h4
    cases h4
    obtain ⟨d', g1, g2⟩ := setProg_view hv hp (hf.wf _ (List.mem_of_getElem? h6)) h3
    subst h5
    refine ⟨d', ⟨g1.rest, g1.same⟩, g2, rfl, rfl, ?_, ⟨bp, h1⟩, ⟨{ bp with enabled := false }, by simp [Map.assign, Map.find_append, Map.find_erase, Map.find_cons]⟩, ?_⟩
    · intro b
      unfold armed
      simp only [Map.assign, Map.find_append, Map.find_erase, Map.find_cons]
      by_cases hb : b = a
      · subst hb; simp
      · have : a ≠ b := fun e => hb e.symm
        simp [hb, this, Map.find]
    · intro b hb
      have : a ≠ b := fun e => hb e.symm
      simp [hb]

theorem enable_view {n n' : Native} {d : Dbg} (hg : Good h Tx P n) (hv : View h n d) {why : Reason}
    (hp : d.phase = .stopped why) {a : Word} (hr : enable h a n = (.ok (), n')) :
    ∃ d', View h n' d' ∧ Patched d d' ∧ n'.wps = n.wps ∧ n'.link.dead = n.link.dead ∧
      (∀ b, armed n' b = if b = a then true else armed n b) ∧ (∀ b, b ≠ a → n'.bps.find b = n.bps.find b) := by
  obtain ⟨bp, h1, ⟨h2, h3⟩ | ⟨h2, i, h3, h4⟩⟩ := enable_ok hg.rest (fun i hi => hg.text.plainQ hi) hr
  · subst h3
    refine ⟨d, hv, ⟨rfl, rfl, rfl, rfl⟩, rfl, rfl, ?_, fun _ _ => rfl⟩
    intro b
    by_cases hb : b = a
    · subst hb
      simp [armed, h1, h2]
    · simp [hb]
  · obtain ⟨d', g1, g2⟩ := setProg_view hv hp (wf_bkpt _) (List.getElem?_eq_some_iff.1 h3).1
    subst h4
    refine ⟨d', ⟨g1.rest, g1.same⟩, g2, rfl, rfl, ?_, ?_⟩
    · intro b
      unfold armed
      simp only [Map.assign, Map.find_append, Map.find_erase, Map.find_cons]
      by_cases hb : b = a
      · subst hb; simp
      · have : a ≠ b := fun e => hb e.symm
        simp [hb, this, Map.find]
    · intro b hb
      have : a ≠ b := fun e => hb e.symm
      simp [hb]

/-- In single-step mode breakpoints matter only at the beginning. -/
theorem _root_.T86.Isa.Ran.alone {cfg : Cfg} {dbg : List Word} {stop : State → Prop} {wps : Map Word Nat} {s s' : State} {e : Event}
    (hr : Ran cfg P dbg stop wps true s e s') (hs : ¬ stop s) : Ran cfg P dbg (fun _ => False) wps true s e s' := by
  cases hr with
  | halt h1 h2 h3 =>
    have := h3 rfl
    subst this
    obtain ⟨a, _, b, t, c, d⟩ := h1
    exact .halt (k := 1) ⟨a, id, b, t, c, d⟩ h2 (fun _ => rfl)
  | single h1 h2 h3 =>
    obtain ⟨a, _, b, t, c, d⟩ := h1
    exact .single ⟨a, id, b, t, c, d⟩ h2 rfl
  | breakpoint h1 h2 h3 h4 =>
    have := h4 rfl
    subst this
    have : s' = s := h1
    subst this
    exact .breakpoint (k := 0) rfl h2 (.inr (h3.resolve_left hs)) (fun _ => rfl)
  | watch h1 h2 h3 h4 h5 h6 h7 h8 =>
    have := h8 rfl
    subst this
    have := h1
    exact .watch (k := 0) h1 h2 id h4 h5 h6 h7 (fun _ => rfl)

/-- The breakpoints and watchpoints stay. -/
structure Kept (n n' : Native) : Prop where
  armed : ∀ b, armed n' b = armed n b
  wps : n'.wps = n.wps

theorem Kept.stops {n n' : Native} (hk : Kept n n') : stops n' = stops n := by
  funext s
  unfold Native.stops
  rw [hk.armed]

theorem singleStepLoop_succ (h : Host) (c : Client) (fuel : Nat) : singleStepLoop h c (fuel + 1) = (getIP h >>= fun ip => Job.get >>= fun n =>
    if armed n ip then disable h ip >>= fun _ => singleStepLoop h c fuel >>= fun e => enable h ip >>= fun _ => pure e
    else rawStep h c) := rfl

/-- A single step. -/
theorem singleStep_view (ht : Texts h Tx) {n n' : Native} {d : Dbg} (hf : Fine h Tx P n) (hv : View h n d) {e : Event}
    (hr : singleStep h c n = (.ok e, n')) :
    ∃ d', Ran h.cfg P d.dbg (fun _ => False) n.wps true d.state e d'.state ∧ View h n' d' ∧ Kept n n' ∧
      n'.link.dead = false ∧ ((∀ a, e ≠ .watchpoint a) → d'.dbg = d.dbg) ∧ (d'.trap = if e = .singlestep then false else true) ∧
      (∃ why, d.phase = .stopped why ∧ why ≠ .halt) ∧ (∃ why, d'.phase = .stopped why) := by
  unfold singleStep at hr
  rw [singleStepLoop_succ] at hr
  obtain ⟨ip, n1, h1, hr⟩ := bind_ok hr
  obtain ⟨rfl, ⟨why, hp⟩, hd, rfl⟩ := getIP_view hv h1
  obtain ⟨n2, n3, h2, hr⟩ := bind_ok hr
  cases h2
  by_cases ha : armed n1 d.state.pc = true
  · rw [if_pos ha] at hr
    obtain ⟨u, n4, h3, hr⟩ := bind_ok hr
    obtain ⟨d1, a1, a2, a3, a4, a5, _, _, a6⟩ := disable_view ht hf hv hp h3
    have hf1 := disable_fine ht _ _ _ hf h3
    obtain ⟨e1, n5, h4, hr2⟩ := bind_ok hr
    rw [singleStepLoop_succ] at h4
    obtain ⟨ip, n6, h5, h4⟩ := bind_ok h4
    obtain ⟨rfl, _, _, rfl⟩ := getIP_view a1 h5
    obtain ⟨n7, n8, h6, h4⟩ := bind_ok h4
    cases h6
    have hna : armed n6 d1.state.pc = false := by rw [a2.state, a5]; simp
    rw [hna] at h4
    simp only [Bool.false_eq_true, if_false] at h4
    obtain ⟨d2, b1, b2, b3, b4, b5, b6, ⟨why', b7, b8⟩, why2, b9⟩ := rawStep_view hf1.good a1 h4
    have hf2 := rawStep_fine _ _ _ hf1 h4
    obtain ⟨u2, n9, h7, hr3⟩ := bind_ok hr2
    cases hr3
    obtain ⟨d3, c1, c2, c3, c4, c5, _⟩ := enable_view hf2.good b2 b9 h7
    refine ⟨d3, ?_, c1, ⟨?_, ?_⟩, ?_, ?_, ?_, ⟨why', ?_, b8⟩, ⟨why2, ?_⟩⟩
    · rw [c2.state, ← a2.dbg, ← a2.state, ← a3]
      exact b1.alone (by unfold stops; rw [hna]; simp)
    · intro b
      have hb5 : n5.bps = n6.bps := by rw [b3]
      have : armed n5 b = armed n6 b := by unfold armed; rw [hb5]
      rw [c5, this, a5]
      by_cases hb : b = d.state.pc
      · subst hb; simp [ha]
      · simp [hb]
    · have hb5 : n5.wps = n6.wps := by rw [b3]
      rw [c3, hb5, a3]
    · rw [c4]; exact b4
    · intro hne; rw [c2.dbg, b5 hne, a2.dbg]
    · rw [c2.trap]; exact b6
    · rw [← b7, a2.phase]
    · rw [c2.phase]; exact b9
  · rw [if_neg ha] at hr
    obtain ⟨d2, b1, b2, b3, b4, b5, b6, b7, b8⟩ := rawStep_view hf.good hv hr
    refine ⟨d2, b1.alone ha, b2, ⟨?_, by rw [b3]⟩, b4, b5, b6, b7, b8⟩
    intro b
    unfold armed
    rw [b3]

/-- `ContinueExecution` and `WaitForDebugEvent`. -/
theorem continue_view (ht : Texts h Tx) {n n1 n' : Native} {d : Dbg} (hf : Fine h Tx P n) (hv : View h n d) {e : Event}
    (hb : armed n d.state.pc = true → instrAt P d.state.pc ≠ .bkpt)
    (hr : continue' h c n = (.ok (), n1)) (hw : waitEvent h c n1 = (.ok e, n')) :
    ∃ d', Went h.cfg P d.dbg (stops n) n.wps d.trap d.state e d'.state ∧ View h n' d' ∧ Kept n n' ∧
      n'.link.dead = false ∧ ((∀ a, e ≠ .watchpoint a) → d'.dbg = d.dbg) ∧ (∃ why, d'.phase = .stopped why) ∧
      (e ≠ .singlestep → (∀ a, e ≠ .watchpoint a) → d.trap = false → e ≠ .end' → d'.trap = false) := by
  unfold continue' at hr
  obtain ⟨ip, n2, h1, hr⟩ := bind_ok hr
  obtain ⟨rfl, ⟨why, hp⟩, hd, rfl⟩ := getIP_view hv h1
  obtain ⟨n3, n4, h2, hr⟩ := bind_ok hr
  cases h2
  by_cases ha : armed n2 d.state.pc = true
  · rw [if_pos ha] at hr
    obtain ⟨e1, n5, h3, hr⟩ := bind_ok hr
    unfold stepOverBreakpoint at h3
    obtain ⟨u, n6, h4, h3⟩ := bind_ok h3
    obtain ⟨d1, a1, a2, a3, a4, a5, _, _, a6⟩ := disable_view ht hf hv hp h4
    have hf1 := disable_fine ht _ _ _ hf h4
    obtain ⟨e2, n7, h5, h3⟩ := bind_ok h3
    obtain ⟨d2, b1, b2, b3, b4, b5, b6, b7, why2, b8⟩ := singleStep_view ht hf1 a1 h5
    have hf2 := singleStep_fine ht _ _ _ hf1 h5
    obtain ⟨u2, n8, h6, h3⟩ := bind_ok h3
    cases h3
    obtain ⟨d3, c1, c2, c3, c4, c5, _⟩ := enable_view hf2.good b2 b8 h6
    have hf3 := enable_fine ht _ _ _ hf2 h6
    rw [a2.dbg, a2.state, a3] at b1
    have hk : Kept n2 n5 := by
      refine ⟨?_, ?_⟩
      · intro b
        rw [c5, b3.armed, a5]
        by_cases hb : b = d.state.pc
        · subst hb; simp [ha]
        · simp [hb]
      · rw [c3, b3.wps, a3]
    have hph3 : d3.phase = .stopped why2 := by rw [c2.phase]; exact b8
    by_cases he : e1 = .singlestep
    · subst he
      simp only [ne_eq, not_true_eq_false, if_false] at hr
      have hgood := hf3.good
      obtain ⟨d4, g1, g2, g3, g4, g5, g6, g7, g8⟩ := run_view (k := .cont) hgood c1 (.inl rfl) (Proto.parse_cont h) hr hw
      have hdbg : d3.dbg = d.dbg := by
        rw [c2.dbg, b5 (by simp), a2.dbg]
      have htr : d3.trap = false := by rw [c2.trap, b6]; rfl
      rw [hdbg, c2.state, htr, hk.wps, hk.stops] at g1
      refine ⟨d4, .on ha b1 (by simpa using g1), g2, ?_, g4, ?_, g8, ?_⟩
      · refine ⟨fun b => ?_, by rw [g3]; exact hk.wps⟩
        rw [← hk.armed]
        unfold armed
        rw [g3]
      · intro hne
        rw [g5 hne, hdbg]
      · intro hne1 _ _ _
        rw [g6, if_neg hne1, htr]
        rfl
    · rw [if_pos he] at hr
      cases hr
      unfold waitEvent at hw
      obtain ⟨n9, n10, h7, hw⟩ := bind_ok hw
      cases h7
      simp only at hw
      obtain ⟨u3, n11, h8, hw⟩ := bind_ok hw
      cases h8
      have hv' : View h { n5 with cached := none } d3 := ⟨c1.rest, c1.same⟩
      obtain ⟨rfl, k1, k2, k3⟩ := adjust_view (n := { n5 with cached := none }) hv' (by rw [show ({ n5 with cached := none } : Native).link.dead = n5.link.dead from rfl, c4]; exact b4) hw
      have hnb : back d3 e = d3 := by
        unfold back
        cases b1 with
        | halt => rfl
        | single => rfl
        | watch => rfl
        | breakpoint q1 q2 q3 q4 =>
          exfalso
          have := q4 rfl
          subst this
          have hq : d2.state = d.state := q1
          rw [hq] at q3
          rcases q3 with q3 | q3
          · exact q3
          · exact hb ha q3
      rw [hnb] at k1
      refine ⟨d3, .last ha (by rw [c2.state]; exact b1) he, k1, ?_, k3, ?_, ⟨why2, hph3⟩, ?_⟩
      · refine ⟨fun b => ?_, by rw [k2]; exact hk.wps⟩
        rw [← hk.armed]
        unfold armed
        rw [k2]
      · intro hne
        rw [c2.dbg, b5 hne, a2.dbg]
      · intro x1 x2 x3 x4
        exfalso
        cases b1 with
        | halt => exact x4 rfl
        | single => exact x1 rfl
        | watch => exact x2 _ rfl
        | breakpoint q1 q2 q3 q4 =>
          have := q4 rfl
          subst this
          have hq : d2.state = d.state := q1
          rw [hq] at q3
          rcases q3 with q3 | q3
          · exact q3
          · exact hb ha q3
  · rw [if_neg ha] at hr
    obtain ⟨d4, g1, g2, g3, g4, g5, g6, g7, g8⟩ := run_view (k := .cont) hf.good hv (.inl rfl) (Proto.parse_cont h) hr hw
    refine ⟨d4, .free ha (by simpa using g1), g2, ⟨fun b => ?_, by rw [g3]⟩, g4, g5, g8, ?_⟩
    · unfold armed; rw [g3]
    · intro x1 _ x3 _
      rw [g6, if_neg x1, x3]
      rfl

end Native
end T86
