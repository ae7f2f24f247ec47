import Verif.Model.SourceDbg
import Verif.Spec.SourceDbg
import Verif.Props.Stepping

/-! Stepping by source lines. -/

set_option linter.unusedSimpArgs false
set_option linter.unusedVariables false

namespace T86
open Dbg Str Isa Job Native

/-- The addresses that have a breakpoint, enabled or not. -/
def Dom (D : Word → Bool) (n : Native) : Prop := ∀ a, (n.bps.find a).isSome = D a

namespace Dom
variable {h : Host} {c : Client} {D : Word → Bool}

theorem proc {α : Type} {x : Job Link α} : Triple (Dom D) (Native.proc x) (fun _ => Dom D) := by
  intro n a n' hp hb
  have : n'.bps = n.bps := by rw [(proc_ok hb).2]
  intro b
  rw [this]
  exact hp b

theorem ofExcept {α : Type} {x : Except Err α} : Triple (Dom D) (Job.ofExcept x : N α) (fun _ => Dom D) :=
  .ofExcept fun s a _ hs => hs

theorem pure {α : Type} {x : α} : Triple (Dom D) (Pure.pure x : N α) (fun _ => Dom D) := .pure fun s hs => hs

theorem create {a : Word} : Triple (Dom D) (Native.create h a) (fun _ => Dom D) := by
  unfold Native.create
  refine proc.bind fun _ => ofExcept.bind fun _ => proc.bind fun _ => proc.bind fun _ => ofExcept.bind fun _ => ?_
  split
  · exact .throw
  · exact pure

theorem find_assign {m : Map Word Bp} {a : Word} {bp : Bp} (hm : (m.find a).isSome = true) (b : Word) :
    ((m.assign a bp).find b).isSome = (m.find b).isSome := by
  rw [Map.find_assign]
  by_cases hb : b = a
  · subst hb; simp [hm]
  · simp [hb, Ne.symm hb]

theorem enable {a : Word} : Triple (Dom D) (Native.enable h a) (fun _ => Dom D) := by
  intro n u n' hp hb
  unfold Native.enable at hb
  obtain ⟨m, n1, h1, hb⟩ := bind_ok hb
  cases h1
  cases hf : n.bps.find a with
  | none => rw [hf] at hb; cases hb
  | some bp =>
    rw [hf] at hb
    simp only at hb
    split at hb
    · cases hb; exact hp
    · obtain ⟨bp', n2, h2, hb⟩ := bind_ok hb
      have h3 := create n bp' n2 hp h2
      cases hb
      intro b
      rw [find_assign (by rw [h3, ← hp, hf]; rfl)]
      exact h3 b

theorem disable {a : Word} : Triple (Dom D) (Native.disable h a) (fun _ => Dom D) := by
  intro n u n' hp hb
  unfold Native.disable at hb
  obtain ⟨m, n1, h1, hb⟩ := bind_ok hb
  cases h1
  cases hf : n.bps.find a with
  | none => rw [hf] at hb; cases hb
  | some bp =>
    rw [hf] at hb
    simp only at hb
    split at hb
    · obtain ⟨bp', n2, h2, hb⟩ := bind_ok hb
      have h3 := proc n bp' n2 hp h2
      cases hb
      intro b
      rw [find_assign (by rw [h3, ← hp, hf]; rfl)]
      exact h3 b
    · cases hb; exact hp

theorem getRegister {s : Str} : Triple (Dom D) (Native.getRegister h s) (fun _ => Dom D) := by
  unfold Native.getRegister Native.getRegisters
  refine proc.bind fun _ => ?_
  split
  · exact pure
  · exact .throw

theorem adjust {e : Event} : Triple (Dom D) (Native.adjust h c e) (fun _ => Dom D) := by
  unfold Native.adjust
  split
  · exact proc.bind fun _ => ofExcept.bind fun _ => proc.bind fun _ => pure
  · exact pure

theorem mapReason {r : Reason} : Triple (Dom D) (Native.mapReason h r) (fun _ => Dom D) := by
  unfold Native.mapReason
  split
  · exact getRegister.bind fun _ => pure
  · refine proc.bind fun _ => ofExcept.bind fun _ => Triple.bind (q := fun _ => Dom D) (.get fun s hs => hs) fun _ => ?_
    split
    · exact pure
    · exact .throw
  · exact pure
  · exact pure
  · exact pure
  · exact getRegister.bind fun _ => pure

theorem wait : Triple (Dom D) (Native.waitEvent h c) (fun _ => Dom D) := by
  unfold Native.waitEvent
  refine Triple.bind (q := fun _ => Dom D) (.get fun s hs => hs) fun n => ?_
  split
  · exact Triple.bind (q := fun _ => Dom D) (.modify fun s hs => hs) fun _ => adjust
  · exact proc.bind fun _ => proc.bind fun _ => mapReason.bind fun _ => adjust

theorem rawStep : Triple (Dom D) (Native.rawStep h c) (fun _ => Dom D) := proc.bind fun _ => wait

theorem step : ∀ fuel, Triple (Dom D) (singleStepLoop h c fuel) (fun _ => Dom D)
  | 0 => .throw
  | fuel + 1 => by
    unfold singleStepLoop
    refine getRegister.bind fun _ => Triple.bind (q := fun _ => Dom D) (.get fun s hs => hs) fun n => ?_
    split
    · exact disable.bind fun _ => (step fuel).bind fun _ => enable.bind fun _ => pure
    · exact rawStep

theorem singleStep : Triple (Dom D) (Native.singleStep h c) (fun _ => Dom D) := step 2

theorem continue' : Triple (Dom D) (Native.continue' h c) (fun _ => Dom D) := by
  unfold Native.continue'
  refine getRegister.bind fun _ => Triple.bind (q := fun _ => Dom D) (.get fun s hs => hs) fun n => ?_
  split
  · refine Triple.bind (q := fun _ => Dom D) (disable.bind fun _ => singleStep.bind fun _ => enable.bind fun _ => pure) fun e => ?_
    split
    · exact .modify fun s hs => hs
    · exact proc
  · exact proc

theorem over {ip bp : Word} : ∀ fuel, Triple (Dom D) (overLoop h c ip bp fuel) (fun _ => Dom D)
  | 0 => .throw
  | fuel + 1 => by
    unfold overLoop
    refine continue'.bind fun _ => wait.bind fun e => getRegister.bind fun bp' => getRegister.bind fun ip' => ?_
    split
    · exact over fuel
    · exact pure

theorem readText {a m : Word} : Triple (Dom D) (Native.readText h a m) (fun _ => Dom D) := by
  unfold Native.readText
  refine proc.bind fun _ => ?_
  split
  · exact .throw
  · exact proc.bind fun _ => Triple.bind (q := fun _ => Dom D) (.get fun s hs => hs) fun n => pure

theorem set {n n' : Native} {a : Word} {u : Unit} (hn : Dom D n) (hr : setBreakpoint h a n = (.ok u, n')) :
    Dom (fun b => if b = a then true else D b) n' := by
  unfold setBreakpoint at hr
  obtain ⟨m, n1, h1, hr⟩ := bind_ok hr
  cases h1
  cases hf : n.bps.find a with
  | some bp => rw [hf] at hr; cases hr
  | none =>
    rw [hf] at hr
    obtain ⟨bp, n2, h2, hr⟩ := bind_ok hr
    have h3 := create n bp n2 hn h2
    cases hr
    intro b
    have h4 : n2.bps.find a = none := by
      have := h3 a
      rw [← hn a, hf] at this
      simpa using this
    simp only [Map.emplace, h4, Map.find_append, Map.find_cons]
    by_cases hb : b = a
    · subst hb; simp [h4]
    · have hb' : a ≠ b := fun e => hb e.symm
      simp [hb, hb', Map.find, ← h3 b]

theorem unset {n n' : Native} {a : Word} {u : Unit} (hn : Dom D n) (hr : unsetBreakpoint h a n = (.ok u, n')) :
    Dom (fun b => if b = a then false else D b) n' := by
  unfold unsetBreakpoint at hr
  obtain ⟨m, n1, h1, hr⟩ := bind_ok hr
  have h3 := disable n _ n1 hn h1
  cases hr
  intro b
  simp only [Map.find_erase]
  by_cases hb : b = a
  · subst hb; simp
  · have hb' : a ≠ b := fun e => hb e.symm
    simp [hb, hb', h3 b]

end Dom
end T86

namespace T86
open Dbg Str Isa Job Native
variable {h : Host} {c : Client} {Tx : Str → Instr → Prop} {P : List Instr}

/-- A line begins at the address. -/
def Src.Source.Begins (s : Src.Source) (a : Word) : Prop := (addrToLine s.lines a.toNat).isSome = true

/-- The loop of `StepIn`. -/
theorem stepLoop_view (ht : Texts h Tx) {src : Src.Source} :
    ∀ {fuel : Nat} {n n' : Native} {d : Dbg} {e : Event}, Fine h Tx P n → View h n d → d.state.halted = false →
      (∃ why, d.phase = .stopped why) → n.link.dead = false → Src.stepLoop h src (rawStep h c) fuel .singlestep n = (.ok e, n') →
      Fine h Tx P n' ∧ ∃ d', View h n' d' ∧ Native.Kept n n' ∧ n'.link.dead = false ∧ (∃ why, d'.phase = .stopped why) ∧
        ((e = .singlestep ∧ ∃ k, Clear h.cfg P d.dbg (fun x => stops n x ∨ src.Begins x.pc) k d.state d'.state ∧
            src.Begins d'.state.pc ∧ d'.state.halted = false) ∨
          (e ≠ .singlestep ∧ ∃ k s1, Clear h.cfg P d.dbg (fun x => stops n x ∨ src.Begins x.pc) k d.state s1 ∧ ¬ src.Begins s1.pc ∧
            Ran h.cfg P d.dbg (stops n) n.wps true s1 e d'.state)) := by
  intro fuel
  induction fuel with
  | zero => intro n n' d e hf hv hh hp hd hr; cases hr
  | succ fuel ih =>
    intro n n' d e hf hv hh hp hd hr
    unfold Src.stepLoop at hr
    rw [if_pos rfl] at hr
    obtain ⟨ip, n1, h1, hr⟩ := bind_ok hr
    obtain ⟨rfl, _, _, rfl⟩ := getIP_view hv h1
    cases hl : addrToLine src.lines d.state.pc.toNat with
    | some l =>
      rw [hl] at hr
      cases hr
      exact ⟨hf, d, hv, ⟨fun _ => rfl, rfl⟩, hd, hp, .inl ⟨rfl, 0, rfl, by unfold Src.Source.Begins; rw [hl]; rfl, hh⟩⟩
    | none =>
      rw [hl] at hr
      have hno : ¬ src.Begins d.state.pc := by unfold Src.Source.Begins; rw [hl]; simp
      obtain ⟨e1, n2, h2, hr⟩ := bind_ok hr
      obtain ⟨d1, a1, a2, a3, a4, a5, a6, a7, a8⟩ := rawStep_view hf.good hv h2
      have hk : Native.Kept n1 n2 := ⟨fun b => by rw [a3]; rfl, by rw [a3]⟩
      have hf2 := rawStep_fine _ _ _ hf h2
      by_cases he : e1 = .singlestep
      · subst he
        obtain ⟨b1, d2, b2, b3, b4, b5, b6⟩ := ih hf2 a2 (by cases a1 with | single q1 q2 => exact q2) a8 a4 hr
        rw [a5 (by simp)] at b6
        rw [hk.stops, hk.wps] at b6
        have first : ∀ {k : Nat} {x : State}, Clear h.cfg P d.dbg (fun x => stops n1 x ∨ src.Begins x.pc) k d1.state x →
            Clear h.cfg P d.dbg (fun x => stops n1 x ∨ src.Begins x.pc) (k + 1) d.state x := by
          intro k x hx
          cases a1 with
          | single q1 q2 =>
            obtain ⟨c1, c2, c3, t, c4, c5⟩ := q1
            have c5 : d1.state = t := c5
            exact ⟨c1, fun hh => hh.elim c2 hno, c3, t, c4, by rw [← c5]; exact hx⟩
        refine ⟨b1, d2, b2, ⟨fun b => by rw [b3.armed, hk.armed], by rw [b3.wps, hk.wps]⟩, b4, b5, ?_⟩
        rcases b6 with ⟨c1, k, c2, c3⟩ | ⟨c1, k, s1, c2, c3⟩
        · exact .inl ⟨c1, k + 1, first c2, c3⟩
        · exact .inr ⟨c1, k + 1, s1, first c2, c3⟩
      · have : Src.stepLoop h src (rawStep h c) fuel e1 n2 = (.ok e1, n2) ∨ fuel = 0 := by
          cases fuel with
          | zero => exact .inr rfl
          | succ f => left; unfold Src.stepLoop; rw [if_neg he]; rfl
        rcases this with h3 | h3
        · rw [h3] at hr
          cases hr
          exact ⟨hf2, d1, a2, hk, a4, a8, .inr ⟨he, 0, d.state, rfl, hno, a1⟩⟩
        · subst h3
          cases hr

/-- `StepIn`. -/
theorem stepIn_view (ht : Texts h Tx) {src : Src.Source} {fuel : Nat} {n n' : Native} {d : Dbg} {e : Event} (hf : Fine h Tx P n)
    (hv : View h n d) (hr : Src.stepIn h c src fuel n = (.ok e, n')) :
    Fine h Tx P n' ∧ ∃ d', View h n' d' ∧ Native.Kept n n' ∧ n.link.dead = false ∧ n'.link.dead = false ∧
      (∃ why, d.phase = .stopped why) ∧ (∃ why, d'.phase = .stopped why) ∧
      LineStep h.cfg P d.dbg (stops n) n.wps src.Begins d.state e d'.state := by
  unfold Src.stepIn at hr
  obtain ⟨e1, n1, h1, hr⟩ := bind_ok hr
  have hd : n.link.dead = false := by
    unfold singleStep at h1
    rw [singleStepLoop_succ] at h1
    obtain ⟨ip, n1, g1, _⟩ := bind_ok h1
    exact (getIP_view hv g1).2.2.1
  obtain ⟨d1, a1, a2, a3, a4, a5, a6, ⟨why, a7, _⟩, a8⟩ := singleStep_view ht hf hv h1
  have hf1 := singleStep_fine ht _ _ _ hf h1
  by_cases he : e1 = .singlestep
  · subst he
    have hq : Clear h.cfg P d.dbg (fun _ => False) 1 d.state d1.state ∧ d1.state.halted = false := by
      cases a1 with
      | single q1 q2 => exact ⟨q1, q2⟩
    obtain ⟨b1, d2, b2, b3, b4, b5, b6⟩ := stepLoop_view ht hf1 a2 hq.2 a8 a4 hr
    rw [a5 (by simp), a3.stops, a3.wps] at b6
    refine ⟨b1, d2, b2, ⟨fun b => by rw [b3.armed, a3.armed], by rw [b3.wps, a3.wps]⟩, hd, b4, ⟨why, a7⟩, b5, ?_⟩
    rcases b6 with ⟨rfl, k, c2, c3, c4⟩ | ⟨c1, k, s1, c2, c3, c4⟩
    · exact .line hq.1 c2 c3 c4
    · exact .later hq.1 c2 c3 c4 c1
  · cases fuel with
    | zero => cases hr
    | succ f =>
      unfold Src.stepLoop at hr
      rw [if_neg he] at hr
      cases hr
      exact ⟨hf1, d1, a2, a3, hd, a4, ⟨why, a7⟩, a8, .first a1 he⟩

end T86

namespace T86
open Dbg Str Isa Job Native
variable {h : Host} {c : Client} {P : List Instr}

/-- A call leaves BP alone. -/
theorem Isa.call_bp {cfg : Cfg} {s s1 : State} {o : Operand} (hst : step cfg P s = .ok s1) (hc : instrAt P s.pc = .call o) :
    s1.reg (.int .bp) = s.reg (.int .bp) := by
  unfold step at hst
  rw [hc] at hst
  simp only [exec] at hst
  cases h1 : s.operand o with
  | error e => rw [h1] at hst; cases hst
  | ok t =>
    rw [h1] at hst
    unfold State.store at hst
    cases h2 : s.mem (s.get (.int .sp) - 1) with
    | none => rw [h2] at hst; cases hst
    | some w => rw [h2] at hst; cases hst; rfl

/-- Stepping over a call whose callee returns. -/
theorem over_call_view {n n' : Native} {d : Dbg} {s2 : State} {fuel : Nat} {skip : Bool} {e : Event}
    (hf : Fine h (fun s i => s = i.print h.ftos ∧ Plain h i) P n) (hv : View h n d) {why : Reason} (hph : d.phase = .stopped why)
    (hret : Returns h.cfg P d.dbg (fun a => armed n a = true) d.state s2) (htrap : skip = false → d.trap = false)
    (hfree : skip = false → armed n d.state.pc = false)
    (hen : ∀ bp, n.bps.find (d.state.pc + 1) = some bp → bp.enabled = true)
    (hr : Native.stepOver h c fuel skip n = (.ok e, n')) :
    e = .singlestep ∧ Fine h (fun s i => s = i.print h.ftos ∧ Plain h i) P n' ∧ Native.Kept n n' ∧ n'.link.dead = false ∧
      (∀ D, Dom D n → Dom D n') ∧
      ∃ d', View h n' d' ∧ d'.state = s2 ∧ (∃ why, d'.phase = .stopped why) ∧ d'.dbg = d.dbg ∧ d'.trap = false := by
  have ht := texts_print h
  obtain ⟨o, s1, k, hc, h0, hh, hst, hne, hpath, hpc, hbp, hrun⟩ := hret
  have hna : armed n s1.pc = false := by
    cases k with
    | zero => exact absurd (show s2 = s1 from hpath) (fun h' => hne (by rw [← h', hpc]))
    | succ k =>
      have := hpath.2.1
      cases ha : armed n s1.pc with
      | false => rfl
      | true => exact absurd (.inl ⟨ha, hne⟩) this
  have hbp1 := call_bp hst hc
  unfold Native.stepOver at hr
  obtain ⟨ip', n1, h1, hr⟩ := Job.bind_ok hr
  obtain ⟨rfl, _, hd, rfl⟩ := getIP_view hv h1
  have hcall : ∀ i, P[d.state.pc.toNat]? = some i → i = .call o := fun i hi => by rw [← hc, instrAt_some hi]
  obtain ⟨r, n2, h2, hr⟩ := Job.bind_ok hr
  obtain ⟨rfl, g1, g2, g3⟩ := readText_ok ht hf.good h2
  have hlt : d.state.pc.toNat < P.length := by
    have : (1 : Word).toNat = 1 := rfl
    omega
  obtain ⟨l, rfl⟩ := over_first g2 g3 (List.getElem?_eq_getElem hlt)
  rw [hcall _ (List.getElem?_eq_getElem hlt)] at hr
  obtain ⟨s, n3, h3, hr⟩ := Job.bind_ok hr
  cases h3
  rw [if_pos ((isCall_print _ _).2 ⟨o, rfl⟩)] at hr
  obtain ⟨n4, n5, h4, hr⟩ := Job.bind_ok hr
  cases h4
  dsimp only at hr
  have hpc1 : d.state.pc ≠ d.state.pc + 1 := by
    intro e
    have := congrArg BitVec.toNat e
    simp [BitVec.toNat_add] at this
    omega
  -- what follows the setting of the breakpoint
  have htail : ∀ (m : Native) (K : Event → N Event) (dm : Dbg), Fine h (fun s i => s = i.print h.ftos ∧ Plain h i) P m → View h m dm →
      Patched d dm → m.wps = n2.wps → (∀ b, armed m b = if b = d.state.pc + 1 then true else armed n2 b) →
      (if skip = true then singleStep h c >>= fun _ => getRegister h "BP".toList >>= fun bp => overLoop h c d.state.pc bp fuel >>= K
        else getRegister h "BP".toList >>= fun bp => overLoop h c d.state.pc bp fuel >>= K) m = (.ok e, n') →
      ∃ e1 m2 d2, K e1 m2 = (.ok e, n') ∧ Fine h (fun s i => s = i.print h.ftos ∧ Plain h i) P m2 ∧ View h m2 d2 ∧ d2.state = s2 ∧
        (∃ why, d2.phase = .stopped why) ∧ (∀ b, armed m2 b = if b = d.state.pc + 1 then true else armed n2 b) ∧ m2.wps = n2.wps ∧
        m2.link.dead = false ∧ d2.dbg = d.dbg ∧ d2.trap = false ∧ (∀ D, Dom D m → Dom D m2) := by
    intro m K dm a1 a2 a3 a4 a5 a6
    have hloop : ∀ {m : Native} {dm : Dbg} {j : Nat}, Fine h (fun s i => s = i.print h.ftos ∧ Plain h i) P m → View h m dm → dm.dbg = d.dbg → dm.trap = false →
        (∃ why, dm.phase = .stopped why) → (∀ b, armed m b = if b = d.state.pc + 1 then true else armed n2 b) → m.wps = n2.wps →
        Clear h.cfg P d.dbg (fun t => armed n2 t.pc = true ∧ t.pc ≠ d.state.pc + 1 ∨ t.pc = d.state.pc + 1 ∧ t.reg (.int .bp) = d.state.reg (.int .bp)) j dm.state s2 →
        dm.state.reg (.int .bp) = d.state.reg (.int .bp) → armed n2 dm.state.pc = false → dm.state.pc ≠ d.state.pc + 1 →
        (getRegister h "BP".toList >>= fun bp => overLoop h c d.state.pc bp fuel >>= K) m = (.ok e, n') →
        ∃ e1 m2 d2, K e1 m2 = (.ok e, n') ∧ Fine h (fun s i => s = i.print h.ftos ∧ Plain h i) P m2 ∧ View h m2 d2 ∧ d2.state = s2 ∧
          (∃ why, d2.phase = .stopped why) ∧ (∀ b, armed m2 b = if b = d.state.pc + 1 then true else armed n2 b) ∧ m2.wps = n2.wps ∧
          m2.link.dead = false ∧ d2.dbg = d.dbg ∧ d2.trap = false ∧ (∀ D, Dom D m → Dom D m2) := by
      intro m dm j w1 w2 w3 w4 w5 w6 w7 w8 w9 w10 w11 a6
      obtain ⟨bp, m2, b2, a6⟩ := Job.bind_ok a6
      obtain ⟨rfl, _, _, rfl⟩ := getBP_view w2 b2
      obtain ⟨e2, m3, b3, a6⟩ := Job.bind_ok a6
      rw [w9] at b3
      obtain ⟨d2, z1, z2, z3, z4, z5, z6, z7, z8, z9⟩ := overLoop_view (ht := ht) (dbg := d.dbg) (s2 := s2)
        (stop' := fun t => armed n2 t.pc = true ∧ t.pc ≠ d.state.pc + 1 ∨ t.pc = d.state.pc + 1 ∧ t.reg (.int .bp) = d.state.reg (.int .bp))
        (A := fun b => if b = d.state.pc + 1 then true else armed n2 b) hpc hbp hrun (by simp)
        (by
          intro t ht1 ht2
          by_cases hb : t.pc = d.state.pc + 1
          · exact ⟨hb, fun e => ht1 (.inr ⟨hb, e⟩)⟩
          · simp only [hb, if_false] at ht2
            exact absurd (.inl ⟨ht2, hb⟩) ht1)
        w1 w2 w3 w4 w5 w6 w8 (by
          intro hb
          simp only [w11, if_false] at hb
          rw [w10] at hb
          cases hb) b3
      exact ⟨e2, m3, d2, a6, z6, z1, z2, z5, z7, by rw [z8, w7], z9, z3, z4, fun D hD => Dom.over fuel _ _ _ hD b3⟩
    cases skip with
    | true =>
      rw [if_pos rfl] at a6
      obtain ⟨e0, m1, b1, a6⟩ := Job.bind_ok a6
      obtain ⟨d1, c1, c2, c3, c4, c5, c6, ⟨w0, c7, c8⟩, w1, c9⟩ := singleStep_view ht a1 a2 b1
      have hwd : Watched dm.dbg m.wps := a2.watched a1.good c7
      rw [a3.dbg] at hwd c1
      rw [a3.state] at c1
      obtain ⟨rfl, hs1⟩ := c1.step_on_path hwd (by rw [hc]; exact h0) hh hst (hpath.run hrun)
      have hf1 := singleStep_fine ht _ _ _ a1 b1
      obtain ⟨e1, m2, d2, q⟩ := hloop hf1 c2 (by rw [c5 (by simp), a3.dbg]) (by rw [c6]; rfl) ⟨w1, c9⟩
        (fun b => by rw [c3.armed]; exact a5 b) (by rw [c3.wps, a4]) (by rw [hs1]; exact hpath) (by rw [hs1]; exact hbp1)
        (by rw [hs1]; exact hna) (by rw [hs1]; exact hne) a6
      obtain ⟨q1, q2, q3, q4, q5, q6, q7, q8, q9, q10, q11⟩ := q
      exact ⟨e1, m2, d2, q1, q2, q3, q4, q5, q6, q7, q8, q9, q10, fun D hD => q11 D (Dom.singleStep _ _ _ hD b1)⟩
    | false =>
      rw [if_neg (by simp)] at a6
      refine hloop (j := k + 1) a1 a2 a3.dbg (by rw [a3.trap]; exact htrap rfl) ⟨why, by rw [a3.phase]; exact hph⟩ a5 a4 ?_
        (by rw [a3.state]) (by rw [a3.state]; exact hfree rfl) (by rw [a3.state]; exact hpc1) a6
      rw [a3.state]
      refine ⟨hh, ?_, by rw [hc]; exact h0, s1, hst, hpath⟩
      rintro (⟨x, _⟩ | ⟨x, _⟩)
      · rw [hfree rfl] at x
        cases x
      · exact hpc1 x
  cases hex : (n2.bps.find (d.state.pc + 1)).isSome with
  | true =>
    simp only [hex, if_true] at hr
    obtain ⟨bp, hbpf⟩ := Option.isSome_iff_exists.1 hex
    have harm : armed n2 (d.state.pc + 1) = true := by
      unfold armed
      rw [hbpf]
      exact hen bp hbpf
    have hsame : ∀ b, (if b = d.state.pc + 1 then true else armed n2 b) = armed n2 b := by
      intro b
      by_cases hb : b = d.state.pc + 1
      · rw [if_pos hb, hb]; exact harm.symm
      · rw [if_neg hb]
    obtain ⟨e1, m2, d2, hr, y1, y2, y3, ⟨w, y4⟩, y5, y6, y7, y8, y9, y10⟩ := htail n2 _ d hf hv ⟨rfl, rfl, rfl, rfl⟩ rfl (fun b => (hsame b).symm) hr
    obtain ⟨ip2, m3, h5, hr⟩ := Job.bind_ok hr
    obtain ⟨rfl, _, _, rfl⟩ := getIP_view y2 h5
    rw [y3, hpc] at hr
    simp only [ne_eq, not_true_eq_false, if_false] at hr
    cases hr
    exact ⟨rfl, y1, ⟨fun b => by rw [y5, hsame], y6⟩, y7, y10, d2, y2, y3, ⟨w, y4⟩, y8, y9⟩
  | false =>
    simp only [hex, Bool.false_eq_true, if_false] at hr
    obtain ⟨u, m, h5, hr⟩ := Job.bind_ok hr
    obtain ⟨dm, k1, k2, k3, k4, k5, k6⟩ := set_view hf.good hv hph h5
    obtain ⟨e1, m2, d2, hr, y1, y2, y3, ⟨w, y4⟩, y5, y6, y7, y8, y9, y10⟩ := htail m _ dm (set_fine ht _ _ _ hf h5) k1 k2 k3 k6 hr
    obtain ⟨u, m3, h6, hr⟩ := Job.bind_ok hr
    obtain ⟨d3, j1, j2, j3, j4, j5⟩ := unset_view ht y1 y2 y4 h6
    obtain ⟨ip2, m4, h7, hr⟩ := Job.bind_ok hr
    obtain ⟨rfl, _, _, rfl⟩ := getIP_view j1 h7
    rw [j2.state, y3, hpc] at hr
    simp only [ne_eq, not_true_eq_false, if_false] at hr
    cases hr
    refine ⟨rfl, unset_fine ht _ _ _ y1 h6, ⟨fun b => ?_, by rw [j3, y6]⟩, by rw [j4]; exact y7, ?_,
      d3, j1, by rw [j2.state, y3], ⟨w, by rw [j2.phase]; exact y4⟩, by rw [j2.dbg, y8], by rw [j2.trap, y9]⟩
    · rw [j5, y5]
      by_cases hb : b = d.state.pc + 1
      · rw [if_pos hb, hb, k5]
      · rw [if_neg hb, if_neg hb]
    · intro D hD
      have e1 := Dom.set hD h5
      have e2 := y10 _ e1
      have e3 := Dom.unset e2 h6
      intro b
      rw [e3]
      show (if b = d.state.pc + 1 then false else if b = d.state.pc + 1 then true else D b) = D b
      by_cases hb : b = d.state.pc + 1
      · have hq := hD b
        rw [hb, hex] at hq
        rw [if_pos hb, hb, ← hq]
      · rw [if_neg hb, if_neg hb]

end T86

namespace T86
open Dbg Str Isa Job Native
variable {h : Host} {c : Client} {P : List Instr}

/-- At a state at which the debugger does not stop, a single step does not depend on where it stops. -/
theorem Isa.Ran.free {cfg : Cfg} {dbg : List Word} {stop : State → Prop} {wps : Map Word Nat} {s s' : State} {e : Event}
    (hf : ¬ stop s) (hr : Ran cfg P dbg stop wps true s e s') : Ran cfg P dbg (fun _ => False) wps true s e s' := by
  cases hr with
  | halt h1 h2 h3 =>
    have := h3 rfl
    subst this
    obtain ⟨g1, _, g3, t, g4, g5⟩ := h1
    exact .halt (k := 1) ⟨g1, id, g3, t, g4, g5⟩ h2 (fun _ => rfl)
  | single h1 h2 h3 =>
    obtain ⟨g1, _, g3, t, g4, g5⟩ := h1
    exact .single ⟨g1, id, g3, t, g4, g5⟩ h2 rfl
  | breakpoint h1 h2 h3 h4 =>
    have := h4 rfl
    subst this
    have : s' = s := h1
    subst this
    exact .breakpoint (k := 0) rfl h2 (.inr (h3.resolve_left hf)) (fun _ => rfl)
  | @watch k a s1 _ h1 h2 h3 h4 h5 h6 h7 h8 =>
    have := h8 rfl
    subst this
    have : s1 = s := h1
    subst this
    exact .watch (k := 0) rfl h2 id h4 h5 h6 h7 (fun _ => rfl)

/-- What holds between two steps over instructions. -/
structure Between (h : Host) (P : List Instr) (A : Word → Bool) (dbg : List Word) (wps : Map Word Nat) (n : Native) (s : State) : Prop where
  fine : Fine h (fun s i => s = i.print h.ftos ∧ Plain h i) P n
  armed : ∀ a, armed n a = A a
  all : Dom A n
  wps : n.wps = wps
  dead : n.link.dead = false
  view : ∃ d, View h n d ∧ d.state = s ∧ (∃ why, d.phase = .stopped why) ∧ d.dbg = dbg ∧ d.trap = false

/-- Stepping over an instruction, at a state at which the debugger need not skip a breakpoint or is asked to. -/
theorem over_pass_view {n n' : Native} {d : Dbg} {s2 : State} {fuel : Nat} {skip : Bool} {e : Event}
    (hf : Fine h (fun s i => s = i.print h.ftos ∧ Plain h i) P n) (hv : View h n d) {why : Reason} (hph : d.phase = .stopped why)
    (hp : Passes h.cfg P d.dbg (fun a => Native.armed n a = true) d.state s2) (htrap : skip = false → d.trap = false)
    (hfree : skip = false → Native.armed n d.state.pc = false) (hall : Dom (Native.armed n) n)
    (hr : Native.stepOver h c fuel skip n = (.ok e, n')) :
    e = .singlestep ∧ Between h P (Native.armed n) d.dbg n.wps n' s2 := by
  have ht := texts_print h
  rcases hp with hp | ⟨hc, hcl, hrun⟩
  · obtain ⟨a1, a2, a3, a4, a5, d', a6, a7, a8, a9, a10⟩ := over_call_view hf hv hph hp htrap hfree (fun bp hb => by
      have := hall (d.state.pc + 1)
      unfold Native.armed at this
      rw [hb] at this
      exact this.symm) hr
    exact ⟨a1, a2, a3.armed, a5 _ hall, a3.wps, a4, d', a6, a7, a8, a9, a10⟩
  · unfold Native.stepOver at hr
    obtain ⟨ip', n1, h1, hr⟩ := Job.bind_ok hr
    obtain ⟨rfl, _, hd, rfl⟩ := getIP_view hv h1
    obtain ⟨r, n2, h2, hr⟩ := Job.bind_ok hr
    obtain ⟨rfl, g1, g2, g3⟩ := readText_ok ht hf.good h2
    have hlt : d.state.pc.toNat < P.length := by
      have : (1 : Word).toNat = 1 := rfl
      omega
    have hi := List.getElem?_eq_getElem hlt
    obtain ⟨l, rfl⟩ := over_first g2 g3 hi
    obtain ⟨s, n3, h3, hr⟩ := Job.bind_ok hr
    cases h3
    have hn : ¬ Arch.isCall (P[d.state.pc.toNat].print h.ftos) = true := by
      rw [isCall_print]
      rintro ⟨o, ho⟩
      exact hc o (by rw [instrAt_some hi, ho])
    rw [if_neg hn] at hr
    obtain ⟨q1, _, q3, t, q4, q5⟩ := hcl
    have q5 : s2 = t := q5
    subst q5
    have hw : Watched d.dbg n2.wps := hv.watched hf.good hph
    cases skip with
    | true =>
      simp only [if_true] at hr
      obtain ⟨d', b1, b2, b3, b4, b5, b6, _, b8⟩ := singleStep_view ht hf hv hr
      obtain ⟨rfl, rfl⟩ := b1.step_on_path hw q3 q1 q4 hrun
      exact ⟨rfl, singleStep_fine ht _ _ _ hf hr, b3.armed, Dom.singleStep _ _ _ hall hr, b3.wps, b4, d', b2, rfl, b8, b5 (by simp),
        by rw [b6]; rfl⟩
    | false =>
      simp only [Bool.false_eq_true, if_false] at hr
      obtain ⟨d', b1, b2, b3, b4, b5, b6, _, b8⟩ := rawStep_view hf.good hv hr
      have b1 := b1.free (by unfold Native.stops; rw [hfree rfl]; simp)
      obtain ⟨rfl, rfl⟩ := b1.step_on_path hw q3 q1 q4 hrun
      exact ⟨rfl, rawStep_fine _ _ _ hf hr, fun a => by rw [b3]; rfl, Dom.rawStep _ _ _ hall hr, by rw [b3], b4, d', b2, rfl, b8, b5 (by simp),
        by rw [b6]; rfl⟩

theorem Between.over {n n' : Native} {A : Word → Bool} {dbg : List Word} {wps : Map Word Nat} {s s2 : State} {fuel : Nat} {e : Event}
    (hb : Between h P A dbg wps n s) (hp : Passes h.cfg P dbg (fun a => A a = true) s s2) (hfree : A s.pc = false)
    (hr : Native.stepOver h c fuel false n = (.ok e, n')) : e = .singlestep ∧ Between h P A dbg wps n' s2 := by
  obtain ⟨d, a1, rfl, ⟨why, a3⟩, rfl, a5⟩ := hb.view
  have hA : Native.armed n = A := funext hb.armed
  obtain ⟨b1, b2⟩ := over_pass_view hb.fine a1 a3 (by rw [hA]; exact hp) (fun _ => a5) (fun _ => by rw [hA]; exact hfree) (by rw [hA]; exact hb.all) hr
  rw [hA, hb.wps] at b2
  exact ⟨b1, b2⟩

theorem overLine_view {src : Src.Source} {A : Word → Bool} {dbg : List Word} {wps : Map Word Nat} {fo : Nat} {s2 : State} :
    ∀ {fuel : Nat} {s : State} {n n' : Native} {e : Event}, Between h P A dbg wps n s →
      (src.Begins s.pc ∧ s2 = s ∨ ¬ src.Begins s.pc ∧ A s.pc = false ∧ PassesLine h.cfg P dbg (fun a => A a = true) src.Begins s s2) →
      Src.stepLoop h src (Native.stepOver h c fo false) fuel .singlestep n = (.ok e, n') →
      e = .singlestep ∧ Between h P A dbg wps n' s2 := by
  intro fuel
  induction fuel with
  | zero => intro s n n' e hb hs hr; cases hr
  | succ fuel ih =>
    intro s n n' e hb hs hr
    unfold Src.stepLoop at hr
    rw [if_pos rfl] at hr
    obtain ⟨ip, n1, h1, hr⟩ := bind_ok hr
    obtain ⟨d, a1, a2, _, _, _⟩ := hb.view
    obtain ⟨rfl, _, _, rfl⟩ := getIP_view a1 h1
    rw [a2] at hr
    rcases hs with ⟨hs, rfl⟩ | ⟨hs, hf, hp⟩
    · unfold Src.Source.Begins at hs
      cases hl : addrToLine src.lines s2.pc.toNat with
      | none => rw [hl] at hs; cases hs
      | some l =>
        rw [hl] at hr
        cases hr
        exact ⟨rfl, hb⟩
    · have hs : addrToLine src.lines s.pc.toNat = none := by
        unfold Src.Source.Begins at hs
        simpa using hs
      rw [hs] at hr
      obtain ⟨e1, n2, h2, hr⟩ := bind_ok hr
      cases hp with
      | last hp hl =>
        obtain ⟨rfl, hb'⟩ := hb.over hp hf h2
        exact ih hb' (.inl ⟨hl, rfl⟩) hr
      | more hp ho hfree hq =>
        obtain ⟨rfl, hb'⟩ := hb.over hp hf h2
        exact ih hb' (.inr ⟨ho, by simpa using hfree, hq⟩) hr

/-- Stepping over the instructions of a line. -/
theorem stepOver_view {src : Src.Source} {fuel : Nat} {n n' : Native} {d : Dbg} {s2 : State} {e : Event}
    (hf : Fine h (fun s i => s = i.print h.ftos ∧ Plain h i) P n) (hv : View h n d) {why : Reason} (hph : d.phase = .stopped why)
    (hall : Dom (Native.armed n) n)
    (hp : PassesLine h.cfg P d.dbg (fun a => Native.armed n a = true) src.Begins d.state s2)
    (hr : Src.stepOver h c src fuel n = (.ok e, n')) : e = .singlestep ∧ Between h P (Native.armed n) d.dbg n.wps n' s2 := by
  unfold Src.stepOver at hr
  obtain ⟨e1, n1, h1, hr⟩ := bind_ok hr
  cases hp with
  | last hp hl =>
    obtain ⟨rfl, hb⟩ := over_pass_view hf hv hph hp (by simp) (by simp) hall h1
    exact overLine_view hb (.inl ⟨hl, rfl⟩) hr
  | more hp ho hfree hq =>
    obtain ⟨rfl, hb⟩ := over_pass_view hf hv hph hp (by simp) (by simp) hall h1
    exact overLine_view hb (.inr ⟨ho, by simpa using hfree, hq⟩) hr

/-- Only RET is shown with a text that begins with RET. -/
theorem isReturn_print (ftos : Word → Str) (i : Instr) : Arch.isReturn (i.print ftos) = true ↔ i = .ret := by
  have hp : ∃ r, i.print ftos = i.name ++ r := by
    unfold Instr.print
    split
    · exact ⟨[], by simp⟩
    · exact ⟨_, (by simp only [List.append_assoc]; rfl)⟩
  obtain ⟨r, h1⟩ := hp
  unfold Arch.isReturn
  rw [h1, isPrefixOf_iff]
  constructor
  · intro hc
    have hc := List.prefix_or_prefix_of_prefix hc (List.prefix_append i.name r)
    cases i with
    | ret => rfl
    | bin op s d x v => cases op <;> exact absurd hc (of_decide_eq_false rfl)
    | fbin op d v => cases op <;> exact absurd hc (of_decide_eq_false rfl)
    | un op d => cases op <;> exact absurd hc (of_decide_eq_false rfl)
    | jcc cc t => cases cc <;> exact absurd hc (of_decide_eq_false rfl)
    | _ => exact absurd hc (of_decide_eq_false rfl)
  · rintro rfl
    exact ⟨r, rfl⟩

theorem out_view {A : Word → Bool} {dbg : List Word} {wps : Map Word Nat} {fo : Nat} {s2 : State} :
    ∀ {fuel : Nat} {skip : Bool} {n n' : Native} {d : Dbg} {e : Event} {why : Reason}, Fine h (fun s i => s = i.print h.ftos ∧ Plain h i) P n →
      View h n d → d.phase = .stopped why → d.dbg = dbg → (∀ a, Native.armed n a = A a) → n.wps = wps → Dom A n →
      (skip = false → d.trap = false) → (skip = false → A d.state.pc = false) →
      PassesOut h.cfg P dbg (fun a => A a = true) d.state s2 → stepOutLoop h c fo fuel skip n = (.ok e, n') →
      e = .singlestep ∧ Between h P A dbg wps n' s2 := by
  intro fuel
  induction fuel with
  | zero => intro skip n n' d e why _ _ _ _ _ _ _ _ _ _ hr; cases hr
  | succ fuel ih =>
    intro skip n n' d e why hf hv hph hdbg hA hw hall htrap hfree hp hr
    subst hdbg hw
    have hA' : Native.armed n = A := funext hA
    subst hA'
    unfold stepOutLoop at hr
    obtain ⟨ip', n1, h1, hr⟩ := Job.bind_ok hr
    obtain ⟨rfl, _, hd, rfl⟩ := getIP_view hv h1
    obtain ⟨r, n2, h2, hr⟩ := Job.bind_ok hr
    obtain ⟨rfl, g1, g2, g3⟩ := readText_ok (texts_print h) hf.good h2
    have hlt : d.state.pc.toNat < P.length := by
      have : (1 : Word).toNat = 1 := rfl
      omega
    have hi := List.getElem?_eq_getElem hlt
    obtain ⟨l, rfl⟩ := over_first g2 g3 hi
    obtain ⟨s, n3, h3, hr⟩ := Job.bind_ok hr
    cases h3
    obtain ⟨e1, n4, h4, hr⟩ := Job.bind_ok hr
    have hret := isReturn_print h.ftos P[d.state.pc.toNat]
    rw [← instrAt_some hi] at hret
    cases hp with
    | last hp hl =>
      obtain ⟨rfl, hb⟩ := over_pass_view hf hv hph hp htrap hfree hall h4
      rw [← instrAt_some hi, if_pos (.inl (hret.mpr hl))] at hr
      cases hr
      exact ⟨rfl, hb⟩
    | more hp ho hfree' hq =>
      obtain ⟨rfl, hb⟩ := over_pass_view hf hv hph hp htrap hfree hall h4
      rw [← instrAt_some hi, if_neg (by simp [mt hret.mp ho])] at hr
      obtain ⟨d', a1, rfl, ⟨why', a3⟩, a4, a5⟩ := hb.view
      exact ih hb.fine a1 a3 a4 hb.armed hb.wps hb.all (fun _ => a5) (fun _ => by simpa using hfree') hq hr

end T86
