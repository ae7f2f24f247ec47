import Verif.Lemmas.ReturnMeet
import Verif.Lemmas.ReturnWatch

/-! # Stepping into a line comes back when a watched address is written -/

set_option linter.unusedSimpArgs false
set_option linter.unusedVariables false
set_option maxRecDepth 100000

namespace T86
open Dbg Str Native Isa

variable {h : Host} {c : Client} {P : List Instr}

theorem loop_watch {src : Src.Source} {more : N Event} {fuel : Nat} {a : Word} {n : Native} (hf : 1 ≤ fuel) :
    Src.stepLoop h src more fuel (.watchpoint a) n = (.ok (.watchpoint a), n) := by
  cases fuel with
  | zero => omega
  | succ fuel =>
    unfold Src.stepLoop
    rw [if_neg (by simp)]
    rfl

theorem inLineWatch_total (ha : Able h c) {Tx : Str → Instr → Prop} {src : Src.Source} {A : Word → Bool} {dbg : List Word} {wps : Map Word Nat} {u v : State}
    {a : Word} (hw : 24 ≤ h.wait) (hur : u.halted = false) (hul : ¬ src.Begins u.pc) (hua : A u.pc = false)
    (hwr : writeAddr u (instrAt P u.pc) = some a) (hwf : (wps.find a).isSome = true) (hsv : step h.cfg P u = .ok v) (hvr : v.halted = false)
    (hk : ∀ j, j < 4 → (dbg.getD 4 0).getLsbD j = true → ∃ w ∈ wps, w.2 = j) :
    ∀ {fuel k : Nat} {s : State} {n : Native}, Inside h Tx P A dbg wps n s → k + 2 ≤ fuel → s.halted = false →
      Clear h.cfg P dbg (fun x => A x.pc = true ∨ src.Begins x.pc) k s u →
      Native.Returns (UbPossible h.cfg P) (Src.stepLoop h src (Native.rawStep h c) fuel .singlestep n) fun e n' =>
        e = .watchpoint a ∧ Ended h A wps n' v := by
  intro fuel
  induction fuel with
  | zero => intro k s n _ hm; omega
  | succ fuel ih =>
    intro k s n hb hm hrun hc
    obtain ⟨d, a1, rfl, ⟨why, a3⟩, rfl⟩ := hb.view
    have hl := live_view a1 hb.dead a3
    have hwd : Watched d.dbg n.wps := a1.watched hb.fine.good a3
    unfold Src.stepLoop
    rw [if_pos rfl, Job.bind_eq (getIP_total a1 hl)]
    cases k with
    | zero =>
      have : u = d.state := hc
      subst this
      have hs : addrToLine src.lines d.state.pc.toNat = none := by
        unfold Src.Source.Begins at hul
        simpa using hul
      have hna : Native.armed n d.state.pc = false := by rw [hb.armed]; exact hua
      have hkempt : Kempt n := by
        unfold Kempt
        rw [dbg_view a1 a3, hb.wps]
        exact hk
      have hran : Ran h.cfg P d.dbg (fun _ => False) n.wps true d.state (.watchpoint a) v :=
        .watch (k := 0) rfl hrun id hwr (by rw [hb.wps]; exact hwf) hsv hvr (fun _ => rfl)
      rw [hs]
      rcases rawStep_total ha hb.fine a1 hl hna hran hw (fun _ => hkempt) with ⟨e, m1, b1, rfl⟩ | ⟨⟨m1, b1⟩, hub⟩
      · obtain ⟨d1, c1, c2, c3, c4, _, _, _, w1, c9⟩ := rawStep_view hb.fine.good a1 b1
        have hran' : Ran h.cfg P d.dbg (stops n) n.wps true d.state (.watchpoint a) v := hran.among (by unfold stops; rw [hna]; simp)
        exact .inl ⟨_, m1, (Job.bind_eq b1).trans (loop_watch (by omega)), rfl, ⟨d1, c2, (c1.unique hran' hwd).2, w1, c9⟩, c4,
          fun a => by rw [c3]; exact hb.armed a, by rw [c3]; exact hb.wps⟩
      · exact .inr ⟨⟨m1, Job.bind_error b1⟩, hub.1⟩
    | succ k =>
      obtain ⟨q1, q2, q3, t, q4, q5⟩ := hc
      have hs : addrToLine src.lines d.state.pc.toNat = none := by
        have := fun h' => q2 (.inr h')
        unfold Src.Source.Begins at this
        simpa using this
      have hna : Native.armed n d.state.pc = false := by
        rw [hb.armed]
        cases hq : A d.state.pc with
        | false => rfl
        | true => exact absurd (.inl hq) q2
      rw [hs]
      have hrt : t.halted = false := q5.run hur
      have hran : Ran h.cfg P d.dbg (fun _ => False) n.wps true d.state .singlestep t := .single ⟨q1, id, q3, t, q4, rfl⟩ hrt rfl
      refine returns_bind (Q := fun e n' => e = .singlestep ∧ rawStep h c n = (.ok e, n')) ?_ fun e n' ⟨he, hb'⟩ => ?_
      · rcases rawStep_total ha hb.fine a1 hl hna hran hw (by rintro ⟨a, h⟩; cases h) with ⟨e, m1, b1, b2⟩ | ⟨b1, hu⟩
        · exact .inl ⟨e, m1, b1, b2, b1⟩
        · exact .inr ⟨b1, hu.1⟩
      · subst he
        obtain ⟨d', b1, b2, b3, b4, b5, b6, _, b8⟩ := rawStep_view hb.fine.good a1 hb'
        have b1 := b1.free (by unfold Native.stops; rw [hna]; simp)
        obtain ⟨_, rfl⟩ := b1.step_on_path hwd q3 q1 q4 hrt
        refine ih (k := k) ⟨rawStep_fine _ _ _ hb.fine hb', fun a => ?_, by rw [b3, hb.wps], b4, d', b2, rfl, b8, b5 (by simp)⟩ (by omega) hrt q5
        rw [b3]
        exact hb.armed a

/-- Stepping into the instructions of a line comes back when a watched address is written. -/
theorem lineInWatch_total (ha : Able h c) {Tx : Str → Instr → Prop} (ht : Texts h Tx) {src : Src.Source} {fuel k : Nat} {n : Native} {d : Dbg} {t u v : State}
    {a : Word} (hf : Native.Fine h Tx P n) (hv : View h n d) {why : Reason} (hph : d.phase = .stopped why) (hl : n.link.Live) (hk : Kempt n)
    (h1 : Clear h.cfg P d.dbg (fun _ => False) 1 d.state t)
    (h2 : Clear h.cfg P d.dbg (fun x => Native.armed n x.pc = true ∨ src.Begins x.pc) k t u)
    (hur : u.halted = false) (hul : ¬ src.Begins u.pc) (hua : Native.armed n u.pc = false)
    (hwr : writeAddr u (instrAt P u.pc) = some a) (hwf : (n.wps.find a).isSome = true) (hsv : step h.cfg P u = .ok v) (hvr : v.halted = false)
    (hm : k + 2 ≤ fuel) (hw : 24 ≤ h.wait) :
    Native.Returns (UbPossible h.cfg P) (Src.stepIn h c src fuel n) fun e n' => e = .watchpoint a ∧ Ended h (Native.armed n) n.wps n' v := by
  unfold Src.stepIn
  have hwd : Watched d.dbg n.wps := hv.watched hf.good hph
  have h1' := h1
  obtain ⟨q1, q2, q3, t', q4, q5⟩ := h1
  have q5 : t = t' := q5
  subst q5
  have hrt : t.halted = false := h2.run hur
  have hran : Ran h.cfg P d.dbg (fun _ => False) n.wps true d.state .singlestep t := .single h1' hrt rfl
  unfold Kempt at hk
  rw [dbg_view hv hph] at hk
  refine returns_bind (Q := fun e n' => e = .singlestep ∧ singleStep h c n = (.ok e, n')) ?_ fun e n' ⟨he, hb'⟩ => ?_
  · rcases singleStep_total ha ht hf hv hl hran hw (by rintro ⟨a, h⟩; cases h) with ⟨e, m1, b1, b2⟩ | ⟨b1, hu⟩
    · exact .inl ⟨e, m1, b1, b2, b1⟩
    · exact .inr ⟨b1, hu.1⟩
  · subst he
    obtain ⟨d', b1, b2, b3, b4, b5, b6, _, b8⟩ := singleStep_view ht hf hv hb'
    obtain ⟨_, rfl⟩ := b1.step_on_path hwd q3 q1 q4 hrt
    exact inLineWatch_total ha hw hur hul hua hwr hwf hsv hvr hk ⟨singleStep_fine ht _ _ _ hf hb', b3.armed, b3.wps, b4, d', b2, rfl, b8, b5 (by simp)⟩ hm hrt h2

end T86
