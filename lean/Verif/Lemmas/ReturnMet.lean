import Verif.Lemmas.ReturnOut

/-! # Stepping over a call comes back, whatever the callee meets -/

set_option linter.unusedSimpArgs false
set_option linter.unusedVariables false
set_option maxRecDepth 100000

namespace T86
open Dbg Str

namespace Isa

/-- Where a program stops: at its end, at one of its own BKPTs or where `stop` says so. -/
def Ends (P : List Instr) (stop : State → Prop) (u : State) : Prop := u.halted = true ∨ stop u ∨ instrAt P u.pc = .bkpt

/-- What is reported there. -/
def ending (u : State) : Event := if u.halted = true then .end' else .breakpoint u.pc

/-- A path either avoids `stop` or comes to it before its end. -/
theorem Clear.split {cfg : Cfg} {P : List Instr} {dbg : List Word} (stop : State → Prop) {stop' : State → Prop} {u : State} :
    ∀ {j : Nat} {s : State}, Clear cfg P dbg stop' j s u → Clear cfg P dbg stop j s u ∨
      ∃ t k i, Clear cfg P dbg stop k s t ∧ stop t ∧ Clear cfg P dbg stop' (i + 1) t u ∧ k + (i + 1) = j
  | 0, s, h => .inl h
  | j + 1, s, h => by
    by_cases hs : stop s
    · exact .inr ⟨s, 0, j, rfl, hs, h, by omega⟩
    · obtain ⟨p1, p2, p3, t, p4, p5⟩ := h
      rcases Clear.split stop p5 with q | ⟨v, k, i, q1, q2, q3, q4⟩
      · exact .inl ⟨p1, hs, p3, t, p4, q⟩
      · exact .inr ⟨v, k + 1, i, ⟨p1, hs, p3, t, p4, q1⟩, q2, q3, by omega⟩

/-- No path is longer than one that ends. -/
theorem Clear.longest' {cfg : Cfg} {P : List Instr} {dbg : List Word} {stop : State → Prop} {s t v : State} {k m : Nat}
    (h : Clear cfg P dbg stop k s t) (ht : Ends P stop t) (h' : Clear cfg P dbg stop m s v) : m ≤ k := by
  by_contra hc
  obtain ⟨f1, f2, f3, _⟩ := (h.sub h' (by omega)).free (by omega)
  rcases ht with h | h | h
  · rw [h] at f1; cases f1
  · exact f2 h
  · exact stopCode_zero_bkpt f3 h

/-- What a program that stops at `stop` comes to, if it comes to `u` when it stops only at `stop'`. -/
theorem Clear.next {cfg : Cfg} {P : List Instr} {dbg : List Word} {stop stop' : State → Prop} (hsub : ∀ s, stop' s → stop s) {wps : Map Word Nat}
    {j : Nat} {s u : State} (hp : Clear cfg P dbg stop' j s u) (hu : Ends P stop' u) :
    (∀ m v, Clear cfg P dbg stop m s v → m ≤ j) ∧
    (Ran cfg P dbg stop wps false s (ending u) u ∨
      ∃ t i, Ran cfg P dbg stop wps false s (.breakpoint t.pc) t ∧ stop t ∧ ¬ stop' t ∧ t.halted = false ∧ Clear cfg P dbg stop' (i + 1) t u ∧ i + 1 ≤ j ∧
        (¬ stop s → i + 1 < j)) := by
  rcases hp.split stop with q | ⟨t, k, i, q1, q2, q3, q4⟩
  · have hu' : Ends P stop u := hu.imp id fun h => h.imp (hsub u) id
    refine ⟨fun m v hm => q.longest' hu' hm, .inl ?_⟩
    unfold ending
    split
    · rename_i hh
      exact .halt q hh (by simp)
    · rename_i hh
      exact .breakpoint q (by simpa using hh) (hu'.resolve_left hh) (by simp)
  · refine ⟨fun m v hm => ?_, .inr ⟨t, i, .breakpoint q1 q3.1 (.inl q2) (by simp), q2, q3.2.1, q3.1, q3, by omega, fun hs => ?_⟩⟩
    · have := q1.longest' (.inr (.inl q2)) hm
      omega
    · cases k with
      | zero =>
        have : t = s := q1
        subst this
        exact absurd q2 hs
      | succ k => omega

end Isa

namespace Native
open Isa
variable {h : Host} {c : Client} {Tx : Str → Instr → Prop} {P : List Instr}

/-- The loop of stepping over comes back with what the program comes to. -/
theorem overLoop_meets (ha : Able h c) (ht : Texts h Tx) {ip bp : Word} {u : State} {dbg : List Word} {stop' : State → Prop} {A : Word → Bool}
    (hu : Ends P stop' u) (hsub : ∀ s, stop' s → A s.pc = true) (hout : ∀ s, ¬ stop' s → A s.pc = true → s.pc = ip + 1 ∧ s.reg (.int .bp) ≠ bp)
    (hin : ∀ s, stop' s → s.pc = ip + 1 → s.reg (.int .bp) = bp) (hb : ∀ a, A a = true → instrAt P a ≠ .bkpt) (hip : instrAt P (ip + 1) ≠ .bkpt) :
    ∀ {fuel : Nat} {n : Native} {d : Dbg} {j : Nat}, Fine h Tx P n → View h n d → d.dbg = dbg → d.trap = false →
      (∃ why, d.phase = .stopped why) → n.link.dead = false → (∀ b, armed n b = A b) →
      Clear h.cfg P dbg stop' j d.state u → ¬ stop' d.state → d.state.halted = false → j + 1 ≤ fuel → 24 * (j + 1) ≤ h.wait →
      Returns (UbPossible h.cfg P) (overLoop h c ip bp fuel n) fun e n' => e = ending u ∧
        ∃ d', View h n' d' ∧ Fine h Tx P n' ∧ d'.state = u ∧ (∃ why, d'.phase = .stopped why) ∧ n'.link.dead = false ∧
          (∀ b, armed n' b = A b) ∧ n'.wps = n.wps := by
  intro fuel
  induction fuel with
  | zero => intro n d j _ _ _ _ _ _ _ _ _ _ hj; omega
  | succ fuel ih =>
    intro n d j hf hv hdbg htrap hph hdead harm hpath hns hdh hjf hw
    subst hdbg
    obtain ⟨why0, hph0⟩ := hph
    have hl : n.link.Live := live_view hv hdead hph0
    have hwd := hv.watched hf.good hph0
    have hsub' : ∀ s, stop' s → stops n s := fun s hs => by unfold stops; rw [harm]; exact hsub s hs
    -- what the program comes to
    have hwent : (∃ e t, Went h.cfg P d.dbg (stops n) n.wps d.trap d.state e t ∧
        (e = ending u ∧ t = u ∨ ∃ i, e = .breakpoint t.pc ∧ stops n t ∧ ¬ stop' t ∧ t.halted = false ∧ Clear h.cfg P d.dbg stop' (i + 1) t u ∧ i + 1 < j)) ∧
        (∀ w m v, Isa.first h.cfg P (stops n) d.state w → Clear h.cfg P d.dbg (stops n) m w v → m ≤ j) ∧
        (A d.state.pc = true → instrAt P d.state.pc ≠ .bkpt) := by
      refine ⟨?_, ?_⟩
      · by_cases hs : stops n d.state
        · have hA : A d.state.pc = true := by unfold stops at hs; rwa [harm] at hs
          cases j with
          | zero =>
            have hq : u = d.state := hpath
            subst hq
            rcases hu with q | q | q
            · rw [hdh] at q; cases q
            · exact absurd q hns
            · exact absurd q (hb _ hA)
          | succ j =>
            obtain ⟨p1, p2, p3, t1, p4, p5⟩ := hpath
            by_cases hth : t1.halted = true
            · have : u = t1 := by
                cases j with
                | zero => exact p5
                | succ j => exact absurd p5.1 (by rw [hth]; simp)
              subst this
              exact ⟨.end', u, .last hs (.halt (k := 1) ⟨p1, id, p3, u, p4, rfl⟩ hth (fun _ => rfl)) (by simp), .inl ⟨by unfold ending; rw [if_pos hth], rfl⟩⟩
            · have hfirst : Ran h.cfg P d.dbg (fun _ => False) n.wps true d.state .singlestep t1 := .single ⟨p1, id, p3, t1, p4, rfl⟩ (by simpa using hth) rfl
              rcases (p5.next (wps := n.wps) hsub' hu).2 with q | ⟨t, i, q1, q2, q3, q4, q5, q6, _⟩
              · exact ⟨_, u, .on hs hfirst q, .inl ⟨rfl, rfl⟩⟩
              · exact ⟨_, t, .on hs hfirst q1, .inr ⟨i, rfl, q2, q3, q4, q5, by omega⟩⟩
        · rcases (hpath.next (wps := n.wps) hsub' hu).2 with q | ⟨t, i, q1, q2, q3, q4, q5, q6, q7⟩
          · exact ⟨_, u, .free hs (by rw [htrap]; exact q), .inl ⟨rfl, rfl⟩⟩
          · exact ⟨_, t, .free hs (by rw [htrap]; exact q1), .inr ⟨i, rfl, q2, q3, q4, q5, q7 hs⟩⟩
      · refine ⟨?_, fun hA => hb _ hA⟩
        rintro w m v (⟨f1, rfl⟩ | ⟨f1, f2⟩) hm
        · exact (hpath.next (wps := n.wps) hsub' hu).1 m v hm
        · cases j with
          | zero =>
            have hq : u = d.state := hpath
            subst hq
            rcases hu with q | q | q
            · rw [hdh] at q; cases q
            · exact absurd q hns
            · exact absurd q (hb _ (by unfold stops at f1; rwa [harm] at f1))
          | succ j =>
            obtain ⟨p1, p2, p3, t1, p4, p5⟩ := hpath
            rw [p4] at f2
            cases f2
            have := (p5.next (wps := n.wps) hsub' hu).1 m v hm
            omega
    obtain ⟨⟨e0, t, hgo, hcase⟩, hK, hbk⟩ := hwent
    have hun : overLoop h c ip bp (fuel + 1) n = ((continue' h c >>= fun _ => waitEvent h c) >>= fun e => getRegister h "BP".toList >>= fun bp' =>
        getIP h >>= fun ip' => if Event.isBreakpoint e ∧ ip' = ip + 1 ∧ bp ≠ bp' then overLoop h c ip bp fuel else pure e) n := by
      rw [job_assoc]
      rfl
    rw [hun]
    have hnw : ¬ ∃ a, e0 = .watchpoint a := by
      rintro ⟨a, rfl⟩
      rcases hcase with ⟨q, _⟩ | ⟨_, q, _⟩
      · unfold ending at q; split at q <;> cases q
      · cases q
    rcases continue_total ha ht hf hv hl hgo hdh hK hw (fun q => absurd q hnw) with ⟨e, n2, h1, rfl⟩ | ⟨⟨n2, h1⟩, hub⟩
    · obtain ⟨x, n1, g1, g2⟩ := Job.bind_ok h1
      obtain ⟨d1, w1, w2, w3, w4, w5, w6, w7⟩ := continue_view ht hf hv (fun q => hbk (by rw [← harm]; exact q)) g1 g2
      have hd1 : d1.state = t := (Went.unique hwd w1 hgo).2
      have hf2 : Fine h Tx P n2 := wait_fine _ _ _ (continue_fineGone ht _ _ _ hf g1) g2
      obtain ⟨why1, hph1⟩ := w6
      have hl2 := live_view w2 w4 hph1
      rw [Job.bind_eq h1, Job.bind_eq (show getRegister h "BP".toList n2 = _ from getRegister_total w2 hl2 (bp_shown _)), Job.bind_eq (getIP_total w2 hl2), hd1]
      rcases hcase with ⟨rfl, rfl⟩ | ⟨i, rfl, q2, q3, q4, q5, q6⟩
      · rw [if_neg]
        · exact .inl ⟨_, _, rfl, rfl, d1, w2, hf2, hd1, ⟨why1, hph1⟩, w4, fun b => by rw [w3.armed]; exact harm b, w3.wps⟩
        · rintro ⟨a1, a2, a3⟩
          rcases hu with q | q | q
          · unfold ending at a1; rw [if_pos q] at a1; cases a1
          · exact a3 (hin _ q a2).symm
          · exact hip (by rw [← a2]; exact q)
      · have hA1 : A t.pc = true := by rw [← harm]; exact q2
        obtain ⟨r1, r2⟩ := hout t q3 hA1
        rw [if_pos ⟨rfl, r1, fun e => r2 e.symm⟩]
        refine (ih hf2 w2 (w5 (by simp)) (w7 (by simp) (by simp) htrap (by simp)) ⟨why1, hph1⟩ w4 (fun b => by rw [w3.armed]; exact harm b)
          (by rw [hd1]; exact q5) (by rw [hd1]; exact q3) (by rw [hd1]; exact q4) (by omega) (by omega)).imp ?_ id
        rintro ⟨e, n', k1, k2, d', k3, k4, k5, k6, k7, k8, k9⟩
        exact ⟨e, n', k1, k2, d', k3, k4, k5, k6, k7, k8, by rw [k9, w3.wps]⟩
    · exact .inr ⟨⟨n2, Job.bind_error h1⟩, hub.1⟩

end Native
end T86
