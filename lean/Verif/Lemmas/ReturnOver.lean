import Verif.Props.Return

/-! # Stepping over a call comes back -/

set_option linter.unusedSimpArgs false
set_option linter.unusedVariables false

namespace T86
open Dbg Str

theorem job_assoc {σ α β γ : Type} (x : Job σ α) (f : α → Job σ β) (g : β → Job σ γ) (s : σ) :
    ((x >>= f) >>= g) s = (x >>= fun a => f a >>= g) s := by
  change Job.bind (Job.bind x f) g s = Job.bind x (fun a => Job.bind (f a) g) s
  unfold Job.bind
  rcases x s with ⟨_ | _, _⟩ <;> rfl

namespace Isa

/-- Along a path there is a first state where `stop` says so. -/
theorem Clear.until {cfg : Cfg} {P : List Instr} {dbg : List Word} {stop stop' : State → Prop} {s2 : State} (h2 : stop s2) :
    ∀ {j : Nat} {u : State}, Clear cfg P dbg stop' j u s2 →
      ∃ t k i, Clear cfg P dbg stop k u t ∧ stop t ∧ Clear cfg P dbg stop' i t s2 ∧ k + i = j
  | 0, u, h => by
    have : s2 = u := h
    subst this
    exact ⟨s2, 0, 0, rfl, h2, rfl, rfl⟩
  | j + 1, u, h => by
    by_cases hu : stop u
    · exact ⟨u, 0, j + 1, rfl, hu, h, by omega⟩
    · obtain ⟨p1, p2, p3, t, p4, p5⟩ := h
      obtain ⟨v, k, i, q1, q2, q3, q4⟩ := Clear.until h2 p5
      exact ⟨v, k + 1, i, ⟨p1, hu, p3, t, p4, q1⟩, q2, q3, by omega⟩

/-- And no path that avoids `stop` is longer. -/
theorem Clear.longest {cfg : Cfg} {P : List Instr} {dbg : List Word} {stop : State → Prop} {u t v : State} {k m : Nat}
    (h : Clear cfg P dbg stop k u t) (ht : stop t) (h' : Clear cfg P dbg stop m u v) : m ≤ k := by
  by_contra hc
  exact ((h.sub h' (by omega)).free (by omega)).2.1 ht

end Isa

namespace Native
open Isa
variable {h : Host} {c : Client} {Tx : Str → Instr → Prop} {P : List Instr}

theorem overLoop_total (ha : Able h c) (ht : Texts h Tx) {ip bp : Word} {s2 : State} {dbg : List Word} {stop' : State → Prop}
    (hpc : s2.pc = ip + 1) (hbp : s2.reg (.int .bp) = bp) (hrun : s2.halted = false) {A : Word → Bool} (hA : A (ip + 1) = true)
    (hout : ∀ s, ¬ stop' s → A s.pc = true → s.pc = ip + 1 ∧ s.reg (.int .bp) ≠ bp) :
    ∀ {fuel : Nat} {n : Native} {d : Dbg} {j : Nat}, Fine h Tx P n → View h n d → d.dbg = dbg → d.trap = false →
      (∃ why, d.phase = .stopped why) → n.link.dead = false → (∀ b, armed n b = A b) →
      Clear h.cfg P dbg stop' j d.state s2 → (A d.state.pc = true → d.state.pc = ip + 1 ∧ d.state.reg (.int .bp) ≠ bp) →
      j ≤ fuel → 24 * (j + 1) ≤ h.wait →
      Returns (UbPossible h.cfg P) (overLoop h c ip bp fuel n) (fun _ _ => True) := by
  intro fuel
  induction fuel with
  | zero =>
    intro n d j hf hv hdbg htrap hph hdead harm hpath hat hj hw
    have hj0 : j = 0 := by omega
    subst hj0
    have hq : s2 = d.state := hpath
    have h1 : A d.state.pc = true := by rw [← hq, hpc]; exact hA
    have := (hat h1).2
    rw [← hq] at this
    exact absurd hbp this
  | succ fuel ih =>
    intro n d j hf hv hdbg htrap hph hdead harm hpath hat hjf hw
    subst hdbg
    obtain ⟨why0, hph0⟩ := hph
    have hl : n.link.Live := live_view hv hdead hph0
    have hwd := hv.watched hf.good hph0
    have hstops : stops n s2 := by
      unfold stops
      rw [harm, hpc]
      exact hA
    have hj : A d.state.pc = true → ∃ j', j = j' + 1 := by
      intro ha
      cases j with
      | zero =>
        have hq : s2 = d.state := hpath
        have := (hat ha).2
        rw [← hq] at this
        exact absurd hbp this
      | succ j => exact ⟨j, rfl⟩
    have hdh : d.state.halted = false := hpath.run hrun
    -- what the program comes to
    have hwent : ∃ t i, Went h.cfg P d.dbg (stops n) n.wps d.trap d.state (.breakpoint t.pc) t ∧ stops n t ∧
        Clear h.cfg P d.dbg stop' i t s2 ∧ i < j ∧
        ∀ u m v, Isa.first h.cfg P (stops n) d.state u → Clear h.cfg P d.dbg (stops n) m u v → m ≤ j := by
      by_cases hs : A d.state.pc = true
      · obtain ⟨j', rfl⟩ := hj hs
        have hs' : stops n d.state := by unfold stops; rw [harm]; exact hs
        obtain ⟨p1, p2, p3, u, p4, p5⟩ := hpath
        obtain ⟨t, k, i, q1, q2, q3, q4⟩ := p5.until hstops
        refine ⟨t, i, .on hs' (.single ⟨p1, id, p3, u, p4, rfl⟩ (p5.run hrun) rfl) (.breakpoint q1 (q3.run hrun) (.inl q2) (by simp)), q2, q3, by omega, ?_⟩
        rintro u' m v (⟨f1, _⟩ | ⟨_, f2⟩) hm
        · exact absurd hs' f1
        · rw [p4] at f2
          cases f2
          have := q1.longest q2 hm
          omega
      · have hs' : ¬ stops n d.state := by unfold stops; rw [harm]; exact hs
        obtain ⟨t, k, i, q1, q2, q3, q4⟩ := hpath.until hstops
        have hk : k ≠ 0 := by
          rintro rfl
          have : t = d.state := q1
          rw [this] at q2
          exact hs' q2
        refine ⟨t, i, .free hs' (.breakpoint q1 (q3.run hrun) (.inl q2) (by rw [htrap]; simp)), q2, q3, by omega, ?_⟩
        rintro u' m v (⟨_, rfl⟩ | ⟨f1, _⟩) hm
        · have := q1.longest q2 hm
          omega
        · exact absurd f1 hs'
    obtain ⟨t, i, hgo, hst, hrest, hij, hK⟩ := hwent
    have hun : overLoop h c ip bp (fuel + 1) n = ((continue' h c >>= fun _ => waitEvent h c) >>= fun e => getRegister h "BP".toList >>= fun bp' =>
        getIP h >>= fun ip' => if Event.isBreakpoint e ∧ ip' = ip + 1 ∧ bp ≠ bp' then overLoop h c ip bp fuel else pure e) n := by
      rw [job_assoc]
      rfl
    rw [hun]
    rcases continue_total ha ht hf hv hl hgo hdh hK hw (by rintro ⟨a, h⟩; cases h) with ⟨e, n2, h1, rfl⟩ | ⟨⟨n2, h1⟩, hu⟩
    · obtain ⟨u, n1, g1, g2⟩ := Job.bind_ok h1
      obtain ⟨d1, w1, w2, w3, w4, w5, w6, w7⟩ := continue_view ht hf hv (by
        intro ha
        rw [harm] at ha
        obtain ⟨j', rfl⟩ := hj ha
        exact stopCode_zero_bkpt hpath.2.2.1) g1 g2
      have hd1 : d1.state = t := (Went.unique hwd w1 hgo).2
      have hf2 : Fine h Tx P n2 := wait_fine _ _ _ (continue_fineGone ht _ _ _ hf g1) g2
      obtain ⟨why1, hph1⟩ := w6
      have hl2 := live_view w2 w4 hph1
      rw [Job.bind_eq h1, Job.bind_eq (show getRegister h "BP".toList n2 = _ from getRegister_total w2 hl2 (bp_shown _)), Job.bind_eq (getIP_total w2 hl2)]
      have hA1 : A t.pc = true := by rw [← harm]; exact hst
      split
      · rename_i hcond
        refine ih hf2 w2 (w5 (by simp)) (w7 (by simp) (by simp) htrap (by simp)) ⟨why1, hph1⟩ w4 (fun b => by rw [w3.armed]; exact harm b)
          (by rw [hd1]; exact hrest) (fun _ => ⟨hcond.2.1, fun e => hcond.2.2 e.symm⟩) (by omega) (by omega)
      · exact .inl ⟨_, _, rfl, trivial⟩
    · exact .inr ⟨⟨n2, Job.bind_error h1⟩, hu.1⟩

end Native
end T86
