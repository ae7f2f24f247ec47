import Verif.Lemmas.ReturnMet

/-! # Stepping over a call comes back when a watched address is written -/

set_option linter.unusedSimpArgs false
set_option linter.unusedVariables false
set_option maxRecDepth 100000

namespace T86
open Dbg Str

namespace Native
open Isa
variable {h : Host} {c : Client} {Tx : Str → Instr → Prop} {P : List Instr}

/-- The loop of stepping over comes back when a watched address is written. -/
theorem overLoop_watch (ha : Able h c) (ht : Texts h Tx) {ip bp : Word} {u v : State} {a : Word} {wps : Map Word Nat} {dbg : List Word} {stop' : State → Prop} {A : Word → Bool}
    (hur : u.halted = false) (hus : ¬ stop' u) (hup : u.pc ≠ ip + 1) (hua : writeAddr u (instrAt P u.pc) = some a)
    (hwa : (wps.find a).isSome = true) (hst : step h.cfg P u = .ok v) (hvr : v.halted = false) (hsub : ∀ s, stop' s → A s.pc = true) (hout : ∀ s, ¬ stop' s → A s.pc = true → s.pc = ip + 1 ∧ s.reg (.int .bp) ≠ bp)
    (hb : ∀ a, A a = true → instrAt P a ≠ .bkpt) :
    ∀ {fuel : Nat} {n : Native} {d : Dbg} {j : Nat}, Fine h Tx P n → View h n d → d.dbg = dbg → d.trap = false →
      (∃ why, d.phase = .stopped why) → n.link.dead = false → (∀ b, armed n b = A b) → n.wps = wps → Kempt n →
      Clear h.cfg P dbg stop' j d.state u → ¬ stop' d.state → d.state.halted = false → j + 1 ≤ fuel → 24 * (j + 1) ≤ h.wait →
      Returns (UbPossible h.cfg P) (overLoop h c ip bp fuel n) fun e n' => e = .watchpoint a ∧
        ∃ d', View h n' d' ∧ Fine h Tx P n' ∧ d'.state = v ∧ (∃ why, d'.phase = .stopped why) ∧ n'.link.dead = false ∧
          (∀ b, armed n' b = A b) ∧ n'.wps = wps := by
  intro fuel
  induction fuel with
  | zero => intro n d j _ _ _ _ _ _ _ _ _ _ _ _ hj; omega
  | succ fuel ih =>
    intro n d j hf hv hdbg htrap hph hdead harm hwps hkempt hpath hns hdh hjf hw
    subst hdbg hwps
    obtain ⟨why0, hph0⟩ := hph
    have hl : n.link.Live := live_view hv hdead hph0
    have hwd := hv.watched hf.good hph0
    have hsub' : ∀ s, stop' s → stops n s := fun s hs => by unfold stops; rw [harm]; exact hsub s hs
    have hnu : ¬ stops n u := fun q => by
      unfold stops at q
      rw [harm] at q
      exact hup (hout u hus q).1
    have hcode : stopCode d.dbg u (instrAt P u.pc) ≠ 0 := fun q => stopCode_zero_watch hwd q hua hwa
    -- what the program comes to from `s`, if it stops at all breakpoints
    have hnext : ∀ (s : State) (j : Nat), Clear h.cfg P d.dbg stop' j s u → (∀ m t, Clear h.cfg P d.dbg (stops n) m s t → m ≤ j) ∧
        (Ran h.cfg P d.dbg (stops n) n.wps false s (.watchpoint a) v ∨
          ∃ t i, Ran h.cfg P d.dbg (stops n) n.wps false s (.breakpoint t.pc) t ∧ stops n t ∧ ¬ stop' t ∧ t.halted = false ∧
            Clear h.cfg P d.dbg stop' (i + 1) t u ∧ i + 1 ≤ j ∧ (¬ stops n s → i + 1 < j)) := by
      intro s j hp
      rcases hp.split (stops n) with q | ⟨t, k, i, q1, q2, q3, q4⟩
      · refine ⟨fun m t hm => ?_, .inl (.watch q hur hnu hua hwa hst hvr (by simp))⟩
        by_contra hc
        exact hcode ((q.sub hm (by omega)).free (by omega)).2.2.1
      · refine ⟨fun m v hm => ?_, .inr ⟨t, i, .breakpoint q1 q3.1 (.inl q2) (by simp), q2, q3.2.1, q3.1, q3, by omega, fun hs => ?_⟩⟩
        · have := q1.longest' (.inr (.inl q2)) hm
          omega
        · cases k with
          | zero =>
            have : t = s := q1
            subst this
            exact absurd q2 hs
          | succ k => omega
    have hwent : (∃ e t, Went h.cfg P d.dbg (stops n) n.wps d.trap d.state e t ∧
        (e = .watchpoint a ∧ t = v ∨ ∃ i, e = .breakpoint t.pc ∧ stops n t ∧ ¬ stop' t ∧ t.halted = false ∧ Clear h.cfg P d.dbg stop' (i + 1) t u ∧ i + 1 < j)) ∧
        (∀ w m v, Isa.first h.cfg P (stops n) d.state w → Clear h.cfg P d.dbg (stops n) m w v → m ≤ j) ∧
        (A d.state.pc = true → instrAt P d.state.pc ≠ .bkpt) := by
      refine ⟨?_, ?_, fun hA => hb _ hA⟩
      · by_cases hs : stops n d.state
        · cases j with
          | zero =>
            have hq : u = d.state := hpath
            exact absurd (hq ▸ hs) hnu
          | succ j =>
            obtain ⟨p1, p2, p3, t1, p4, p5⟩ := hpath
            have hth : t1.halted = false := p5.run hur
            have hfirst : Ran h.cfg P d.dbg (fun _ => False) n.wps true d.state .singlestep t1 := .single ⟨p1, id, p3, t1, p4, rfl⟩ hth rfl
            rcases (hnext t1 j p5).2 with q | ⟨t, i, q1, q2, q3, q4, q5, q6, _⟩
            · exact ⟨_, v, .on hs hfirst q, .inl ⟨rfl, rfl⟩⟩
            · exact ⟨_, t, .on hs hfirst q1, .inr ⟨i, rfl, q2, q3, q4, q5, by omega⟩⟩
        · rcases (hnext _ j hpath).2 with q | ⟨t, i, q1, q2, q3, q4, q5, q6, q7⟩
          · exact ⟨_, v, .free hs (by rw [htrap]; exact q), .inl ⟨rfl, rfl⟩⟩
          · exact ⟨_, t, .free hs (by rw [htrap]; exact q1), .inr ⟨i, rfl, q2, q3, q4, q5, q7 hs⟩⟩
      · rintro w m v (⟨f1, rfl⟩ | ⟨f1, f2⟩) hm
        · exact (hnext _ j hpath).1 m v hm
        · cases j with
          | zero =>
            have hq : u = d.state := hpath
            exact absurd (hq ▸ f1) hnu
          | succ j =>
            obtain ⟨p1, p2, p3, t1, p4, p5⟩ := hpath
            rw [p4] at f2
            cases f2
            have := (hnext _ j p5).1 m v hm
            omega
    obtain ⟨⟨e0, t, hgo, hcase⟩, hK, hbk⟩ := hwent
    have hun : overLoop h c ip bp (fuel + 1) n = ((continue' h c >>= fun _ => waitEvent h c) >>= fun e => getRegister h "BP".toList >>= fun bp' =>
        getIP h >>= fun ip' => if Event.isBreakpoint e ∧ ip' = ip + 1 ∧ bp ≠ bp' then overLoop h c ip bp fuel else pure e) n := by
      rw [job_assoc]
      rfl
    rw [hun]
    rcases continue_total ha ht hf hv hl hgo hdh hK hw (fun _ => hkempt) with ⟨e, n2, h1, rfl⟩ | ⟨⟨n2, h1⟩, hub⟩
    · obtain ⟨x, n1, g1, g2⟩ := Job.bind_ok h1
      obtain ⟨d1, w1, w2, w3, w4, w5, w6, w7⟩ := continue_view ht hf hv (fun q => hbk (by rw [← harm]; exact q)) g1 g2
      have hd1 : d1.state = t := (Went.unique hwd w1 hgo).2
      have hf2 : Fine h Tx P n2 := wait_fine _ _ _ (continue_fineGone ht _ _ _ hf g1) g2
      obtain ⟨why1, hph1⟩ := w6
      have hl2 := live_view w2 w4 hph1
      rw [Job.bind_eq h1, Job.bind_eq (show getRegister h "BP".toList n2 = _ from getRegister_total w2 hl2 (bp_shown _)), Job.bind_eq (getIP_total w2 hl2), hd1]
      rcases hcase with ⟨rfl, rfl⟩ | ⟨i, rfl, q2, q3, q4, q5, q6⟩
      · rw [if_neg (by simp [Event.isBreakpoint])]
        exact .inl ⟨_, _, rfl, rfl, d1, w2, hf2, hd1, ⟨why1, hph1⟩, w4, fun b => by rw [w3.armed]; exact harm b, w3.wps⟩
      · have hA1 : A t.pc = true := by rw [← harm]; exact q2
        obtain ⟨r1, r2⟩ := hout t q3 hA1
        rw [if_pos ⟨rfl, r1, fun e => r2 e.symm⟩]
        have hk2 : Kempt n2 := by
          unfold Kempt at hkempt ⊢
          rw [dbg_view w2 hph1, w5 (by simp), ← dbg_view hv hph0, w3.wps]
          exact hkempt
        exact ih hf2 w2 (w5 (by simp)) (w7 (by simp) (by simp) htrap (by simp)) ⟨why1, hph1⟩ w4 (fun b => by rw [w3.armed]; exact harm b) w3.wps hk2
          (by rw [hd1]; exact q5) (by rw [hd1]; exact q3) (by rw [hd1]; exact q4) (by omega) (by omega)
    · exact .inr ⟨⟨n2, Job.bind_error h1⟩, hub.1⟩

end Native
end T86
