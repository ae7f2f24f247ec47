import Verif.Lemmas.Return
import Verif.Props.Stepping

/-! # Control comes back to the debugger (C73)

The theorems about stepping (C31, C34, C46) say what has happened when a call has come back. These say that it does come back: whatever the
program comes to on the sequential machine, be it its end, a breakpoint or a watched write, the call of the debugger returns with exactly that, if the
debugger is patient enough. Twenty-four ticks for each instruction are enough. -/

set_option linter.unusedSimpArgs false
set_option linter.unusedVariables false
set_option maxRecDepth 100000

namespace T86
open Dbg Str Native Isa

section
variable {h : Host} {c : Client} {Tx : Str → Instr → Prop} {prog P : List Instr} {data : List Word} {inp : List (BitVec 8)} {n n1 n' : Native}

/-- One instruction, whatever it is. -/
theorem Ran.exists_one {cfg : Cfg} {dbg : List Word} {wps : Map Word Nat} {s s' : State} (hw : Watched dbg wps)
    (hk : ∀ j, j < 4 → (dbg.getD 4 0).getLsbD j = true → ∃ w ∈ wps, w.2 = j) (hh : s.halted = false) (hb : instrAt P s.pc ≠ .bkpt)
    (hs : step cfg P s = .ok s') : ∃ e, Ran cfg P dbg (fun _ => False) wps true s e s' := by
  by_cases h0 : stopCode dbg s (instrAt P s.pc) = 0
  · cases hh' : s'.halted with
    | true => exact ⟨_, .halt (k := 1) ⟨hh, id, h0, s', hs, rfl⟩ hh' (fun _ => rfl)⟩
    | false => exact ⟨_, .single ⟨hh, id, h0, s', hs, rfl⟩ hh' rfl⟩
  · have hr : reasonOf (stopCode dbg s (instrAt P s.pc)) = .hwBkpt := by
      unfold stopCode at h0 ⊢
      rw [if_neg hb] at h0 ⊢
      unfold reasonOf
      cases hwa : writeAddr s (instrAt P s.pc) with
      | none => rw [hwa] at h0; exact absurd rfl h0
      | some a =>
        simp only
        split <;> simp_all
    obtain ⟨_, a, j, hwa, hj⟩ := stopCode_watch hr h0
    have hact := List.find?_some hj
    unfold watches at hact
    simp only [Bool.and_eq_true, beq_iff_eq] at hact
    obtain ⟨w, hw1, hw2⟩ := hk j (watchHit_lt hj) hact.1
    have hwa' : w.1 = a := by rw [← hw.addr w hw1, hw2]; exact hact.2
    have hnh : s'.halted = false := by
      cases hh' : s'.halted with
      | false => rfl
      | true =>
        have := exec_halted (cfg := cfg) (i := instrAt P s.pc) hs (by intro hi; rw [hi] at hwa; cases hwa)
        rw [hh, hh'] at this
        cases this
    refine ⟨_, .watch (k := 0) rfl hh id hwa ?_ hs hnh (fun _ => rfl)⟩
    rw [Map.find_eq_some_of_mem hw.ok (k := a) (v := j) (by rw [← hwa', ← hw2]; exact hw1)]
    rfl

/-- What the program comes to is determined. -/
theorem Went.unique {cfg : Cfg} {dbg : List Word} {stop : State → Prop} {wps : Map Word Nat} {trap : Bool} {s a b : State} {e e' : Event}
    (hw : Watched dbg wps) (h1 : Went cfg P dbg stop wps trap s e a) (h2 : Went cfg P dbg stop wps trap s e' b) : e = e' ∧ a = b := by
  cases h1 with
  | free f1 r1 =>
    cases h2 with
    | free f2 r2 => exact r1.unique r2 hw
    | last f2 => exact absurd f2 f1
    | on f2 => exact absurd f2 f1
  | last f1 r1 n1 =>
    cases h2 with
    | free f2 r2 => exact absurd f1 f2
    | last f2 r2 n2 => exact r1.unique r2 hw
    | on f2 r2 => exact absurd (r1.unique r2 hw).1 n1
  | on f1 r1 q1 =>
    cases h2 with
    | free f2 r2 => exact absurd f1 f2
    | last f2 r2 n2 => exact absurd (r1.unique r2 hw).1.symm n2
    | on f2 r2 q2 =>
      have := (r1.unique r2 hw).2
      subst this
      exact q1.unique q2 hw

/-- C73. A single step comes back after the instruction. At a BKPT of the program itself it comes back at once. -/
theorem C73_step (ht : Texts h Tx) (hs : prog.length < 2 ^ 63) (hp : ∀ i ∈ prog, Plain h i) (hset : Setup h.cfg prog data)
    (hx : Careful h c Tx prog data inp P n) (hl : n.link.Live) (ha : Able h c) (hw : 24 ≤ h.wait) (hk : Kempt n) :
    ∃ s, Native.Shows h n s ∧ (s.halted = false →
      (instrAt P s.pc = .bkpt → Returns (StepRisk h.cfg P (armed n) s) (singleStep h c n) fun e n' => e = .breakpoint s.pc ∧ Native.Shows h n' s) ∧
      (instrAt P s.pc ≠ .bkpt → ∀ s', step h.cfg P s = .ok s' → Returns (StepRisk h.cfg P (armed n) s) (singleStep h c n) fun e n' => Native.Shows h n' s' ∧
        (s'.halted = true → e = .end') ∧ (s'.halted = false → e = .singlestep ∨ ∃ a, e = .watchpoint a ∧
          writeAddr s (instrAt P s.pc) = some a ∧ (n.wps.find a).isSome = true))) := by
  obtain ⟨hf, d, hv⟩ := careful_view ht hs hp hset hx
  obtain ⟨why, hst⟩ := hl.stopped
  have hdp : d.phase = .stopped why := hv.same.phase.symm.trans hst
  have hdbg := dbg_view hv hdp
  have hwatch := hv.watched hf.good hdp
  refine ⟨d.state, hv.shows hdp hl.3, fun hh => ?_⟩
  have key : ∀ e s', Ran h.cfg P d.dbg (fun _ => False) n.wps true d.state e s' →
      Returns (StepRisk h.cfg P (armed n) d.state) (singleStep h c n) fun e' n' => e' = e ∧ Native.Shows h n' s' := by
    intro e s' hr
    rcases singleStep_total ha ht hf hv hl hr hw (fun _ => hk) with ⟨e', n', h1, rfl⟩ | h1
    · obtain ⟨d', g1, g2, g3, g4, _, _, _, why', g5⟩ := singleStep_view ht hf hv h1
      have := (g1.unique hr hwatch).2
      exact .inl ⟨e', n', h1, rfl, by rw [← this]; exact g2.shows g5 g4⟩
    · exact .inr h1
  refine ⟨fun hb => key _ _ (.breakpoint (k := 0) rfl hh (.inr hb) (fun _ => rfl)), fun hb s' hs' => ?_⟩
  obtain ⟨e, hr⟩ := Ran.exists_one hwatch (by rw [← hdbg]; exact hk) hh hb hs'
  rcases key e s' hr with ⟨e', n', h1, rfl, h2⟩ | h1
  · refine .inl ⟨e', n', h1, h2, ?_⟩
    rcases (Ran.one hr hb).2 with ⟨h3, h4⟩ | ⟨h3, h4⟩ | ⟨a, h3, h4, h5, h6⟩
    · exact ⟨fun _ => h3, fun h => absurd h (by rw [h4]; simp)⟩
    · exact ⟨fun h => absurd h (by rw [h4]; simp), fun _ => .inl h3⟩
    · exact ⟨fun h => absurd h (by rw [h6]; simp), fun _ => .inr ⟨a, h3, h4, h5⟩⟩
  · exact .inr h1

/-- C73. Continuing comes back with what the program comes to. -/
theorem C73_continue (ht : Texts h Tx) (hs : prog.length < 2 ^ 63) (hp : ∀ i ∈ prog, Plain h i) (hset : Setup h.cfg prog data)
    (hx : Careful h c Tx prog data inp P n) (hl : n.link.Live) (ha : Able h c) :
    ∃ s, Native.Shows h n s ∧ ∀ e s' K, s.halted = false → (armed n s.pc = true → instrAt P s.pc ≠ .bkpt) →
      Went h.cfg P n.link.vm.cpu.dbg (fun t => armed n t.pc = true) n.wps n.link.vm.cpu.trap s e s' →
      (∀ s1 m t, first h.cfg P (fun t => armed n t.pc = true) s s1 →
        Clear h.cfg P n.link.vm.cpu.dbg (fun t => armed n t.pc = true) m s1 t → m ≤ K) →
      24 * (K + 1) ≤ h.wait → ((∃ a, e = .watchpoint a) → Kempt n) →
      Returns (RunRisk h.cfg P n.link.vm.cpu.dbg (armed n) s) ((continue' h c >>= fun _ => waitEvent h c) n) fun e' n' =>
        e' = e ∧ Native.Shows h n' s' ∧ (∀ a, armed n' a = armed n a) ∧ n'.wps = n.wps := by
  obtain ⟨hf, d, hv⟩ := careful_view ht hs hp hset hx
  obtain ⟨why, hst⟩ := hl.stopped
  have hdp : d.phase = .stopped why := hv.same.phase.symm.trans hst
  have hwatch := hv.watched hf.good hdp
  obtain ⟨_, _, hdbg, htrap, _⟩ := hv.same.live (by rw [hdp]; simp) (by rw [hdp]; simp)
  refine ⟨d.state, hv.shows hdp hl.3, fun e s' K hh hb hr hK hw hk => ?_⟩
  rw [hdbg, htrap] at hr
  rw [hdbg] at hK ⊢
  rcases continue_total ha ht hf hv hl hr hh hK hw hk with ⟨e', n', h1, rfl⟩ | h1
  · obtain ⟨_, n1, h2, h3⟩ := Job.bind_ok h1
    obtain ⟨d', g1, g2, g3, g4, _, ⟨why', g5⟩, _⟩ := continue_view ht hf hv hb h2 h3
    have := (Went.unique hwatch g1 hr).2
    exact .inl ⟨e', n', h1, rfl, by rw [← this]; exact g2.shows g5 g4, g3.armed, g3.wps⟩
  · exact .inr h1

/-- C73. If, on the sequential machine, the program comes to its end or to a breakpoint after `k` instructions (not counting the one at a
breakpoint where it is now), with nothing watched written on the way, continuing comes back and says so. -/
theorem C73_reached (ht : Texts h Tx) (hs : prog.length < 2 ^ 63) (hp : ∀ i ∈ prog, Plain h i) (hset : Setup h.cfg prog data)
    (hx : Careful h c Tx prog data inp P n) (hl : n.link.Live) (ha : Able h c) (hm : n.link.vm.cpu.trap = false) :
    ∃ s, Native.Shows h n s ∧ ∀ s1 t k, s.halted = false →
      first h.cfg P (fun t => armed n t.pc = true) s s1 → (armed n s.pc = true → stopCode n.link.vm.cpu.dbg s (instrAt P s.pc) = 0) →
      Clear h.cfg P n.link.vm.cpu.dbg (fun t => armed n t.pc = true) k s1 t →
      (t.halted = true ∨ armed n t.pc = true ∨ instrAt P t.pc = .bkpt) → 24 * (k + 1) ≤ h.wait →
      Returns (RunRisk h.cfg P n.link.vm.cpu.dbg (armed n) s) ((continue' h c >>= fun _ => waitEvent h c) n) fun e n' =>
        e = (if t.halted then .end' else .breakpoint t.pc) ∧ Native.Shows h n' t := by
  obtain ⟨s, h1, h2⟩ := C73_continue ht hs hp hset hx hl ha
  refine ⟨s, h1, fun s1 t k hh hfirst hz hc ht' hw => ?_⟩
  have hran : s1.halted = false → Ran h.cfg P n.link.vm.cpu.dbg (fun t => armed n t.pc = true) n.wps false s1
      (if t.halted then .end' else .breakpoint t.pc) t := by
    intro hs1
    cases hth : t.halted with
    | true => exact .halt hc hth (by simp)
    | false =>
      refine .breakpoint hc hth ?_ (by simp)
      rcases ht' with h | h
      · rw [hth] at h; cases h
      · exact h
  have hwent : Went h.cfg P n.link.vm.cpu.dbg (fun t => armed n t.pc = true) n.wps n.link.vm.cpu.trap s
      (if t.halted then .end' else .breakpoint t.pc) t := by
    rcases hfirst with ⟨g1, rfl⟩ | ⟨g1, g2⟩
    · rw [hm]; exact .free g1 (hran hh)
    · have hc1 : Clear h.cfg P n.link.vm.cpu.dbg (fun _ => False) 1 s s1 := ⟨hh, id, hz g1, s1, g2, rfl⟩
      cases hs1 : s1.halted with
      | false => exact .on g1 (.single hc1 hs1 rfl) (hran hs1)
      | true =>
        have : k = 0 := by
          cases k with
          | zero => rfl
          | succ k => exact absurd hc.1 (by rw [hs1]; simp)
        subst this
        have : t = s1 := hc
        subst this
        rw [hs1]
        exact .last g1 (.halt hc1 hs1 (fun _ => rfl)) (by simp)
  refine (h2 _ _ k hh (fun har hb => ?_) hwent ?_ hw ?_).imp (fun ⟨e', n', g1, g2, g3, _⟩ => ⟨e', n', g1, g2, g3⟩) id
  · have := hz har
    rw [hb] at this
    simp [stopCode] at this
  · intro u m v hu hcu
    have : u = s1 := by
      rcases hu with ⟨g1, rfl⟩ | ⟨g1, g2⟩ <;> rcases hfirst with ⟨q1, rfl⟩ | ⟨q1, q2⟩
      · rfl
      · exact absurd q1 g1
      · exact absurd g1 q1
      · rw [g2] at q2; injection q2
    subst this
    by_cases hle : m ≤ k
    · exact hle
    · exfalso
      obtain ⟨f1, f2, f3, _⟩ := (Clear.sub hc hcu (by omega)).free (by omega)
      rcases ht' with h | h | h
      · rw [f1] at h; cases h
      · exact f2 h
      · rw [h] at f3; simp [stopCode] at f3
  · rintro ⟨a, hx⟩
    split at hx <;> cases hx

end

/-- Non-vacuity: the sample program has breakpoints at 1 and 6 and a watchpoint; it comes to the first of them after one instruction. -/
example :
    Careful Sample.host Sample.client (fun s i => s = i.print Sample.host.ftos ∧ Plain Sample.host i) Sample.calls [] [] Sample.calls
      (Sample.after (Sample.started Sample.calls) [.set 1, .set 6, .watch 8]) ∧
    (Sample.after (Sample.started Sample.calls) [.set 1, .set 6, .watch 8]).link.vm.cpu.trap = false ∧
    Kempt (Sample.after (Sample.started Sample.calls) [.set 1, .set 6, .watch 8]) ∧ Able Sample.host Sample.client ∧
    24 * (1 + 1) ≤ Sample.host.wait ∧
    (∃ t, first Sample.host.cfg Sample.calls
        (fun t => armed (Sample.after (Sample.started Sample.calls) [.set 1, .set 6, .watch 8]) t.pc = true) (Isa.start Sample.cfg [] []) (Isa.start Sample.cfg [] []) ∧
      Clear Sample.host.cfg Sample.calls (Sample.after (Sample.started Sample.calls) [.set 1, .set 6, .watch 8]).link.vm.cpu.dbg
        (fun t => armed (Sample.after (Sample.started Sample.calls) [.set 1, .set 6, .watch 8]) t.pc = true) 1 (Isa.start Sample.cfg [] []) t ∧
      t.halted = false ∧ armed (Sample.after (Sample.started Sample.calls) [.set 1, .set 6, .watch 8]) t.pc = true) ∧
    ((Native.continue' Sample.host Sample.client >>= fun _ => waitEvent Sample.host Sample.client)
      (Sample.after (Sample.started Sample.calls) [.set 1, .set 6, .watch 8])).1 = .ok (.breakpoint 1) := by
  have h0 : armed (Sample.after (Sample.started Sample.calls) [.set 1, .set 6, .watch 8]) 0 = false := by decide +kernel
  have h1 : armed (Sample.after (Sample.started Sample.calls) [.set 1, .set 6, .watch 8]) 1 = true := by decide +kernel
  have hd : (Sample.after (Sample.started Sample.calls) [.set 1, .set 6, .watch 8]).link.vm.cpu.dbg = [8, 0, 0, 0, 1] := by decide +kernel
  have hw : (Sample.after (Sample.started Sample.calls) [.set 1, .set 6, .watch 8]).wps = [(8, 0)] := by decide +kernel
  refine ⟨Sample.careful (Sample.starts (by decide +kernel)) (by decide) (by decide +kernel), by decide +kernel, ?_, ⟨by decide, by decide, by decide, by decide, by decide⟩,
    by decide, ?_, by decide +kernel⟩
  · unfold Kempt
    rw [hd, hw]
    decide
  · have h0' : ¬ (armed (Sample.after (Sample.started Sample.calls) [.set 1, .set 6, .watch 8]) (Isa.start Sample.cfg [] []).pc = true) := by
      rw [show (Isa.start Sample.cfg [] []).pc = 0 from rfl, h0]; simp
    refine ⟨_, .inl ⟨h0', rfl⟩, ⟨rfl, h0', ?_, _, rfl, rfl⟩, rfl, h1⟩
    rw [hd]; decide

end T86
