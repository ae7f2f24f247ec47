import Verif.Spec.Return
import Verif.Lemmas.HazardVm
import Verif.Lemmas.Over
import Verif.Lemmas.Poke
import Verif.Props.Live

/-! The debugger gets control back: what the sequential machine comes to, the debugger reports. -/

set_option linter.unusedSimpArgs false
set_option linter.unusedVariables false

namespace T86
open Dbg Str Isa

/-! ## Runs of the sequential machine are determined -/

namespace Isa
variable {cfg : Cfg} {P : List Instr} {dbg : List Word} {stop : State → Prop} {wps : Map Word Nat} {trap : Bool}

theorem Clear.sub : ∀ {m k : Nat} {s a b : State}, Clear cfg P dbg stop m s a → Clear cfg P dbg stop k s b → m ≤ k →
    Clear cfg P dbg stop (k - m) a b
  | 0, k, s, a, b, h1, h2, _ => by
    cases h1
    exact h2
  | m + 1, 0, s, a, b, _, _, h => by omega
  | m + 1, k + 1, s, a, b, ⟨_, _, _, t, h1, h1'⟩, ⟨_, _, _, t', h2, h2'⟩, h => by
    rw [h1] at h2
    cases h2
    have := Clear.sub h1' h2' (by omega)
    rwa [Nat.add_sub_add_right]

theorem Clear.free {m : Nat} {s t : State} (h : Clear cfg P dbg stop m s t) (hm : m ≠ 0) :
    s.halted = false ∧ ¬ stop s ∧ stopCode dbg s (instrAt P s.pc) = 0 ∧ ∃ s1, step cfg P s = .ok s1 := by
  cases m with
  | zero => exact absurd rfl hm
  | succ m =>
    obtain ⟨h1, h2, h3, t, h4, _⟩ := h
    exact ⟨h1, h2, h3, t, h4⟩

theorem watches_hit {s : State} {i : Instr} {a : Word} (hw : Watched dbg wps) (ha : writeAddr s i = some a)
    (hf : (wps.find a).isSome = true) : stopCode dbg s i ≠ 0 := by
  obtain ⟨j, hj⟩ := Option.isSome_iff_exists.1 hf
  have hm := Map.mem_of_find hj
  have h4 := hw.small _ hm
  unfold stopCode
  split
  · simp
  · rw [ha]
    simp only
    have : (watchHit dbg a).isSome = true := by
      unfold watchHit
      rw [List.find?_isSome]
      refine ⟨j, by have : j < 4 := h4; simp; omega, ?_⟩
      unfold watches
      rw [hw.addr _ hm, hw.active _ hm]
      simp
    obtain ⟨x, hx⟩ := Option.isSome_iff_exists.1 this
    rw [hx]
    simp

/-- Where a run ends: how many instructions are executed without a stop, and why it does not go on. -/
theorem Ran.ends {s s' : State} {e : Event} (hr : Ran cfg P dbg stop wps trap s e s') (hw : Watched dbg wps) :
    ∃ k t, Clear cfg P dbg stop k s t ∧ (∀ f, t.halted = false → ¬ stop t → step cfg P t ≠ .error f ∨ trap = true ∧ k = 1) ∧
      (t.halted = true ∨ stop t ∨ stopCode dbg t (instrAt P t.pc) ≠ 0 ∨ trap = true ∧ k = 1) ∧ (trap = true → k ≤ 1) := by
  cases hr with
  | @halt k _ h1 h2 h3 =>
    exact ⟨k, _, h1, (fun f h => by rw [h2] at h; cases h), .inl h2, (fun h => by have := h3 h; omega)⟩
  | single h1 h2 h3 => exact ⟨1, _, h1, fun f _ _ => .inr ⟨h3, rfl⟩, .inr (.inr (.inr ⟨h3, rfl⟩)), fun _ => Nat.le_refl _⟩
  | @breakpoint k _ h1 h2 h3 h4 =>
    refine ⟨k, _, h1, fun f _ hs => .inl ?_, ?_, fun h => by rw [h4 h]; omega⟩
    · rcases h3 with h3 | h3
      · exact absurd h3 hs
      · unfold Isa.step
        rw [h3]
        intro h
        cases h
    · rcases h3 with h3 | h3
      · exact .inr (.inl h3)
      · refine .inr (.inr (.inl ?_))
        rw [h3]
        simp [stopCode]
  | @watch k a s1 _ h1 h2 h3 h4 h5 h6 h7 h8 =>
    refine ⟨k, _, h1, fun f _ _ => .inl (by rw [h6]; simp), .inr (.inr (.inl (watches_hit hw h4 h5))), fun h => by rw [h8 h]; omega⟩

/-- A run that ends does not fail on the way. -/
theorem Ran.no_fail {s s' : State} {e : Event} (hr : Ran cfg P dbg stop wps trap s e s') (hw : Watched dbg wps) {m : Nat} {t : State}
    {f : Fault} (hc : Clear cfg P dbg stop m s t) (hm : trap = true → m = 0) (hh : t.halted = false) (hs : ¬ stop t)
    (he : step cfg P t = .error f) : False := by
  obtain ⟨k, u, h1, h2, h3, h4⟩ := hr.ends hw
  rcases Nat.lt_trichotomy m k with hlt | heq | hlt
  · obtain ⟨_, _, _, t', h5⟩ := (Clear.sub hc h1 (by omega)).free (by omega)
    rw [he] at h5
    cases h5
  · subst heq
    have hu := Clear.sub hc h1 (by omega)
    rw [Nat.sub_self] at hu
    cases hu
    rcases h2 f hh hs with h5 | ⟨h5, h6⟩
    · exact h5 he
    · have := hm h5
      omega
  · obtain ⟨g1, g2, g3, _⟩ := (Clear.sub h1 hc (by omega)).free (by omega)
    rcases h3 with h3 | h3 | h3 | ⟨h3, _⟩
    · rw [g1] at h3; cases h3
    · exact g2 h3
    · exact h3 g3
    · have := hm h3
      omega

/-- A write to an address in an active debug register ends a run; the run is then one that a watchpoint ends. -/
theorem Ran.watched {s s' : State} {e : Event} (hr : Ran cfg P dbg stop wps trap s e s') {m : Nat} {t : State}
    (hc : Clear cfg P dbg stop m s t) (hm : trap = true → m = 0) (hh : t.halted = false) (hs : ¬ stop t)
    (hb : instrAt P t.pc ≠ .bkpt) (hx : stopCode dbg t (instrAt P t.pc) ≠ 0) (hw : Watched dbg wps) : ∃ a, e = .watchpoint a := by
  have go : ∀ {k : Nat} {u : State}, Clear cfg P dbg stop k s u → (u.halted = true ∨ stop u ∨ stopCode dbg u (instrAt P u.pc) ≠ 0) → u = t := by
    intro k u h1 h2
    rcases Nat.lt_trichotomy m k with hlt | heq | hlt
    · exact absurd ((Clear.sub hc h1 (by omega)).free (by omega)).2.2.1 hx
    · subst heq
      have hu := Clear.sub hc h1 (by omega)
      rw [Nat.sub_self] at hu
      exact hu
    · obtain ⟨g1, g2, g3, _⟩ := (Clear.sub h1 hc (by omega)).free (by omega)
      rcases h2 with h2 | h2 | h2
      · rw [g1] at h2; cases h2
      · exact absurd h2 g2
      · exact absurd g3 h2
  cases hr with
  | halt h1 h2 h3 =>
    have := go h1 (.inl h2)
    subst this
    rw [h2] at hh; cases hh
  | single h1 h2 h3 =>
    have := hm h3
    subst this
    cases hc
    exact absurd (h1.free (by omega)).2.2.1 hx
  | breakpoint h1 h2 h3 h4 =>
    rcases h3 with h3 | h3
    · have := go h1 (.inr (.inl h3))
      subst this
      exact absurd h3 hs
    · have := go h1 (.inr (.inr (by rw [h3]; simp [stopCode])))
      subst this
      exact absurd h3 hb
  | @watch k a => exact ⟨a, rfl⟩

/-- What a run comes to is determined. -/
theorem Ran.unique {s a b : State} {e e' : Event} (hr : Ran cfg P dbg stop wps trap s e a) (hr' : Ran cfg P dbg stop wps trap s e' b)
    (hw : Watched dbg wps) : e = e' ∧ a = b := by
  have same : ∀ {k k' : Nat} {t t' : State}, Clear cfg P dbg stop k s t → Clear cfg P dbg stop k' s t' →
      (t.halted = true ∨ stop t ∨ stopCode dbg t (instrAt P t.pc) ≠ 0) →
      (t'.halted = true ∨ stop t' ∨ stopCode dbg t' (instrAt P t'.pc) ≠ 0) → t = t' := by
    intro k k' t t' h1 h2 h3 h4
    have stuck : ∀ {m : Nat} {x y : State}, Clear cfg P dbg stop m x y →
        (x.halted = true ∨ stop x ∨ stopCode dbg x (instrAt P x.pc) ≠ 0) → m = 0 := by
      intro m x y hc hx
      by_contra hm
      obtain ⟨g1, g2, g3, _⟩ := hc.free hm
      rcases hx with hx | hx | hx
      · rw [g1] at hx; cases hx
      · exact g2 hx
      · exact hx g3
    rcases Nat.le_total k k' with hle | hle
    · have hc := Clear.sub h1 h2 hle
      rw [stuck hc h3] at hc
      exact hc.symm
    · have hc := Clear.sub h2 h1 hle
      rw [stuck hc h4] at hc
      exact hc
  have bk : ∀ {t : State}, stop t ∨ instrAt P t.pc = .bkpt → t.halted = true ∨ stop t ∨ stopCode dbg t (instrAt P t.pc) ≠ 0 := by
    intro t h
    rcases h with h | h
    · exact .inr (.inl h)
    · refine .inr (.inr ?_)
      rw [h]
      simp [stopCode]
  have one : ∀ {k : Nat} {t t' : State}, Clear cfg P dbg stop 1 s t → Clear cfg P dbg stop k s t' → k = 1 → t = t' := by
    intro k t t' h1 h2 hk
    subst hk
    have := Clear.sub h1 h2 (by omega)
    exact this.symm
  have none' : ∀ {k : Nat} {t t' : State}, Clear cfg P dbg stop 1 s t → Clear cfg P dbg stop k s t' → k = 0 →
      (t'.halted = true ∨ stop t' ∨ stopCode dbg t' (instrAt P t'.pc) ≠ 0) → False := by
    intro k t t' h1 h2 hk h3
    subst hk
    cases h2
    obtain ⟨g1, g2, g3, _⟩ := h1.free (by omega)
    rcases h3 with h3 | h3 | h3
    · rw [g1] at h3; cases h3
    · exact g2 h3
    · exact h3 g3
  cases hr with
  | halt h1 h2 h3 =>
    cases hr' with
    | halt g1 g2 g3 => exact ⟨rfl, same h1 g1 (.inl h2) (.inl g2)⟩
    | single g1 g2 g3 =>
      have := one g1 h1 (h3 g3)
      subst this
      rw [g2] at h2; cases h2
    | breakpoint g1 g2 g3 g4 =>
      have := same h1 g1 (.inl h2) (bk g3)
      subst this
      rw [g2] at h2; cases h2
    | watch g1 g2 g3 g4 g5 g6 g7 g8 =>
      have := same h1 g1 (.inl h2) (.inr (.inr (watches_hit hw g4 g5)))
      subst this
      rw [g2] at h2; cases h2
  | single h1 h2 h3 =>
    cases hr' with
    | halt g1 g2 g3 =>
      have := one h1 g1 (g3 h3)
      subst this
      rw [h2] at g2; cases g2
    | single g1 g2 g3 => exact ⟨rfl, one h1 g1 rfl⟩
    | breakpoint g1 g2 g3 g4 => exact (none' h1 g1 (g4 h3) (bk g3)).elim
    | watch g1 g2 g3 g4 g5 g6 g7 g8 => exact (none' h1 g1 (g8 h3) (.inr (.inr (watches_hit hw g4 g5)))).elim
  | breakpoint h1 h2 h3 h4 =>
    cases hr' with
    | halt g1 g2 g3 =>
      have := same h1 g1 (bk h3) (.inl g2)
      subst this
      rw [h2] at g2; cases g2
    | single g1 g2 g3 => exact (none' g1 h1 (h4 g3) (bk h3)).elim
    | breakpoint g1 g2 g3 g4 =>
      have := same h1 g1 (bk h3) (bk g3)
      subst this
      exact ⟨rfl, rfl⟩
    | watch g1 g2 g3 g4 g5 g6 g7 g8 =>
      have := same h1 g1 (bk h3) (.inr (.inr (watches_hit hw g4 g5)))
      subst this
      rcases h3 with h3 | h3
      · exact absurd h3 g3
      · rw [h3] at g4; cases g4
  | watch h1 h2 h3 h4 h5 h6 h7 h8 =>
    cases hr' with
    | halt g1 g2 g3 =>
      have := same h1 g1 (.inr (.inr (watches_hit hw h4 h5))) (.inl g2)
      subst this
      rw [h2] at g2; cases g2
    | single g1 g2 g3 => exact (none' g1 h1 (h8 g3) (.inr (.inr (watches_hit hw h4 h5)))).elim
    | breakpoint g1 g2 g3 g4 =>
      have := same h1 g1 (.inr (.inr (watches_hit hw h4 h5))) (bk g3)
      subst this
      rcases g3 with g3 | g3
      · exact absurd g3 h3
      · rw [g3] at h4; cases h4
    | watch g1 g2 g3 g4 g5 g6 g7 g8 =>
      have := same h1 g1 (.inr (.inr (watches_hit hw h4 h5))) (.inr (.inr (watches_hit hw g4 g5)))
      subst this
      rw [h4] at g4
      cases g4
      rw [h6] at g6
      cases g6
      exact ⟨rfl, rfl⟩

end Isa

/-! ## The machine -/

section
variable {cfg : Cfg}

/-- A tick of a running machine: undefined behaviour where it is possible, a stop or a failure, some instructions, or the
oldest instruction comes closer to its end. -/
theorem tick_moves {vm : Vm} {d : Dbg} (hm : Matches cfg vm d) (hp : d.phase = .running) (hl : Live cfg vm.cpu)
    (hu : ∀ i ∈ d.prog, Unblocked i) (halu : 0 < cfg.alus) (hgate : 0 < cfg.gates) (hrs : 0 < cfg.rsMax) {j : Nat} (hj : Stage vm.cpu j)
    {H : Prop} (hg : cfg.mode = .wrap → vm.cpu.wm.Good H ∧ Before cfg d.prog d.dbg d.trap H d.state) :
    (Vm.tick cfg vm.cpu = .error .ub ∧ UbPossible cfg d.prog ∧ (cfg.mode = .wrap → H)) ∨
    ∃ vm' d', Vm.tick cfg vm.cpu = .ok (vm', announce d'.phase) ∧ d.Tick cfg d' ∧ Matches cfg vm' d' ∧
      (d'.phase ≠ .running ∨ d'.phase = .running ∧ Live cfg vm'.cpu ∧ (cfg.mode = .wrap → vm'.cpu.wm.Good H) ∧
        ((∃ j', j' < j ∧ Stage vm'.cpu j') ∨ (∃ j', j' ≤ 23 ∧ Stage vm'.cpu j') ∧ d.count < d'.count)) := by
  have ht := tick_matches hm hp
  obtain ⟨hi, e1, e2, e3, e4⟩ := hm.live (by rw [hp]; simp) (by rw [hp]; simp)
  obtain ⟨hh, hs⟩ := hm.run (.inl hp)
  have hgood : cfg.mode = .wrap → Fine H (Cpu.tick cfg vm.cpu) := by
    intro hw
    obtain ⟨g1, g2⟩ := hg hw
    exact tick_before hw hi hh hs g1 (by rw [e1, e2, e3]; exact g2)
  cases hv : Vm.tick cfg vm.cpu with
  | error f =>
    rw [hv] at ht
    obtain ⟨rfl, h2⟩ := ht
    refine .inl ⟨rfl, h2, fun hw => ?_⟩
    have hf := hgood hw
    unfold Vm.tick at hv
    cases hc : Cpu.tick cfg vm.cpu with
    | error f =>
      rw [hc] at hv hf
      cases f with
      | ub => exact hf rfl
      | _ => cases hv
    | ok c' =>
      rw [hc] at hv
      simp only at hv
      split at hv
      · cases hv
      · split at hv <;> cases hv
  | ok x =>
    rw [hv] at ht
    obtain ⟨d', h1, h2, h3⟩ := ht
    obtain ⟨vm', rs⟩ := x
    simp only at h2 h3
    refine .inr ⟨vm', d', by rw [← h2], h1, h3, ?_⟩
    by_cases hr : d'.phase = .running
    · refine .inr ⟨hr, ?_⟩
      obtain ⟨hi', e1', e2', e3', e4'⟩ := h3.live (by rw [hr]; simp) (by rw [hr]; simp)
      have hph : vm'.phase = .running := h3.phase.trans hr
      have hc : Cpu.tick cfg vm.cpu = .ok vm'.cpu := by
        unfold Vm.tick at hv
        cases hc : Cpu.tick cfg vm.cpu with
        | error f =>
          rw [hc] at hv
          cases f <;> cases hv
          cases hph
        | ok c' =>
          rw [hc] at hv
          simp only at hv
          split at hv
          · injection hv with hv
            have := congrArg (fun x => x.1.phase) hv
            simp only [Vm.enter] at this
            rw [hph] at this
            cases this
          · split at hv
            · cases hv; rfl
            all_goals first
              | (injection hv with hv; have := congrArg (fun x => x.1.phase) hv; simp only [Vm.enter] at this; rw [hph] at this; cases this)
              | cases hv
      obtain ⟨g1, g2, g3⟩ := tick_stage hi hl hh hs (by rw [e1]; exact hu) halu hgate hrs hc
      refine ⟨g1, fun hw => (by have := hgood hw; rw [hc] at this; exact this), ?_⟩
      by_cases hcnt : vm'.cpu.retired = vm.cpu.retired
      · exact .inl (g3 hcnt j hj)
      · obtain ⟨j', q1, q2, _⟩ := stage_any hi' g1 halu
        exact .inr ⟨⟨j', q1, q2⟩, by omega⟩
    · exact .inl hr

end

namespace Link
variable {h : Host}

/-- What is needed for the machine of a session to make progress. -/
structure Moving (h : Host) (H : Prop) (l : Link) (d : Dbg) : Prop where
  toVm : l.toVm = []
  toDbg : l.toDbg = []
  alive : l.dead = false
  same : Matches h.cfg l.vm d
  run : d.phase = .running
  live : T86.Live h.cfg l.vm.cpu
  free : ∀ i ∈ d.prog, Unblocked i
  alus : 0 < h.cfg.alus
  gates : 0 < h.cfg.gates
  rs : 0 < h.cfg.rsMax
  good : h.cfg.mode = .wrap → l.vm.cpu.wm.Good H ∧ Before h.cfg d.prog d.dbg d.trap H d.state

/-- If at most `k` instructions can be executed without a stop, the machine sends a message in time. -/
theorem receive_total {H : Prop} : ∀ (fuel k j : Nat) {l : Link} {d : Dbg}, Moving h H l d → Stage l.vm.cpu j → 24 * k + j + 1 ≤ fuel →
    (d.trap = false → ∀ m t, passes h.cfg d.prog d.dbg m d.state t → m ≤ k) →
    ∃ l', receiveLoop h fuel l = (.ok (some "STOPPED".toList), l') ∨ receiveLoop h fuel l = (.error .ub, l') ∧
      UbPossible h.cfg d.prog ∧ (h.cfg.mode = .wrap → H)
  | 0, k, j, l, d, hl, hj, hf, hk => by omega
  | fuel + 1, k, j, l, d, hl, hj, hf, hk => by
    have hph : l.vm.phase = .running := hl.same.phase.trans hl.run
    rcases tick_moves hl.same hl.run hl.live hl.free hl.alus hl.gates hl.rs hj hl.good with ⟨h1, h2⟩ | ⟨vm', d', h1, h2, h3, h4⟩
    · refine ⟨l, .inr ⟨?_, h2⟩⟩
      unfold receiveLoop turn
      simp [hl.toDbg, hl.alive, hph, Vm.step, h1]
    · have hrec : receiveLoop h (fuel + 1) l = receiveLoop h fuel { l with vm := vm', toDbg := (announce d'.phase).map (Proto.reply h .unknown) } := by
        conv_lhs => unfold receiveLoop turn
        simp [hl.toDbg, hl.alive, hph, Vm.step, h1]
      rw [hrec]
      rcases h4 with h4 | ⟨h4, h5, h5', h6⟩
      · have hst : (announce d'.phase).map (Proto.reply h .unknown) = ["STOPPED".toList] := by
          cases h2 with
          | go => exact absurd hl.run h4
          | halt => rfl
          | single => rfl
          | stop => rfl
          | fail => rfl
        rw [hst]
        refine ⟨{ l with vm := vm', toDbg := [] }, .inl ?_⟩
        cases fuel <;> rfl
      · have hnil : (announce d'.phase).map (Proto.reply h .unknown) = [] := by rw [h4]; rfl
        rw [hnil]
        cases h2 with
        | halt => cases h4
        | single => cases h4
        | stop => cases h4
        | fail => cases h4
        | @go m s g1 g2 g3 =>
          have hmv : Moving h H { l with vm := vm', toDbg := [] } { d with state := s, count := d.count + m } :=
            ⟨hl.toVm, rfl, hl.alive, h3, hl.run, h5, hl.free, hl.alus, hl.gates, hl.rs, fun hw => ⟨h5' hw, fun k S' q1 q2 =>
              (hl.good hw).2 (m + k) S' (passes_append g1 q1) fun ht => by have := g3 ht; have := q2 ht; omega⟩⟩
          have hk' : d.trap = false → ∀ m' t, passes h.cfg d.prog d.dbg m' s t → m + m' ≤ k := fun ht m' t hp => hk ht _ _ (passes_append g1 hp)
          rcases h6 with ⟨j', q1, q2⟩ | ⟨⟨j', q1, q2⟩, q3⟩
          · exact receive_total fuel k j' (d := { d with state := s, count := d.count + m }) hmv q2 (by omega) fun ht m' t hp => by have := hk' ht m' t hp; omega
          · have hm : d.count < d.count + m := q3
            have htr : d.trap = false := by
              cases htr : d.trap with
              | false => rfl
              | true => have := g3 htr; omega
            have hmk : m ≤ k := by have := hk' htr 0 s rfl; omega
            exact receive_total fuel (k - m) j' (d := { d with state := s, count := d.count + m }) hmv q2 (by omega) fun ht m' t hp => by have := hk' ht m' t hp; omega

end Link

namespace Native
open Proc Job
variable {h : Host} {c : Client} {Tx : Str → Instr → Prop} {P : List Instr}

theorem shape_mem {n : Native} {Q : List Instr} (hs : Shape h Tx P n.bps Q) {i : Instr} (hi : i ∈ Q) : i = .bkpt ∨ i ∈ P := by
  obtain ⟨a, ha, rfl⟩ := List.mem_iff_getElem.1 hi
  have h1 := hs.size
  have h2 := hs.length
  have hn : (BitVec.ofNat 64 a : Word).toNat = a := by rw [BitVec.toNat_ofNat, Nat.mod_eq_of_lt (by omega)]
  have he : Q[(BitVec.ofNat 64 a : Word).toNat]? = some Q[a] := by rw [hn]; exact List.getElem?_eq_getElem ha
  by_cases hb : ∃ bp, n.bps.find (BitVec.ofNat 64 a) = some bp ∧ bp.enabled = true
  · obtain ⟨bp, g1, g2⟩ := hb
    have := hs.armed _ bp g1 g2
    rw [he] at this
    exact .inl (by injection this)
  · have := hs.clear (BitVec.ofNat 64 a) (fun bp hf => by
      cases hen : bp.enabled with
      | false => rfl
      | true => exact absurd ⟨bp, hf, hen⟩ hb)
    rw [he] at this
    exact .inr (List.mem_of_getElem? this.symm)

theorem ub_shape {n : Native} {Q : List Instr} (hs : Shape h Tx P n.bps Q) (hu : UbPossible h.cfg Q) : UbPossible h.cfg P := by
  rcases hu with hu | ⟨i, hi, hr⟩
  · exact .inl hu
  · rcases shape_mem hs hi with rfl | hi
    · cases hr
    · exact .inr ⟨i, hi, hr⟩

/-- The text of the machine is the program with the breakpoints. -/
theorem shape_text {n : Native} {Q : List Instr} (hs : Shape h Tx P n.bps Q) : Q = bkpts P (armed n) := by
  refine List.ext_getElem? fun a => ?_
  unfold bkpts
  rw [List.getElem?_mapIdx]
  have h1 := hs.size
  have h2 := hs.length
  by_cases hlt : a < P.length
  · have hn : (BitVec.ofNat 64 a : Word).toNat = a := by rw [BitVec.toNat_ofNat, Nat.mod_eq_of_lt (by omega)]
    rw [List.getElem?_eq_getElem hlt]
    have hdis : ∀ b, armed n (BitVec.ofNat 64 a) = b → Q[a]? = some (if b then .bkpt else P[a]) := by
      intro b hb
      unfold armed at hb
      cases b with
      | true =>
        cases hz : n.bps.find (BitVec.ofNat 64 a) with
        | none => rw [hz] at hb; cases hb
        | some bp =>
          rw [hz] at hb
          have := hs.armed _ bp hz hb
          rw [hn] at this
          exact this
      | false =>
        have := hs.clear (BitVec.ofNat 64 a) (fun bp hf => by rw [hf] at hb; exact hb)
        rw [hn, List.getElem?_eq_getElem hlt] at this
        exact this
    exact hdis _ rfl
  · rw [List.getElem?_eq_none (by omega), List.getElem?_eq_none (by omega)]
    rfl

theorem getReason_total {l : Link} (hl : l.Live) {r : Reason} (hp : l.vm.phase = .stopped r) : getReason h l = (.ok r, l) := by
  have hq := Link.ask_eq (h := h) hl.1 hl.2 hl.3 hp (Proto.parse_reason h) (c' := l.vm.cpu) (rep := .reason r) (nx := .stay) rfl
  rw [Link.leave_stay hp] at hq
  unfold getReason
  rw [Link.answer_eq hq]
  cases r <;> rfl

theorem getRegister_total {n : Native} {d : Dbg} (hv : View h n d) (hl : n.link.Live) {r : Reg} (hr : r ∈ shown h.cfg) :
    getRegister h r.print n = (.ok (d.state.look (.int r)), n) := by
  obtain ⟨why, hw⟩ := hl.stopped
  exact (hv.shows (hv.same.phase.symm.trans hw) hl.3).regs r hr

theorem getIP_total {n : Native} {d : Dbg} (hv : View h n d) (hl : n.link.Live) : getIP h n = (.ok d.state.pc, n) :=
  getRegister_total hv hl (r := .pc) (pc_shown _)

theorem adjust_total (ha : Able h c) {n : Native} {d : Dbg} (hv : View h n d) (hl : n.link.Live) (e : Event) :
    ∃ n', adjust h c e n = (.ok e, n') := by
  unfold adjust
  split
  · obtain ⟨why, hw⟩ := hl.stopped
    have hp : d.phase = .stopped why := hv.same.phase.symm.trans hw
    obtain ⟨hi, _⟩ := hv.same.live (by rw [hp]; simp) (by rw [hp]; simp)
    have hm := hi.shows (hv.same.quiet why hp)
    obtain ⟨l', g1, _, _⟩ := setRegister_shows (c := c) hv hl ha.gp ha.regs (pc_shown h.cfg) (d.state.pc - 1)
    unfold setRegister at g1
    have hf := find_listed (cfg := h.cfg) d.state (pc_shown _)
    rw [bind_eq (getRegisters_shows hl hm), hf] at g1
    simp only at g1
    have hat : Arch.at' (listed h.cfg d.state) "IP".toList = .ok d.state.pc := by
      unfold Arch.at'
      rw [show (Reg.pc.print : Str) = "IP".toList from rfl] at hf
      rw [hf]
      rfl
    refine ⟨{ n with link := l' }, ?_⟩
    refine (bind_eq (getRegisters_shows hl hm)).trans ?_
    refine (bind_eq (x := Job.ofExcept _) (t := n) (a := d.state.pc) (by rw [hat]; rfl)).trans ?_
    exact bind_eq g1
  · exact ⟨n, rfl⟩

/-- Resuming the machine. -/
theorem go_total {n : Native} {why : Reason} (hl : n.link.Live) (hp : n.link.vm.phase = .stopped why) (hne : why ≠ .halt) {m : Str} {k : Cmd}
    (hk : k = .cont ∨ k = .step) (hm : Proto.parse h m = .ok k) :
    ∃ c', proc (Link.send m >>= fun _ => Proc.check h) n = (.ok (), { n with link := { n.link with vm := ⟨c', .running⟩ } }) ∧
      (c' = n.link.vm.cpu ∨ c' = { n.link.vm.cpu with trap := true }) := by
  rcases hk with rfl | rfl
  · refine ⟨n.link.vm.cpu, proc_eq ?_, .inl rfl⟩
    have hq := Link.ask_eq (h := h) hl.1 hl.2 hl.3 hp hm (c' := n.link.vm.cpu) (rep := .ok) (nx := .resume) rfl
    rw [show Vm.leave why n.link.vm.cpu .resume = ⟨n.link.vm.cpu, .running⟩ by unfold Vm.leave; rw [if_neg hne]] at hq
    exact Link.check_eq' hq
  · refine ⟨{ n.link.vm.cpu with trap := true }, proc_eq ?_, .inr rfl⟩
    have hq := Link.ask_eq (h := h) hl.1 hl.2 hl.3 hp hm (c' := { n.link.vm.cpu with trap := true }) (rep := .ok) (nx := .resume) rfl
    rw [show Vm.leave why { n.link.vm.cpu with trap := true } .resume = ⟨{ n.link.vm.cpu with trap := true }, .running⟩ by
      unfold Vm.leave; rw [if_neg hne]] at hq
    exact Link.check_eq' hq

/-- Resuming, followed by waiting. -/
theorem run_total (ha : Able h c) {n : Native} {d : Dbg} (hf : Fine h Tx P n) (hv : View h n d) (hl : n.link.Live) {m : Str} {k : Cmd}
    (hk : k = .cont ∨ k = .step) (hp : Proto.parse h m = .ok k) {e : Event} {s' : State} {K : Nat}
    (hr : Ran h.cfg P d.dbg (stops n) n.wps (d.trap || k = .step) d.state e s')
    (hK : (d.trap || k = .step) = false → ∀ m t, Clear h.cfg P d.dbg (stops n) m d.state t → m ≤ K) (hw : 24 * (K + 1) ≤ h.wait + 2)
    (hrun : d.state.halted = false) (hkempt : (∃ a, e = .watchpoint a) → Kempt n) :
    ∃ n1, proc (Link.send m >>= fun _ => Proc.check h) n = (.ok (), n1) ∧
      Returns (UbPossible h.cfg P ∧ (h.cfg.mode = .wrap → ∃ m t, Clear h.cfg P d.dbg (stops n) m d.state t ∧
        ((d.trap || k = .step) = true → m = 0) ∧ t.halted = false ∧ Hazard h.cfg (bkpts P (armed n)) t)) (waitEvent h c n1) (fun e' n' => e' = e ∧ ∃ d', View h n' d' ∧ d'.state = s') := by
  obtain ⟨why, hst⟩ := hl.stopped
  have hdp : d.phase = .stopped why := hv.same.phase.symm.trans hst
  obtain ⟨hi, hprog, hdbg, htrap, hcount⟩ := hv.same.live (by rw [hdp]; simp) (by rw [hdp]; simp)
  have hshape : Shape h Tx P n.bps d.prog := by rw [← hprog]; exact hf.good.text
  have hwatch : Watched d.dbg n.wps := by rw [← hdbg]; exact hf.good.watch
  obtain ⟨_, _, hfit⟩ := hf.stood
  have hne : why ≠ .halt := by
    rintro rfl
    have := hfit.over hst
    rw [hi.halted, hrun] at this
    cases this
  obtain ⟨c', hgo, hc'⟩ := go_total hl hst hne hk hp
  refine ⟨_, hgo, ?_⟩
  have hgv := go_view hv.rest hv.same hk hp (proc_ok hgo).1
  obtain ⟨g1, g2, g3, g4⟩ := hgv
  obtain ⟨_, hm1⟩ := g4 rfl
  have hlive : T86.Live h.cfg c' := by
    have := hfit.live (.inr ⟨why, hst⟩)
    rcases hc' with rfl | rfl
    · exact this
    · exact this.congr rfl rfl rfl rfl
  have hmv : Link.Moving h (∃ m t, Clear h.cfg P d.dbg (stops n) m d.state t ∧
      ((d.trap || k = .step) = true → m = 0) ∧ t.halted = false ∧ Hazard h.cfg (bkpts P (armed n)) t)
      { n.link with vm := ⟨c', .running⟩ } { d with phase := .running, trap := d.trap || k = .step } := by
    refine ⟨g1, g2, g3, hm1, rfl, hlive, ?_, ha.alus, ha.gates, ha.rs, fun hw => ⟨?_, fun m t q1 q2 q3 q4 =>
      ⟨m, t, clear_of_passes hshape q1, q2, q3, by rw [← shape_text hshape]; exact q4⟩⟩⟩
    rotate_left
    · have hwm : c'.wm = n.link.vm.cpu.wm := by rcases hc' with rfl | rfl <;> rfl
      show c'.wm.Good _
      rw [hwm]
      exact hi.quiet_good (hv.same.quiet why hdp).1
    intro i hi'
    rcases shape_mem hshape hi' with rfl | hi'
    · exact unblocked rfl
    · exact unblocked (C17_writable (hf.good.text.plain i hi').1)
  obtain ⟨hinv1, _⟩ := hm1.live (by simp) (by simp)
  obtain ⟨j, hj1, hj2, _⟩ := stage_any hinv1 hlive ha.alus
  obtain ⟨l', hrec⟩ := Link.receive_total (h := h) (h.wait + 2) K j hmv hj2 (by omega) (by
    intro ht m' t hpass
    exact hK ht m' t (clear_of_passes hshape hpass))
  have hwe : waitEvent h c { n with link := { n.link with vm := ⟨c', .running⟩ } } =
      (proc (Proc.wait h) >>= fun _ => proc (Proc.getReason h) >>= fun r => mapReason h r >>= fun e => adjust h c e)
        { n with link := { n.link with vm := ⟨c', .running⟩ } } := by
    unfold waitEvent
    refine (bind_eq (x := Job.get) (t := { n with link := { n.link with vm := ⟨c', .running⟩ } }) rfl).trans ?_
    simp only [hf.good.fresh]
  rcases hrec with hrec | ⟨hrec, hub⟩
  · left
    have hwait : proc (Proc.wait h) { n with link := { n.link with vm := ⟨c', .running⟩ } } = (.ok (), { n with link := l' }) := by
      refine proc_eq (n := { n with link := { n.link with vm := ⟨c', .running⟩ } }) ?_
      unfold Proc.wait
      refine (bind_eq (x := Link.receive h) hrec).trans ?_
      rfl
    obtain ⟨d', w1, w2, w3⟩ := wait_view (h := h) (d0 := { d with phase := .running, trap := d.trap || k = .step }) g1 hm1
      (.go (k := 0) rfl rfl (fun _ => rfl) rfl rfl rfl rfl hrun) (.inl ⟨g2, rfl⟩) hrec
    have halive : l'.dead = false := receive_alive (fun hx => g3) hrec
    have hst' : ∃ r, d'.phase = .stopped r := by
      cases w2 with
      | go h1 => exact absurd (w1.phase.trans h1) w3.idle
      | halt h1 => exact ⟨_, h1⟩
      | single h1 => exact ⟨_, h1⟩
      | stop h1 => exact ⟨_, h1⟩
      | @fail k' u h1 h2 h3 h4 h5 =>
        exfalso
        have hat := instrAt_shape hshape u.pc
        cases hu : armed n u.pc with
        | true =>
          rw [hu, if_pos rfl] at hat
          unfold Isa.step at h4
          rw [hat] at h4
          cases h4
        | false =>
          rw [hu] at hat
          simp only [Bool.false_eq_true, if_false] at hat
          refine hr.no_fail hwatch (clear_of_passes hshape h2) h5 h3 (by unfold stops; rw [hu]; simp) (f := .exn .outOfRange) ?_
          unfold Isa.step at h4 ⊢
          rw [← hat]
          exact h4
    obtain ⟨r, hr'⟩ := hst'
    have hlp : l'.vm.phase = .stopped r := w1.phase.trans hr'
    have hl' : l'.Live := ⟨w3.toVm, w3.toDbg, halive, ⟨r, hlp⟩⟩
    have hv' : View h { n with link := l' } d' := ⟨w3, w1⟩
    have hmap : ∃ e', mapReason h r { n with link := l' } = (.ok e', { n with link := l' }) := by
      cases w2 with
      | go h1 => rw [h1] at hr'; cases hr'
      | fail h1 => rw [h1] at hr'; cases hr'
      | halt h1 => rw [h1] at hr'; cases hr'; exact ⟨_, rfl⟩
      | single h1 => rw [h1] at hr'; cases hr'; exact ⟨_, rfl⟩
      | @stop k' m' u h1 h2 h3 h4 h5 h6 h7 h8 h9 h10 h11 =>
        have hrm : reasonOf m' = r := by rw [h1] at hr'; injection hr'
        rw [← h7] at hrm
        have hcase : r = .swBkpt ∨ r = .hwBkpt := by
          rw [← hrm]
          unfold reasonOf
          split
          · exact .inl rfl
          · exact .inr rfl
        rcases hcase with rfl | rfl
        · exact ⟨_, bind_eq (getIP_total hv' hl')⟩
        · obtain ⟨hnb, a, j, hwa, hj⟩ := stopCode_watch hrm (by rw [h7]; exact h8)
          have hat := instrAt_shape hshape u.pc
          have hna : armed n u.pc = false := by
            cases hu : armed n u.pc with
            | false => rfl
            | true => rw [hu, if_pos rfl] at hat; exact absurd hat hnb
          rw [hna] at hat
          simp only [Bool.false_eq_true, if_false] at hat
          have hev : ∃ a, e = .watchpoint a :=
            hr.watched (clear_of_passes hshape h2) h6 h3 (by unfold stops; rw [hna]; simp) (by rw [← hat]; exact hnb)
              (by rw [← hat, h7]; exact h8) hwatch
          have hact := List.find?_some hj
          unfold watches at hact
          simp only [Bool.and_eq_true, beq_iff_eq] at hact
          obtain ⟨w, hw1, hw2⟩ := hkempt hev j (watchHit_lt hj) (by rw [hdbg]; exact hact.1)
          have hdd : l'.vm.cpu.dbg = mark d.dbg j := by
            obtain ⟨_, _, hd', _⟩ := w1.live (by rw [hr']; simp) (by rw [hr']; simp)
            rw [hd', h10]
            unfold marked
            rw [hwa]
            simp only [Option.bind_some, hj]
          have hfd := fetchDebugs_live (h := h) hl'
          rw [hdd] at hfd
          have hfind : ∃ w', n.wps.find? (fun w => w.2 = j) = some w' := by
            cases hz : n.wps.find? (fun w => w.2 = j) with
            | some w' => exact ⟨w', rfl⟩
            | none => exact absurd (by simpa using hw2) (List.find?_eq_none.1 hz w hw1)
          obtain ⟨w', hw'⟩ := hfind
          refine ⟨.watchpoint w'.1, ?_⟩
          refine (bind_eq (proc_eq (n := { n with link := l' }) hfd)).trans ?_
          refine (bind_eq (x := Job.ofExcept _) (t := { n with link := l' }) (a := j) (by rw [responsible_mark hwatch.length (watchHit_lt hj)]; rfl)).trans ?_
          refine (bind_eq (x := Job.get) (t := { n with link := l' }) (a := { n with link := l' }) rfl).trans ?_
          simp only [hw']
          rfl
    obtain ⟨e', hmap⟩ := hmap
    obtain ⟨n', hadj⟩ := adjust_total ha hv' hl' e'
    have hall : waitEvent h c { n with link := { n.link with vm := ⟨c', .running⟩ } } = (.ok e', n') := by
      rw [hwe]
      refine (bind_eq hwait).trans ?_
      refine (bind_eq (x := proc (Proc.getReason h)) (proc_eq (n := { n with link := l' }) (getReason_total hl' hlp))).trans ?_
      refine (bind_eq hmap).trans ?_
      exact hadj
    obtain ⟨d2, v1, v2, _⟩ := run_view hf.good hv hk hp hgo hall
    obtain ⟨q1, q2⟩ := hr.unique v1 hwatch
    exact ⟨e', n', hall, q1.symm, d2, v2, q2.symm⟩
  · right
    refine ⟨⟨{ n with link := l' }, ?_⟩, ub_shape hshape hub.1, hub.2⟩
    rw [hwe]
    refine bind_error ?_
    unfold proc
    have : Proc.wait h { n.link with vm := ⟨c', .running⟩ } = (.error .ub, l') := by
      unfold Proc.wait
      exact bind_error (x := Link.receive h) hrec
    simp only [this]

theorem _root_.T86.Isa.Ran.among {cfg : Cfg} {dbg : List Word} {stop : State → Prop} {wps : Map Word Nat} {s s' : State} {e : Event}
    (hr : Ran cfg P dbg (fun _ => False) wps true s e s') (hs : ¬ stop s) : Ran cfg P dbg stop wps true s e s' := by
  cases hr with
  | halt h1 h2 h3 =>
    have := h3 rfl
    subst this
    obtain ⟨a, _, b, t, c, d⟩ := h1
    exact .halt (k := 1) ⟨a, hs, b, t, c, d⟩ h2 (fun _ => rfl)
  | single h1 h2 h3 =>
    obtain ⟨a, _, b, t, c, d⟩ := h1
    exact .single ⟨a, hs, b, t, c, d⟩ h2 rfl
  | breakpoint h1 h2 h3 h4 =>
    have := h4 rfl
    subst this
    have : s' = s := h1
    subst this
    exact .breakpoint (k := 0) rfl h2 (.inr (h3.resolve_left id)) (fun _ => rfl)
  | watch h1 h2 h3 h4 h5 h6 h7 h8 =>
    have := h8 rfl
    subst this
    have : _ = s := h1
    subst this
    exact .watch (k := 0) rfl h2 hs h4 h5 h6 h7 (fun _ => rfl)

theorem _root_.T86.Isa.Ran.running {cfg : Cfg} {dbg : List Word} {stop : State → Prop} {wps : Map Word Nat} {s s' : State} {e : Event}
    (hr : Ran cfg P dbg stop wps true s e s') : s.halted = false := by
  cases hr with
  | halt h1 h2 h3 =>
    have := h3 rfl
    subst this
    exact h1.1
  | single h1 h2 h3 => exact h1.1
  | breakpoint h1 h2 h3 h4 =>
    have := h4 rfl
    subst this
    have : s' = s := h1
    subst this
    exact h2
  | watch h1 h2 h3 h4 h5 h6 h7 h8 =>
    have := h8 rfl
    subst this
    have : _ = s := h1
    subst this
    exact h2

theorem kempt_view {n m : Native} {d d' : Dbg} (hn : View h n d) (hm : View h m d') (hln : n.link.Live) (hlm : m.link.Live)
    (hd : d'.dbg = d.dbg) (hw : m.wps = n.wps) (hk : Kempt n) : Kempt m := by
  obtain ⟨w1, p1⟩ := hln.stopped
  obtain ⟨w2, p2⟩ := hlm.stopped
  have q1 : d.phase = .stopped w1 := hn.same.phase.symm.trans p1
  have q2 : d'.phase = .stopped w2 := hm.same.phase.symm.trans p2
  obtain ⟨_, _, a1, _⟩ := hn.same.live (by rw [q1]; simp) (by rw [q1]; simp)
  obtain ⟨_, _, a2, _⟩ := hm.same.live (by rw [q2]; simp) (by rw [q2]; simp)
  intro j hj hb
  rw [hw]
  exact hk j hj (by rw [a1, ← hd, ← a2]; exact hb)

theorem live_view {n : Native} {d : Dbg} (hv : View h n d) (hd : n.link.dead = false) {why : Reason} (hp : d.phase = .stopped why) :
    n.link.Live := ⟨hv.rest.toVm, hv.rest.toDbg, hd, ⟨why, hv.same.phase.trans hp⟩⟩

theorem lift_free {n : Native} {a : Word} (hna : armed n a = false) : (fun b => b != a && armed n b) = armed n := by
  funext b
  by_cases hb : b = a
  · subst hb; simp [hna]
  · simp [hb]

theorem rawStep_total (ha : Able h c) {n : Native} {d : Dbg} (hf : Fine h Tx P n) (hv : View h n d) (hl : n.link.Live)
    (hna : armed n d.state.pc = false) {e : Event} {s' : State} (hr : Ran h.cfg P d.dbg (fun _ => False) n.wps true d.state e s')
    (hw : 24 ≤ h.wait) (hk : (∃ a, e = .watchpoint a) → Kempt n) :
    Returns (StepRisk h.cfg P (armed n) d.state) (rawStep h c n) (fun e' _ => e' = e) := by
  obtain ⟨n1, h1, h2⟩ := run_total (Tx := Tx) (K := 0) ha hf hv hl (.inr rfl) (Proto.parse_step h) (e := e) (s' := s')
    (by simpa using hr.among (by unfold stops; rw [hna]; simp)) (by simp) (by omega) hr.running hk
  rcases h2 with ⟨e', n', h2, h3, _⟩ | ⟨⟨n', h2⟩, h3⟩
  · exact .inl ⟨e', n', (bind_eq h1).trans h2, h3⟩
  · refine .inr ⟨⟨n', (bind_eq h1).trans h2⟩, h3.1, fun hw => ?_⟩
    obtain ⟨m, t, g1, g2, _, g4⟩ := h3.2 hw
    have := g2 (by simp)
    subst this
    cases g1
    rw [lift_free hna]
    exact g4

theorem single_free {n : Native} {d : Dbg} (hv : View h n d) (hl : n.link.Live) (hna : armed n d.state.pc = false) (fuel : Nat) :
    singleStepLoop h c (fuel + 1) n = rawStep h c n := by
  rw [singleStepLoop_succ]
  refine (bind_eq (getIP_total hv hl)).trans ?_
  refine (bind_eq (x := Job.get) (t := n) (a := n) rfl).trans ?_
  rw [hna]
  rfl

/-- Stepping off a breakpoint. -/
theorem off_total (ha : Able h c) (ht : Texts h Tx) {n : Native} {d : Dbg} (hf : Fine h Tx P n) (hv : View h n d) (hl : n.link.Live)
    (har : armed n d.state.pc = true) {e : Event} {s' : State} (hr : Ran h.cfg P d.dbg (fun _ => False) n.wps true d.state e s')
    (hw : 24 ≤ h.wait) (hk : (∃ a, e = .watchpoint a) → Kempt n) (fuel : Nat) :
    Returns (StepRisk h.cfg P (armed n) d.state) ((disable h d.state.pc >>= fun _ => singleStepLoop h c (fuel + 1) >>= fun e => enable h d.state.pc >>= fun _ => pure e) n)
      (fun e' _ => e' = e) := by
  obtain ⟨why, hst⟩ := hl.stopped
  have hdp : d.phase = .stopped why := hv.same.phase.symm.trans hst
  have hbp : ∃ bp, n.bps.find d.state.pc = some bp := by
    unfold armed at har
    cases hz : n.bps.find d.state.pc with
    | none => rw [hz] at har; cases har
    | some bp => exact ⟨bp, rfl⟩
  obtain ⟨bp, hbp⟩ := hbp
  obtain ⟨n1, h1, hl1, _⟩ := disable_total ht hf.good hl hbp
  obtain ⟨d1, a1, a2, a3, a4, a5, _, ⟨bp1, a7⟩, _⟩ := disable_view ht hf hv hdp h1
  have hf1 := disable_fine ht _ _ _ hf h1
  have hna : armed n1 d1.state.pc = false := by rw [a2.state, a5]; simp
  have hx := rawStep_total ha hf1 a1 hl1 hna (e := e) (s' := s') (by rw [a2.dbg, a2.state, a3]; exact hr) hw
    (fun he => kempt_view hv a1 hl hl1 a2.dbg a3 (hk he))
  rw [← single_free (c := c) a1 hl1 hna fuel] at hx
  rcases hx with ⟨e', n2, h2, h3⟩ | ⟨⟨n2, h2⟩, h3⟩
  · left
    have h2' := h2
    rw [single_free (c := c) a1 hl1 hna fuel] at h2'
    obtain ⟨d2, b1, b2, b3, b4, _, _, _, why2, b9⟩ := rawStep_view hf1.good a1 h2'
    have hf2 := rawStep_fine _ _ _ hf1 h2'
    obtain ⟨n3, h4, _⟩ := enable_total hf2.good (live_view b2 b4 b9) (a := d.state.pc) (bp := bp1) (by rw [b3]; exact a7)
    refine ⟨e', n3, ?_, h3⟩
    refine (bind_eq h1).trans ?_
    refine (bind_eq h2).trans ?_
    exact (bind_eq h4).trans rfl
  · refine .inr ⟨⟨n2, (bind_eq h1).trans (bind_error h2)⟩, h3.1, fun hw => ?_⟩
    have := h3.2 hw
    rw [a2.state, show (fun b => b != d.state.pc && armed n1 b) = (fun b => b != d.state.pc && armed n b) by
      funext b; rw [a5]; by_cases hb : b = d.state.pc <;> simp [hb]] at this
    exact this

theorem singleStep_total (ha : Able h c) (ht : Texts h Tx) {n : Native} {d : Dbg} (hf : Fine h Tx P n) (hv : View h n d) (hl : n.link.Live)
    {e : Event} {s' : State} (hr : Ran h.cfg P d.dbg (fun _ => False) n.wps true d.state e s')
    (hw : 24 ≤ h.wait) (hk : (∃ a, e = .watchpoint a) → Kempt n) :
    Returns (StepRisk h.cfg P (armed n) d.state) (singleStep h c n) (fun e' _ => e' = e) := by
  unfold singleStep
  cases har : armed n d.state.pc with
  | false => rw [single_free (c := c) hv hl har]; exact rawStep_total ha hf hv hl har hr hw hk
  | true =>
    have hx : singleStepLoop h c 2 n = (disable h d.state.pc >>= fun _ => singleStepLoop h c 1 >>= fun e => enable h d.state.pc >>= fun _ => pure e) n := by
      rw [singleStepLoop_succ]
      refine (bind_eq (getIP_total hv hl)).trans ?_
      refine (bind_eq (x := Job.get) (t := n) (a := n) rfl).trans ?_
      rw [har]
      rfl
    rw [hx]
    exact off_total ha ht hf hv hl har hr hw hk 0

/-- Going on, followed by waiting. -/
theorem continue_total (ha : Able h c) (ht : Texts h Tx) {n : Native} {d : Dbg} (hf : Fine h Tx P n) (hv : View h n d) (hl : n.link.Live)
    {e : Event} {s' : State} (hr : Went h.cfg P d.dbg (stops n) n.wps d.trap d.state e s') (hrun : d.state.halted = false)
    {K : Nat} (hK : ∀ u m t, Isa.first h.cfg P (stops n) d.state u → Clear h.cfg P d.dbg (stops n) m u t → m ≤ K)
    (hw : 24 * (K + 1) ≤ h.wait) (hk : (∃ a, e = .watchpoint a) → Kempt n) :
    Returns (RunRisk h.cfg P d.dbg (armed n) d.state) ((continue' h c >>= fun _ => waitEvent h c) n) (fun e' _ => e' = e) := by
  have hcont : ∀ b, armed n d.state.pc = b → continue' h c n = (if b then
      (disable h d.state.pc >>= fun _ => singleStepLoop h c 2 >>= fun e => enable h d.state.pc >>= fun _ => pure e) >>= fun e =>
        if e ≠ .singlestep then Job.modify fun n => { n with cached := some e } else proc (Proc.resume h)
      else proc (Proc.resume h) : N Unit) n := by
    intro b hb
    subst hb
    unfold continue'
    refine (bind_eq (getIP_total hv hl)).trans ?_
    refine (bind_eq (x := Job.get) (t := n) (a := n) rfl).trans ?_
    rfl
  have hfree : ∀ (m : Native) (d' : Dbg), Fine h Tx P m → View h m d' → m.link.Live → d'.state.halted = false →
      Ran h.cfg P d'.dbg (stops m) m.wps d'.trap d'.state e s' →
      (d'.trap = false → ∀ k t, Clear h.cfg P d'.dbg (stops m) k d'.state t → k ≤ K) → ((∃ a, e = .watchpoint a) → Kempt m) →
      Returns (UbPossible h.cfg P ∧ (h.cfg.mode = .wrap → ∃ m' t, Clear h.cfg P d'.dbg (stops m) m' d'.state t ∧ t.halted = false ∧
        Hazard h.cfg (bkpts P (armed m)) t)) ((proc (Proc.resume h) >>= fun _ => waitEvent h c) m) (fun e' _ => e' = e) := by
    intro m d' x1 x2 x3 x4 x5 x6 x7
    obtain ⟨n1, h1, h2⟩ := run_total (Tx := Tx) (K := K) ha x1 x2 x3 (.inl rfl) (Proto.parse_cont h) (e := e) (s' := s')
      (by simpa using x5) (by simpa using x6) (by omega) x4 x7
    rcases h2 with ⟨e', n', h2, h3, _⟩ | ⟨⟨n', h2⟩, h3⟩
    · exact .inl ⟨e', n', (bind_eq (x := proc (Proc.resume h)) h1).trans h2, h3⟩
    · refine .inr ⟨⟨n', (bind_eq (x := proc (Proc.resume h)) h1).trans h2⟩, h3.1, fun hw => ?_⟩
      obtain ⟨m', t, g1, _, g3, g4⟩ := h3.2 hw
      exact ⟨m', t, g1, g3, g4⟩
  have hoff : ∀ {e1 : Event} {s1 : State}, armed n d.state.pc = true → Ran h.cfg P d.dbg (fun _ => False) n.wps true d.state e1 s1 →
      ((∃ a, e1 = .watchpoint a) → Kempt n) →
      (∃ n5 d3, stepOverBreakpoint h c d.state.pc n = (.ok e1, n5) ∧ Fine h Tx P n5 ∧ View h n5 d3 ∧ n5.link.Live ∧ Kept n n5 ∧ d3.state = s1 ∧
        ((∀ a, e1 ≠ .watchpoint a) → d3.dbg = d.dbg) ∧ (e1 = .singlestep → d3.trap = false)) ∨
      (∃ n5, stepOverBreakpoint h c d.state.pc n = (.error .ub, n5)) ∧ StepRisk h.cfg P (armed n) d.state := by
    intro e1 s1 har h1 h2
    rcases off_total (c := c) ha ht hf hv hl har h1 (by omega) h2 1 with ⟨e', n5, h3, rfl⟩ | ⟨⟨n5, h3⟩, h4⟩
    · left
      have hso : stepOverBreakpoint h c d.state.pc n = (.ok e', n5) := h3
      have hf5 := stepOverBreakpoint_fine ht _ _ _ hf hso
      obtain ⟨why, hst⟩ := hl.stopped
      have hp : d.phase = .stopped why := hv.same.phase.symm.trans hst
      obtain ⟨u, n6, h4, h3⟩ := bind_ok hso
      obtain ⟨d1, a1, a2, a3, a4, a5, _, _, a6⟩ := disable_view ht hf hv hp h4
      have hf1 := disable_fine ht _ _ _ hf h4
      obtain ⟨e2, n7, h5, h3⟩ := bind_ok h3
      obtain ⟨d2, b1, b2, b3, b4, b5, b6, b7, why2, b8⟩ := singleStep_view ht hf1 a1 h5
      have hf2 := singleStep_fine ht _ _ _ hf1 h5
      obtain ⟨u2, n8, h6, h3⟩ := bind_ok h3
      cases h3
      obtain ⟨d3, c1, c2, c3, c4, c5, _⟩ := enable_view hf2.good b2 b8 h6
      rw [a2.dbg, a2.state, a3] at b1
      have hwatch : Watched d.dbg n.wps := hv.watched hf.good hp
      refine ⟨n5, d3, hso, hf5, c1, live_view c1 (by rw [c4]; exact b4) (c2.phase.trans b8), ⟨?_, ?_⟩, ?_, ?_, ?_⟩
      · intro b
        rw [c5, b3.armed, a5]
        by_cases hb : b = d.state.pc
        · subst hb; simp [har]
        · simp [hb]
      · rw [c3, b3.wps, a3]
      · rw [c2.state]; exact (b1.unique h1 hwatch).2
      · intro hne
        rw [c2.dbg, b5 hne, a2.dbg]
      · rintro rfl
        rw [c2.trap, b6]
        rfl
    · exact .inr ⟨⟨n5, h3⟩, h4⟩
  cases hr with
  | free hs hran =>
    have har : armed n d.state.pc = false := by
      cases hz : armed n d.state.pc with
      | false => rfl
      | true => exact absurd hz hs
    have hx := hfree n d hf hv hl hrun hran (fun _ k t => hK _ k t (.inl ⟨hs, rfl⟩)) hk
    have : (continue' h c >>= fun _ => waitEvent h c) n = (proc (Proc.resume h) >>= fun _ => waitEvent h c) n := by
      change Job.bind _ _ _ = Job.bind _ _ _
      unfold Job.bind
      rw [hcont false har]
      rfl
    rw [this]
    refine hx.imp id (fun ⟨q1, q2, q3⟩ => ⟨q1, q2, fun hw => .inr ?_⟩)
    obtain ⟨m', t, q4, q5⟩ := q3 hw
    exact ⟨d.state, m', t, .inl ⟨hs, rfl⟩, q4, q5⟩
  | last hs hran hne =>
    rcases hoff hs hran hk with ⟨n5, d3, h1, h2, h3, h4, h5, h6, h7, h8⟩ | ⟨⟨n5, h1⟩, h2⟩
    · left
      obtain ⟨n', h9⟩ := adjust_total ha (n := { n5 with cached := none }) ⟨h3.rest, h3.same⟩ h4 e
      refine ⟨e, n', ?_, rfl⟩
      have hc : continue' h c n = (.ok (), { n5 with cached := some e }) := by
        rw [hcont true hs]
        refine (bind_eq h1).trans ?_
        rw [if_pos hne]
        rfl
      refine (bind_eq hc).trans ?_
      unfold waitEvent
      refine (bind_eq (x := Job.get) (t := { n5 with cached := some e }) rfl).trans ?_
      refine (bind_eq (x := Job.modify _) (t := { n5 with cached := none }) rfl).trans ?_
      exact h9
    · refine .inr ⟨⟨n5, bind_error ?_⟩, h2.1, fun hw => .inl ⟨hs, h2.2 hw⟩⟩
      rw [hcont true hs]
      exact bind_error h1
  | on hs hfirst hran =>
    rename_i s1
    rcases hoff hs hfirst (fun ⟨a, hx⟩ => by cases hx) with ⟨n5, d3, h1, h2, h3, h4, h5, h6, h7, h8⟩ | ⟨⟨n5, h1⟩, h2⟩
    · have hdbg := h7 (by intro a hx; cases hx)
      have hstep : Isa.step h.cfg P d.state = .ok d3.state ∧ d3.state.halted = false := by
        cases hfirst with
        | single q1 q2 _ =>
          obtain ⟨_, _, _, t, q3, q4⟩ := q1
          have : s1 = t := q4
          rw [h6, this]
          exact ⟨q3, this ▸ q2⟩
      have hx := hfree n5 d3 h2 h3 h4 hstep.2 (by rw [hdbg, h5.stops, h5.wps, h8 rfl, h6]; exact hran)
        (fun _ k t hc => hK d3.state k t (.inr ⟨hs, hstep.1⟩) (by rw [← hdbg, ← h5.stops]; exact hc))
        (fun he => kempt_view hv h3 hl h4 hdbg h5.wps (hk he))
      have : (continue' h c >>= fun _ => waitEvent h c) n = (proc (Proc.resume h) >>= fun _ => waitEvent h c) n5 := by
        change Job.bind _ _ _ = Job.bind _ _ _
        unfold Job.bind
        have hc : continue' h c n = proc (Proc.resume h) n5 := (hcont true hs).trans (bind_eq h1)
        rw [hc]
      rw [this]
      refine hx.imp id (fun ⟨q1, q2, q3⟩ => ⟨q1, q2, fun hw => .inr ?_⟩)
      obtain ⟨m', t, q4, q5, q6⟩ := q3 hw
      refine ⟨d3.state, m', t, .inr ⟨hs, hstep.1⟩, (by show Clear h.cfg P d.dbg (stops n) m' d3.state t; rw [← hdbg, ← h5.stops]; exact q4), q5, ?_⟩
      rw [show armed n = armed n5 from funext fun b => (h5.armed b).symm]
      exact q6
    · refine .inr ⟨⟨n5, bind_error ?_⟩, h2.1, fun hw => .inl ⟨hs, h2.2 hw⟩⟩
      rw [hcont true hs]
      exact bind_error h1

end Native
end T86
