import Verif.Lemmas.Over
import Verif.Spec.Observe

/-! What the debugger shows is on the way of the program. -/

set_option linter.unusedSimpArgs false
set_option linter.unusedVariables false

namespace T86
open Dbg Str Isa Job

theorem Isa.Clear.runs {cfg : Cfg} {P : List Instr} {dbg : List Word} {stop : State → Prop} : ∀ {k : Nat} {s s' : State},
    Clear cfg P dbg stop k s s' → Isa.runs cfg P k s s'
  | 0, _, _, h => h
  | _ + 1, _, _, ⟨h1, _, _, t, h2, h3⟩ => ⟨h1, t, h2, Clear.runs h3⟩

theorem Isa.Ran.runs {cfg : Cfg} {P : List Instr} {dbg : List Word} {stop : State → Prop} {wps : Map Word Nat} {trap : Bool} {s s' : State}
    {e : Event} (h : Ran cfg P dbg stop wps trap s e s') : ∃ k, Isa.runs cfg P k s s' := by
  cases h with
  | halt h1 => exact ⟨_, h1.runs⟩
  | single h1 => exact ⟨_, h1.runs⟩
  | breakpoint h1 => exact ⟨_, h1.runs⟩
  | watch h1 h2 _ _ _ h3 => exact ⟨_, runs_append h1.runs (runs_one h2 h3)⟩

theorem Isa.Went.runs {cfg : Cfg} {P : List Instr} {dbg : List Word} {stop : State → Prop} {wps : Map Word Nat} {trap : Bool} {s s' : State}
    {e : Event} (h : Went cfg P dbg stop wps trap s e s') : ∃ k, Isa.runs cfg P k s s' := by
  cases h with
  | free _ h1 => exact h1.runs
  | last _ h1 => exact h1.runs
  | on _ h1 h2 =>
    obtain ⟨k, h1⟩ := h1.runs
    obtain ⟨l, h2⟩ := h2.runs
    exact ⟨_, runs_append h1 h2⟩

theorem Job.bind_assoc {σ α β γ : Type} (x : Job σ α) (f : α → Job σ β) (g : β → Job σ γ) :
    ((x >>= f) >>= g) = (x >>= fun a => f a >>= g) := by
  funext s
  change Job.bind (Job.bind x f) g s = Job.bind x (fun a => Job.bind (f a) g) s
  unfold Job.bind
  cases hx : x s with
  | mk r t => cases r <;> rfl

/-- Debug registers are not part of the state of the program. -/
theorem Inv.setDbg {cfg : Cfg} {c : Cpu} {S : State} (h : Inv cfg c S) (D : List Word) : Inv cfg { c with dbg := D } S := by
  obtain ⟨own, n, m, b, h⟩ := h
  exact ⟨own, n, m, b, h.wf, h.win, h.base, h.pc, h.subs, h.wm, h.ram, h.out, h.inp, h.halted, h.alus, h.cap⟩

namespace Proc
variable {h : Host}
open Link

theorem setDebugs_view : ∀ {m : Map Str Word} {l l' : Link} {d : Dbg} (hl : l.At), Matches h.cfg l.vm d →
    (∃ why, d.phase = .stopped why) → l.dead = false →
    (∀ p ∈ m, ∃ i, i < 5 ∧ p.1 = Arch.debugName i) → setDebugRegisters h m l = (.ok (), l') →
    l'.At ∧ l'.dead = false ∧ ∃ D, Matches h.cfg l'.vm { d with dbg := D }
  | [], l, l', d, hl, hs, _, hd, _, hr => by cases hr; exact ⟨hl, hd, d.dbg, hs⟩
  | (name, v) :: m, l, l', d, hl, hs, ⟨why, hp⟩, hd, hm, hr => by
    obtain ⟨i, hi, hn⟩ := hm _ (List.mem_cons_self ..)
    simp only at hn
    subst hn
    unfold setDebugRegisters at hr
    split at hr
    · obtain ⟨k, t, h1, h2, h3⟩ := ask_check hl hr
      have e := Proto.parse_pokeDebugs h i (by omega) v
      rw [show Arch.debugName i = 'D' :: ofNat i from rfl, e] at h1
      cases h1
      have hph : l.vm.phase = .stopped why := hs.phase.trans hp
      rcases h2 with ⟨why', c', rep, nx, e1, e2, e3, rfl⟩ | ⟨e1, _⟩
      · obtain ⟨c1, hc1, e2⟩ := bind_ok_iff.1 (show (l.vm.cpu.setDebugReg i v >>= fun c => (pure (c, .ok, .stay) : Res (Cpu × Reply × Next))) = _ from e2)
        cases e2
        rw [hph] at e1
        cases e1
        have hdbg : ∃ D, c' = { l.vm.cpu with dbg := D } := by
          rw [Cpu.setDebugReg, if_pos hi] at hc1
          cases hc1
          exact ⟨_, rfl⟩
        obtain ⟨D, rfl⟩ := hdbg
        have hmt : Matches h.cfg (Vm.leave why { l.vm.cpu with dbg := D } .stay) { d with dbg := D } := by
          obtain ⟨g1, g2, g3, g4, g5⟩ := hs.live (by rw [hp]; simp) (by rw [hp]; simp)
          obtain ⟨q1, q2, q3, q4⟩ := hs.quiet why hp
          exact ⟨hp.symm, fun _ _ => ⟨g1.setDbg D, g2, rfl, g4, g5⟩, fun _ _ => ⟨q1, q2, q3, q4⟩, fun hx => hs.run hx⟩
        obtain ⟨r1, r2, D', r3⟩ := setDebugs_view (d := { d with dbg := D }) (l := { l with vm := Vm.leave why { l.vm.cpu with dbg := D } .stay })
          ⟨hl.1, hl.2, by simp [Vm.leave]⟩ hmt ⟨why, hp⟩ hd
          (fun p hp => hm p (List.mem_cons_of_mem _ hp)) h3
        exact ⟨r1, r2, D', r3⟩
      · rw [hph] at e1; cases e1
    · cases hr

end Proc

namespace Native
open Proc
variable {h : Host} {c : Client} {Tx : Str → Instr → Prop} {P : List Instr} {R : State → Prop}

/-- The debugger is at a stop and shows a state that is `R`. -/
structure Track (h : Host) (Tx : Str → Instr → Prop) (P : List Instr) (R : State → Prop) (n : Native) : Prop where
  fine : Fine h Tx P n
  view : ∃ d, View h n d ∧ (∃ why, d.phase = .stopped why) ∧ R d.state
  alive : n.link.dead = false

theorem Track.same {α : Type} {x : N α} (hx : ∀ n a n', n.link.At → x n = (.ok a, n') → n' = n) :
    Triple (Track h Tx P R) x (fun _ => Track h Tx P R) := by
  intro n a n' ht hr
  obtain ⟨d, hv, _⟩ := ht.view
  rw [hx n a n' hv.rest hr]
  exact ht

theorem getRegisters_track : Triple (Track h Tx P R) (getRegisters h) (fun _ => Track h Tx P R) := .same fun n a n' hl hr => getRegisters_ok hl hr
theorem getRegister_track {s : Str} : Triple (Track h Tx P R) (getRegister h s) (fun _ => Track h Tx P R) := .same fun n a n' hl hr => getRegister_ok hl hr
theorem getIP_track : Triple (Track h Tx P R) (getIP h) (fun _ => Track h Tx P R) := getRegister_track
theorem getFloats_track : Triple (Track h Tx P R) (getFloatRegisters h) (fun _ => Track h Tx P R) := .same fun n a n' hl hr => getFloats_ok hl hr
theorem readMemory_track {a m : Word} : Triple (Track h Tx P R) (readMemory h c a m) (fun _ => Track h Tx P R) := .same fun n a n' hl hr => readMemory_ok hl hr
theorem read_track (ht : Texts h Tx) {a m : Word} : Triple (Track h Tx P R) (readText h a m) (fun _ => Track h Tx P R) := by
  intro n r n' hk hr
  obtain ⟨rfl, _⟩ := readText_ok ht hk.fine.good hr
  exact hk
theorem ofExcept_track {α : Type} {x : Except Err α} : Triple (Track h Tx P R) (Job.ofExcept x : N α) (fun _ => Track h Tx P R) :=
  .ofExcept fun _ _ _ hs => hs
theorem pure_track {α : Type} {x : α} : Triple (Track h Tx P R) (pure x : N α) (fun _ => Track h Tx P R) := .pure fun s hs => hs
theorem get_track : Triple (Track h Tx P R) (Job.get : N Native) (fun _ => Track h Tx P R) := .get fun s hs => hs

theorem Track.patched {n n' : Native} {d d' : Dbg} (hk : Track h Tx P R n) (hd : R d.state)
    (hp : ∃ why, d.phase = .stopped why) (hf : Fine h Tx P n') (hv : View h n' d') (hpt : Patched d d')
    (ha : n'.link.dead = n.link.dead) : Track h Tx P R n' := by
  refine ⟨hf, ⟨d', hv, ?_, ?_⟩, ha.trans hk.alive⟩
  · rw [hpt.phase]; exact hp
  · rw [hpt.state]; exact hd

theorem set_track (ht : Texts h Tx) {a : Word} : Triple (Track h Tx P R) (setBreakpoint h a) (fun _ => Track h Tx P R) := by
  intro n u n' hk hr
  obtain ⟨d, hv, ⟨why, hp⟩, hd⟩ := hk.view
  obtain ⟨d', h1, h2, _, h3, _⟩ := set_view hk.fine.good hv hp hr
  exact hk.patched hd ⟨why, hp⟩ (set_fine ht _ _ _ hk.fine hr) h1 h2 h3

theorem unset_track (ht : Texts h Tx) {a : Word} : Triple (Track h Tx P R) (unsetBreakpoint h a) (fun _ => Track h Tx P R) := by
  intro n u n' hk hr
  obtain ⟨d, hv, ⟨why, hp⟩, hd⟩ := hk.view
  obtain ⟨d', h1, h2, _, h3, _⟩ := unset_view ht hk.fine hv hp hr
  exact hk.patched hd ⟨why, hp⟩ (unset_fine ht _ _ _ hk.fine hr) h1 h2 h3

theorem enable_track (ht : Texts h Tx) {a : Word} : Triple (Track h Tx P R) (enable h a) (fun _ => Track h Tx P R) := by
  intro n u n' hk hr
  obtain ⟨d, hv, ⟨why, hp⟩, hd⟩ := hk.view
  obtain ⟨d', h1, h2, _, h3, _⟩ := enable_view hk.fine.good hv hp hr
  exact hk.patched hd ⟨why, hp⟩ (enable_fine ht _ _ _ hk.fine hr) h1 h2 h3

theorem disable_track (ht : Texts h Tx) {a : Word} : Triple (Track h Tx P R) (disable h a) (fun _ => Track h Tx P R) := by
  intro n u n' hk hr
  obtain ⟨d, hv, ⟨why, hp⟩, hd⟩ := hk.view
  obtain ⟨d', h1, h2, _, h3, _⟩ := disable_view ht hk.fine hv hp hr
  exact hk.patched hd ⟨why, hp⟩ (disable_fine ht _ _ _ hk.fine hr) h1 h2 h3

theorem unwatch_track {a : Word} : Triple (Track h Tx P R) (removeWatchpoint h a) (fun _ => Track h Tx P R) := by
  intro n u n' hk hr
  have hf := unwatch_fine _ _ _ hk.fine hr
  obtain ⟨d, hv, hp, hd⟩ := hk.view
  obtain ⟨i, _, h1⟩ := removeWatchpoint_ok hk.fine.good.rest hr
  refine ⟨hf, ⟨d, ⟨hf.good.rest, ?_⟩, hp, hd⟩, ?_⟩
  · rw [h1]; exact hv.same
  · rw [h1]; exact hk.alive

theorem watch_track {a : Word} : Triple (Track h Tx P R) (setWatchpoint h a) (fun _ => Track h Tx P R) := by
  intro n u n' hk hr
  have hf := hk.fine
  have hf' := watch_fine _ _ _ hf hr
  obtain ⟨d, hv, hp, hd⟩ := hk.view
  unfold setWatchpoint at hr
  obtain ⟨m, n1, e1, hr⟩ := bind_ok hr
  cases e1
  cases hfa : n.wps.find a with
  | some i => rw [hfa] at hr; cases hr
  | none =>
    cases hfr : freeRegister n.wps with
    | none => rw [hfa, hfr] at hr; cases hr
    | some i =>
      rw [hfa, hfr] at hr
      simp only at hr
      obtain ⟨regs, n2, e2, hr2⟩ := bind_ok hr
      obtain ⟨e3, e4⟩ := proc_ok e2
      obtain ⟨e5, e6⟩ := fetchDebugs_eq hf.good.rest e3
      rw [e5] at e4
      rw [e4] at hr2
      obtain ⟨r1, n3, e7, hr3⟩ := bind_ok hr2
      have hn3 : n3 = n := (congrArg Prod.snd e7).symm
      have e7 : Arch.setDebugRegister i a regs = .ok r1 := congrArg Prod.fst e7
      rw [hn3] at hr3
      obtain ⟨r2, n4, e8, hr4⟩ := bind_ok hr3
      have hn4 : n4 = n := (congrArg Prod.snd e8).symm
      have e8 : Arch.activate i r1 = .ok r2 := congrArg Prod.fst e8
      rw [hn4] at hr4
      obtain ⟨v, n5, e9, hr5⟩ := bind_ok hr4
      cases hr5
      obtain ⟨e10, _⟩ := proc_ok e9
      have hi := (freeRegister_some hfr).1
      obtain ⟨z1, z2, D, z3⟩ := setDebugs_view hf.good.rest hv.same hp hk.alive (by
        intro p hp
        rcases mem_activate e8 hp with hp | hp
        · unfold Arch.setDebugRegister at e7
          split at e7
          · cases e7
          · obtain ⟨w, _, e7⟩ := ebind_ok e7
            cases e7
            rcases mem_assign hp with hp | rfl
            · rw [e6] at hp
              obtain ⟨j, _, h2, h3⟩ := mem_listing hp
              have := hf.good.watch.length
              exact ⟨j, by omega, h3⟩
            · exact ⟨i, by omega, rfl⟩
        · exact ⟨4, by omega, hp⟩) e10
      exact ⟨hf', ⟨_, ⟨z1, z3⟩, hp, hd⟩, z2⟩

/-- What stays so when the program goes on. -/
def Closed (h : Host) (P : List Instr) (R : State → Prop) : Prop := ∀ k s s', R s → runs h.cfg P k s s' → R s'

theorem Track.moved {n' : Native} {d d' : Dbg} (hR : Closed h P R) (hd : R d.state) (hm : ∃ k, runs h.cfg P k d.state d'.state)
    (hf : Fine h Tx P n') (hv : View h n' d') (hp : ∃ why, d'.phase = .stopped why) (ha : n'.link.dead = false) : Track h Tx P R n' := by
  obtain ⟨l, hm⟩ := hm
  exact ⟨hf, ⟨d', hv, hp, hR _ _ _ hd hm⟩, ha⟩

theorem rawStep_track (hR : Closed h P R) : Triple (Track h Tx P R) (rawStep h c) (fun _ => Track h Tx P R) := by
  intro n e n' hk hr
  obtain ⟨d, hv, hp, hd⟩ := hk.view
  obtain ⟨d', h1, h2, _, h3, _, _, _, h4⟩ := rawStep_view hk.fine.good hv hr
  exact .moved hR hd h1.runs (rawStep_fine _ _ _ hk.fine hr) h2 h4 h3

theorem singleStep_track (hR : Closed h P R) (ht : Texts h Tx) : Triple (Track h Tx P R) (singleStep h c) (fun _ => Track h Tx P R) := by
  intro n e n' hk hr
  obtain ⟨d, hv, hp, hd⟩ := hk.view
  obtain ⟨d', h1, h2, _, h3, _, _, _, h4⟩ := singleStep_view ht hk.fine hv hr
  exact .moved hR hd h1.runs (singleStep_fine ht _ _ _ hk.fine hr) h2 h4 h3

theorem go_track (hR : Closed h P R) (ht : Texts h Tx) (hb : ∀ a, instrAt P a ≠ .bkpt) :
    Triple (Track h Tx P R) (continue' h c >>= fun _ => waitEvent h c) (fun _ => Track h Tx P R) := by
  intro n e n' hk hr
  obtain ⟨d, hv, hp, hd⟩ := hk.view
  have hf := ((continue_fineGone ht).bind fun _ => wait_fine) _ _ _ hk.fine hr
  obtain ⟨u, n1, h1, h2⟩ := bind_ok hr
  obtain ⟨d', h3, h4, _, h5, _, h6, _⟩ := continue_view ht hk.fine hv (fun _ => hb _) h1 h2
  exact .moved hR hd h3.runs hf h4 h6 h5

theorem over_track (hR : Closed h P R) (ht : Texts h Tx) (hb : ∀ a, instrAt P a ≠ .bkpt) {ip bp : Word} :
    ∀ fuel, Triple (Track h Tx P R) (overLoop h c ip bp fuel) (fun _ => Track h Tx P R)
  | 0 => .throw
  | fuel + 1 => by
    unfold overLoop
    rw [show (continue' h c >>= fun _ => waitEvent h c >>= fun e => getRegister h "BP".toList >>= fun bp' => getIP h >>= fun ip' =>
        if Event.isBreakpoint e ∧ ip' = ip + 1 ∧ bp ≠ bp' then overLoop h c ip bp fuel else pure e) =
      ((continue' h c >>= fun _ => waitEvent h c) >>= fun e => getRegister h "BP".toList >>= fun bp' => getIP h >>= fun ip' =>
        if Event.isBreakpoint e ∧ ip' = ip + 1 ∧ bp ≠ bp' then overLoop h c ip bp fuel else pure e) from (Job.bind_assoc ..).symm]
    refine (go_track hR ht hb).bind fun e => getRegister_track.bind fun bp' => getIP_track.bind fun ip' => ?_
    split
    · exact over_track hR ht hb fuel
    · exact .pure fun s hs => hs

theorem stepOver_track (hR : Closed h P R) (ht : Texts h Tx) (hb : ∀ a, instrAt P a ≠ .bkpt) {fuel : Nat} {skip : Bool} :
    Triple (Track h Tx P R) (stepOver h c fuel skip) (fun _ => Track h Tx P R) := by
  unfold stepOver
  refine getIP_track.bind fun ip => (read_track ht).bind fun text => ofExcept_track.bind fun s => ?_
  split
  · refine get_track.bind fun n => ?_
    dsimp only
    repeat' first
      | exact pure_track
      | exact set_track ht
      | exact unset_track ht
      | exact singleStep_track hR ht
      | exact getRegister_track
      | exact getIP_track
      | exact over_track hR ht hb fuel
      | refine Triple.bind (q := fun _ => Track h Tx P R) ?_ fun _ => ?_
      | split
  · split
    · exact singleStep_track hR ht
    · exact rawStep_track hR

theorem stepOut_track (hR : Closed h P R) (ht : Texts h Tx) (hb : ∀ a, instrAt P a ≠ .bkpt) {fuel : Nat} :
    ∀ k skip, Triple (Track h Tx P R) (stepOutLoop h c fuel k skip) (fun _ => Track h Tx P R)
  | 0, _ => .throw
  | k + 1, skip => by
    unfold stepOutLoop
    refine getIP_track.bind fun ip => (read_track ht).bind fun text => ofExcept_track.bind fun s => (stepOver_track hR ht hb).bind fun e => ?_
    split
    · exact pure_track
    · exact stepOut_track hR ht hb k false

theorem begin_track {prog : List Instr} {data : List Word} {inp : List (BitVec 8)} (hs : prog.length < 2 ^ 63)
    (hp : ∀ i ∈ prog, Plain h i) (hset : Setup h.cfg prog data) {n : Native} {e : Event}
    (hr : waitEvent h c (connect h prog data inp) = (.ok e, n)) (hR : R (start h.cfg data inp)) :
    Track h Tx prog R n := by
  have hm := start_matches (inp := inp) hset.station hset.wf hset.data
  have hf : Fine h Tx prog n := wait_fine _ _ _ ⟨start_gone hs hp, ⟨_, hm, fit_start⟩, hset.wf⟩ hr
  unfold waitEvent at hr
  obtain ⟨m, n1, h1, hr⟩ := bind_ok hr
  cases h1
  obtain ⟨u, n2, h2, hr⟩ := bind_ok hr
  obtain ⟨h3, h4⟩ := proc_ok h2
  have h3 : _ = n2.link := congrArg Prod.snd h3
  rw [← h3] at h4
  have hv2 : View h n2 (Dbg.start h.cfg prog data inp) := by
    rw [h4]
    exact ⟨⟨rfl, rfl, by intro hx; cases hx⟩, hm⟩
  have hdead : n2.link.dead = false := by rw [h4]; rfl
  obtain ⟨r, n3, h5, hr1⟩ := bind_ok hr
  obtain ⟨h6, h7⟩ := proc_ok h5
  obtain ⟨h8, h9⟩ := getReason_ok hv2.rest h6
  rw [h8] at h7
  have hn3 : n3 = n2 := h7
  rw [hn3] at hr1
  obtain ⟨ev, n4, h10, hr2⟩ := bind_ok hr1
  obtain ⟨rfl, b1, b2, b3⟩ := mapReason_view hv2 h10
  obtain ⟨rfl, c1, c2, c3⟩ := adjust_view hv2 hdead hr2
  have hre : r = .begin := by
    rcases h9 with h9 | ⟨h9, rfl⟩
    · rw [hv2.same.phase] at h9
      cases h9
      rfl
    · rw [hv2.same.phase] at h9; cases h9
  subst hre
  cases h10
  exact ⟨hf, ⟨_, c1, ⟨_, rfl⟩, hR⟩, c3⟩

/-- A call that only looks keeps the state. -/
theorem look_track (ht : Texts h Tx) {o : Op} (ho : o.Looks) (hm : ¬ o.Moves) : Triple (Track h Tx P R) (o.run h c) (fun _ => Track h Tx P R) := by
  cases o with
  | set a => exact set_track ht
  | unset a => exact unset_track ht
  | enable a => exact enable_track ht
  | disable a => exact disable_track ht
  | read a m => exact (read_track ht).bind fun _ => pure_track
  | registers => exact getRegisters_track.bind fun _ => pure_track
  | floats => exact getFloats_track.bind fun _ => pure_track
  | readMemory a m => exact readMemory_track.bind fun _ => pure_track
  | watch a => exact watch_track
  | unwatch a => exact unwatch_track
  | step | raw | over fuel skip | out fuel | go => exact absurd trivial hm
  | write a l | setRegister s v | setFloat s v | writeMemory a l => exact ho.elim

/-- A call that looks or lets the program go on. -/
theorem op_track (hR : Closed h P R) (ht : Texts h Tx) (hb : ∀ a, instrAt P a ≠ .bkpt) {o : Op} (ho : o.Looks) :
    Triple (Track h Tx P R) (o.run h c) (fun _ => Track h Tx P R) := by
  cases o with
  | step => exact (singleStep_track hR ht).bind fun _ => pure_track
  | raw => exact (rawStep_track hR).bind fun _ => pure_track
  | over fuel skip => exact (stepOver_track hR ht hb).bind fun _ => pure_track
  | out fuel => exact (stepOut_track hR ht hb _ _).bind fun _ => pure_track
  | go =>
    have := (go_track (c := c) hR ht hb).bind (fun _ => (pure_track : Triple (Track h Tx P R) (pure () : N Unit) _))
    rw [Job.bind_assoc] at this
    exact this
  | set a => exact look_track ht ho id
  | unset a => exact look_track ht ho id
  | enable a => exact look_track ht ho id
  | disable a => exact look_track ht ho id
  | read a m => exact look_track ht ho id
  | registers => exact look_track ht ho id
  | floats => exact look_track ht ho id
  | readMemory a m => exact look_track ht ho id
  | watch a => exact look_track ht ho id
  | unwatch a => exact look_track ht ho id
  | write a l | setRegister s v | setFloat s v | writeMemory a l => exact ho.elim

theorem closed_runs {s0 : State} : Closed h P (fun s => ∃ k, runs h.cfg P k s0 s) :=
  fun _ _ _ ⟨_, h1⟩ h2 => ⟨_, runs_append h1 h2⟩

theorem Track.shows {n : Native} (hk : Track h Tx P R n) : ∃ s, Native.Shows h n s ∧ R s := by
  obtain ⟨d, hv, ⟨why, hp⟩, hd⟩ := hk.view
  exact ⟨_, hv.shows hp hk.alive, hd⟩

end Native
end T86
