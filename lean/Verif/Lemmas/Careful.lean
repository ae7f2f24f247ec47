import Verif.Lemmas.Stand

/-! In a careful session the machine corresponds to the debugged sequential machine. -/

set_option linter.unusedSimpArgs false
set_option linter.unusedVariables false

namespace T86
open Dbg Str Isa Job

namespace Native
open Proc
variable {h : Host} {c : Client} {Tx : Str → Instr → Prop} {P : List Instr}

/-- The debugger at a stop of a machine that corresponds to the sequential machine; the text has well-formed instructions. -/
structure Fine (h : Host) (Tx : Str → Instr → Prop) (P : List Instr) (n : Native) : Prop where
  good : Good h Tx P n
  stood : Stood h n.link.vm
  wf : ∀ i ∈ P, i.wf h.cfg = true

/-- Between `ContinueExecution` and `WaitForDebugEvent`. -/
structure FineGone (h : Host) (Tx : Str → Instr → Prop) (P : List Instr) (n : Native) : Prop where
  gone : Gone h Tx P n
  stood : Stood h n.link.vm
  wf : ∀ i ∈ P, i.wf h.cfg = true

/-- Calls that keep the shape and the correspondence. -/
theorem Fine.lift {α : Type} {x : N α} (hg : Triple (Good h Tx P) x (fun _ => Good h Tx P))
    (hs : Triple (Fine h Tx P) x (fun _ n => Stood h n.link.vm)) : Triple (Fine h Tx P) x (fun _ => Fine h Tx P) :=
  fun n a n' hf hr => ⟨hg n a n' hf.good hr, hs n a n' hf hr, hf.wf⟩

theorem setProg_vm (n : Native) (Q : List Instr) : (setProg n Q).link = withProg n.link Q := rfl

/-- Writing one instruction by the debugger. -/
theorem setProg_stood {n : Native} (hs : Stood h n.link.vm) {a : Word} {i : Instr} (hw : i.wf h.cfg = true)
    (ha : a.toNat < n.link.vm.cpu.prog.length) (hst : ∃ why, n.link.vm.phase = .stopped why) :
    Stood h (setProg n (n.link.vm.cpu.prog.set a.toNat i)).link.vm := by
  obtain ⟨d, hd, hf⟩ := hs
  obtain ⟨why, hp⟩ := hst
  exact ⟨_, matches_setText hd (hd.phase.symm.trans hp) hw ha, ⟨fun _ => (hf.live (Or.inr ⟨why, hp⟩)).congr rfl rfl rfl rfl, hf.over⟩⟩

/-- A machine that answers PEEKTEXT is at a stop. -/
theorem stopped_of_read {n n' : Native} {a m : Word} {r : List Str} (hl : n.link.At)
    (hr : proc (Proc.readText h a m) n = (.ok r, n')) : ∃ why, n.link.vm.phase = .stopped why := by
  obtain ⟨h1, _⟩ := proc_ok hr
  unfold Proc.readText at h1
  obtain ⟨k, s, t, e1, e2, e3⟩ := Link.ask_answer hl h1
  rcases e2 with ⟨why, c', rep, nx, g1, g2, g3, rfl⟩ | ⟨g1, ⟨g2, _, _⟩ | ⟨g2, _, _⟩⟩
  · exact ⟨why, g1⟩
  · rw [Proto.parse_peekText] at e1
    obtain ⟨i, _, e1⟩ := ebind_ok e1
    obtain ⟨j, _, e1⟩ := ebind_ok e1
    cases e1
    cases g2
  · rw [Proto.parse_peekText] at e1
    obtain ⟨i, _, e1⟩ := ebind_ok e1
    obtain ⟨j, _, e1⟩ := ebind_ok e1
    cases e1
    cases g2

theorem stopped_of_create {n n' : Native} {a : Word} {bp : Bp} (hl : n.link.At) (hr : create h a n = (.ok bp, n')) :
    ∃ why, n.link.vm.phase = .stopped why := by
  unfold create at hr
  obtain ⟨r, n1, h1, hr⟩ := bind_ok hr
  exact stopped_of_read hl h1

theorem wf_bkpt (cfg : Cfg) : Instr.wf cfg .bkpt = true := rfl

theorem set_stood {a : Word} : Triple (Fine h Tx P) (setBreakpoint h a) (fun _ n => Stood h n.link.vm) := by
  intro n u n' hf hr
  have hr0 := hr
  obtain ⟨h1, i, h2, h3⟩ := setBreakpoint_ok hf.good.rest (fun i hi => hf.good.text.plainQ hi) hr
  unfold setBreakpoint at hr0
  obtain ⟨m, n1, e1, hr0⟩ := bind_ok hr0
  cases e1
  simp only [h1] at hr0
  obtain ⟨bp, n2, e2, _⟩ := bind_ok hr0
  rw [h3]
  exact setProg_stood hf.stood (wf_bkpt _) (List.getElem?_eq_some_iff.1 h2).1 (stopped_of_create hf.good.rest e2)

theorem enable_stood {a : Word} : Triple (Fine h Tx P) (enable h a) (fun _ n => Stood h n.link.vm) := by
  intro n u n' hf hr
  have hr0 := hr
  obtain ⟨bp, h1, ⟨h2, h3⟩ | ⟨h2, i, h3, h4⟩⟩ := enable_ok hf.good.rest (fun i hi => hf.good.text.plainQ hi) hr
  · rw [h3]; exact hf.stood
  · unfold enable at hr0
    obtain ⟨m, n1, e1, hr0⟩ := bind_ok hr0
    cases e1
    simp only [h1, h2, Bool.false_eq_true, if_false] at hr0
    obtain ⟨bp', n2, e2, _⟩ := bind_ok hr0
    rw [h4]
    exact setProg_stood hf.stood (wf_bkpt _) (List.getElem?_eq_some_iff.1 h3).1 (stopped_of_create hf.good.rest e2)

theorem saved_means (ht : Texts h Tx) {n : Native} (hg : Good h Tx P n) {a : Word} {bp : Bp} (hf : n.bps.find a = some bp) :
    '"' ∉ bp.data ∧ ∃ i, P[a.toNat]? = some i ∧ Asm.oneInstruction.run h.stod bp.data = .ok i := by
  obtain ⟨i, h1, h2⟩ := hg.text.saved a bp hf
  obtain ⟨h3, h4⟩ := ht.means h2
  exact ⟨h4, i, h1, h3⟩

theorem disable_stood (ht : Texts h Tx) {a : Word} : Triple (Fine h Tx P) (disable h a) (fun _ n => Stood h n.link.vm) := by
  intro n u n' hf hr
  have hr0 := hr
  obtain ⟨bp, h1, ⟨h2, h3⟩ | ⟨h2, h3, i, h4, h5⟩⟩ := disable_ok hf.good.rest (fun bp hb => (saved_means ht hf.good hb).1) hr
  · rw [h3]; exact hf.stood
  · obtain ⟨hq, j, h6, h7⟩ := saved_means ht hf.good h1
    have hw : ∀ i, Asm.oneInstruction.run h.stod bp.data = .ok i → i.wf h.cfg = true := by
      intro i hi
      rw [h7] at hi
      cases hi
      exact hf.wf _ (List.mem_of_getElem? h6)
    unfold disable at hr0
    obtain ⟨m, n1, e1, hr0⟩ := bind_ok hr0
    cases e1
    simp only [h1, h2, if_true] at hr0
    obtain ⟨v, n2, e2, hr1⟩ := bind_ok hr0
    cases hr1
    obtain ⟨e3, e4⟩ := proc_ok e2
    exact writeText_stood hf.good.rest hf.stood (fun s hs => by rw [List.mem_singleton.1 hs]; exact ⟨hq, hw⟩) e3

theorem set_fine (ht : Texts h Tx) {a : Word} : Triple (Fine h Tx P) (setBreakpoint h a) (fun _ => Fine h Tx P) := .lift (set_good ht) set_stood
theorem enable_fine (ht : Texts h Tx) {a : Word} : Triple (Fine h Tx P) (enable h a) (fun _ => Fine h Tx P) := .lift (enable_good ht) enable_stood
theorem disable_fine (ht : Texts h Tx) {a : Word} : Triple (Fine h Tx P) (disable h a) (fun _ => Fine h Tx P) :=
  .lift (disable_good ht) (disable_stood ht)
theorem unset_fine (ht : Texts h Tx) {a : Word} : Triple (Fine h Tx P) (unsetBreakpoint h a) (fun _ => Fine h Tx P) := by
  refine .lift (unset_good ht) ?_
  unfold unsetBreakpoint
  exact (disable_stood ht).bind fun _ => .modify fun s hs => hs

/-- Calls that change nothing. -/
theorem Fine.same {α : Type} {x : N α} (hx : ∀ n a n', n.link.At → x n = (.ok a, n') → n' = n) :
    Triple (Fine h Tx P) x (fun _ => Fine h Tx P) := by
  intro n a n' hf hr
  rw [hx n a n' hf.good.rest hr]
  exact hf

theorem getRegisters_fine : Triple (Fine h Tx P) (getRegisters h) (fun _ => Fine h Tx P) := .same fun n a n' hl hr => getRegisters_ok hl hr
theorem getRegister_fine {s : Str} : Triple (Fine h Tx P) (getRegister h s) (fun _ => Fine h Tx P) := .same fun n a n' hl hr => getRegister_ok hl hr
theorem getIP_fine : Triple (Fine h Tx P) (getIP h) (fun _ => Fine h Tx P) := getRegister_fine
theorem getFloats_fine : Triple (Fine h Tx P) (getFloatRegisters h) (fun _ => Fine h Tx P) := .same fun n a n' hl hr => getFloats_ok hl hr
theorem readMemory_fine {a m : Word} : Triple (Fine h Tx P) (readMemory h c a m) (fun _ => Fine h Tx P) := .same fun n a n' hl hr => readMemory_ok hl hr
theorem read_fine (ht : Texts h Tx) {a m : Word} : Triple (Fine h Tx P) (readText h a m) (fun _ => Fine h Tx P) := by
  intro n r n' hf hr
  rw [(readText_ok ht hf.good hr).1]
  exact hf
theorem get_fine : Triple (Fine h Tx P) (Job.get : N Native) (fun _ => Fine h Tx P) := .get fun s hs => hs
theorem ofExcept_fine {α : Type} {x : Except Err α} : Triple (Fine h Tx P) (Job.ofExcept x : N α) (fun _ => Fine h Tx P) :=
  .ofExcept fun s a _ hs => hs
theorem pure_fine {α : Type} {x : α} : Triple (Fine h Tx P) (pure x : N α) (fun _ => Fine h Tx P) := .pure fun s hs => hs

theorem setRegisters_fine {m : Map Str Word} : Triple (Fine h Tx P) (setRegisters h c m) (fun _ => Fine h Tx P) := by
  refine .lift setRegisters_good fun n u n' hf hr => ?_
  obtain ⟨h1, h2⟩ := proc_ok hr
  exact setRegisters_stood hf.good.rest hf.stood h1

theorem setRegister_fine {s : Str} {v : Word} : Triple (Fine h Tx P) (setRegister h c s v) (fun _ => Fine h Tx P) := by
  unfold setRegister
  refine getRegisters_fine.bind fun r => ?_
  split
  · exact setRegisters_fine
  · exact .throw

theorem setFloat_fine {s : Str} {v : Word} : Triple (Fine h Tx P) (setFloatRegister h c s v) (fun _ => Fine h Tx P) := by
  refine .lift setFloat_good ?_
  unfold setFloatRegister
  refine getFloats_fine.bind fun r => ?_
  split
  · intro n u n' hf hr
    obtain ⟨h1, h2⟩ := proc_ok hr
    exact setFloats_stood hf.good.rest hf.stood h1
  · exact .throw

theorem setMemory_fine {a : Word} {l : List Word} {n n' : Native} (hf : Fine h Tx P n)
    (hs : ∀ j, j < l.length → n.link.vm.cpu.settled (a + BitVec.ofNat 64 j)) (hr : setMemory h c a l n = (.ok (), n')) : Fine h Tx P n' := by
  refine ⟨setMemory_good _ _ _ hf.good hr, ?_, hf.wf⟩
  obtain ⟨h1, h2⟩ := proc_ok hr
  unfold Proc.writeMemory at h1
  split at h1
  · cases h1
  · exact pokeLoop_stood hf.good.rest hf.stood hs h1

theorem unwatch_fine {a : Word} : Triple (Fine h Tx P) (removeWatchpoint h a) (fun _ => Fine h Tx P) := by
  refine .lift unwatch_good fun n u n' hf hr => ?_
  obtain ⟨i, _, h1⟩ := removeWatchpoint_ok hf.good.rest hr
  rw [h1]
  exact hf.stood

theorem mem_activate {i : Nat} {m r : Map Str Word} (hr : Arch.activate i m = .ok r) {p : Str × Word} (hp : p ∈ r) :
    p ∈ m ∨ p.1 = Arch.debugName 4 := by
  unfold Arch.activate at hr
  obtain ⟨v, _, hr⟩ := ebind_ok hr
  cases hr
  rcases mem_assign hp with hp | rfl
  · exact .inl hp
  · exact .inr rfl

theorem watch_fine {a : Word} : Triple (Fine h Tx P) (setWatchpoint h a) (fun _ => Fine h Tx P) := by
  refine .lift watch_good fun n u n' hf hr => ?_
  unfold setWatchpoint at hr
  obtain ⟨m, n1, e1, hr⟩ := bind_ok hr
  cases e1
  cases hfa : n.wps.find a with
  | some i => rw [hfa] at hr; cases hr
  | none =>
    cases hfr : freeRegister n.wps with
    | none => rw [hfa, hfr] at hr; cases hr
    | some i =>
      rw [hfa, hfr] at hr
      simp only at hr
      obtain ⟨regs, n2, e2, hr2⟩ := bind_ok hr
      obtain ⟨e3, e4⟩ := proc_ok e2
      obtain ⟨e5, e6⟩ := fetchDebugs_eq hf.good.rest e3
      rw [e5] at e4
      rw [e4] at hr2
      obtain ⟨r1, n3, e7, hr3⟩ := bind_ok hr2
      have hn3 : n3 = n := (congrArg Prod.snd e7).symm
      have e7 : Arch.setDebugRegister i a regs = .ok r1 := congrArg Prod.fst e7
      rw [hn3] at hr3
      obtain ⟨r2, n4, e8, hr4⟩ := bind_ok hr3
      have hn4 : n4 = n := (congrArg Prod.snd e8).symm
      have e8 : Arch.activate i r1 = .ok r2 := congrArg Prod.fst e8
      rw [hn4] at hr4
      obtain ⟨v, n5, e9, hr5⟩ := bind_ok hr4
      cases hr5
      obtain ⟨e10, _⟩ := proc_ok e9
      have hi := (freeRegister_some hfr).1
      refine setDebugs_stood hf.good.rest hf.stood ?_ e10
      intro p hp
      rcases mem_activate e8 hp with hp | hp
      · unfold Arch.setDebugRegister at e7
        split at e7
        · cases e7
        · obtain ⟨w, _, e7⟩ := ebind_ok e7
          cases e7
          rcases mem_assign hp with hp | rfl
          · rw [e6] at hp
            obtain ⟨j, _, h2, h3⟩ := mem_listing hp
            have := hf.good.watch.length
            exact ⟨j, by omega, h3⟩
          · exact ⟨i, by omega, rfl⟩
      · exact ⟨4, by omega, hp⟩

theorem mem_save {s : Str} : ∀ {l : List Str} {bps : Map Word Bp} {a : Word}, s ∈ (save bps a l).2 → s = Arch.breakpointOpcode ∨ s ∈ l
  | [], bps, a, hs => by cases hs
  | t :: l, bps, a, hs => by
    unfold save at hs
    split at hs
    · rcases List.mem_cons.1 hs with rfl | hs
      · exact .inl rfl
      · exact (mem_save hs).imp id (List.mem_cons_of_mem _)
    · rcases List.mem_cons.1 hs with rfl | hs
      · exact .inr (List.mem_cons_self ..)
      · exact (mem_save hs).imp id (List.mem_cons_of_mem _)

theorem forall₂_mem {α β : Type} {R : α → β → Prop} {l : List α} {m : List β} (h : List.Forall₂ R l m) {x : α} (hx : x ∈ l) :
    ∃ y ∈ m, R x y := by
  induction h with
  | nil => cases hx
  | cons h _ ih =>
    rcases List.mem_cons.1 hx with rfl | hx
    · exact ⟨_, List.mem_cons_self .., h⟩
    · obtain ⟨y, hy, h⟩ := ih hx
      exact ⟨y, List.mem_cons_of_mem _ hy, h⟩

theorem write_fine (ht : Texts h Tx) {a : Word} {l : List Str} {n n' : Native} {P' : List Instr} (hf : Fine h Tx P n)
    (hr : writeText h a l n = (.ok (), n')) (hx : (Op.write a l).Text h Tx n P P') (hw : ∀ i ∈ P', i.wf h.cfg = true) : Fine h Tx P' n' := by
  refine ⟨write_good ht hf.good hr hx, ?_, hw⟩
  obtain ⟨is, h1, h2, rfl, h3⟩ := hx
  unfold writeText at hr
  obtain ⟨size, n1, e1, hr⟩ := bind_ok hr
  obtain ⟨rfl, hsz, rfl⟩ := textSize_ok hf.good.rest e1
  split at hr
  · cases hr
  · obtain ⟨n2, n3, e2, hr⟩ := bind_ok hr
    cases e2
    obtain ⟨u, n4, e3, hr⟩ := bind_ok hr
    cases e3
    obtain ⟨e4, e5⟩ := proc_ok hr
    refine writeText_stood hf.good.rest hf.stood ?_ e4
    intro s hs
    rcases mem_save hs with rfl | hs
    · refine ⟨by decide, fun i hi => ?_⟩
      have hb := (plain_bkpt h).means.1
      rw [print_bkpt] at hb
      rw [hb] at hi
      cases hi
      rfl
    · obtain ⟨i, hi, hx⟩ := forall₂_mem h1 hs
      obtain ⟨h4, h5⟩ := ht.means hx
      refine ⟨h5, fun j hj => ?_⟩
      rw [h4] at hj
      cases hj
      refine hw _ ?_
      unfold overwrite
      simp [hi]

theorem adjust_fine {e : Event} : Triple (Fine h Tx P) (adjust h c e) (fun _ => Fine h Tx P) := by
  unfold adjust
  split
  · refine getRegisters_fine.bind fun r => ?_
    refine Triple.bind (q := fun _ => Fine h Tx P) (.ofExcept fun s a _ hg => hg) fun ip => ?_
    exact setRegisters_fine.bind fun _ => .pure fun s hs => hs
  · exact .pure fun s hs => hs

theorem wait_fine : Triple (FineGone h Tx P) (waitEvent h c) (fun _ => Fine h Tx P) := by
  intro n e n' hg hr
  refine ⟨wait_good _ _ _ hg.gone hr, ?_, hg.wf⟩
  unfold waitEvent at hr
  obtain ⟨m, n1, h1, hr⟩ := bind_ok hr
  cases h1
  cases hc : n.cached with
  | some e' =>
    rw [hc] at hr
    obtain ⟨u, n2, h2, hr⟩ := bind_ok hr
    cases h2
    refine (adjust_fine (P := P) (Tx := Tx) _ _ _ ?_ hr).stood
    rcases hg.gone.away with ⟨h1, _⟩ | h1
    · rw [hc] at h1; cases h1
    · exact ⟨⟨h1, hg.gone.text, hg.gone.watch, rfl⟩, hg.stood, hg.wf⟩
  | none =>
    rw [hc] at hr
    obtain ⟨u, n2, h2, hr⟩ := bind_ok hr
    obtain ⟨h3, h4⟩ := proc_ok h2
    have hrest : Rest n.link.vm.cpu.prog n.link.vm.cpu.dbg n2.link := by
      rcases hg.gone.away with ⟨_, h1⟩ | h1
      · exact wait_ok h1 h3
      · exact wait_ok ⟨h1.1, rfl, .refl _, .inl h1.2⟩ h3
    have hst : Stood h n2.link.vm := by
      unfold Proc.wait at h3
      obtain ⟨a, t, g1, g2⟩ := Job.bind_ok h3
      have hv : n.link.toVm = [] := by
        rcases hg.gone.away with ⟨_, h1⟩ | h1
        · exact h1.1
        · exact h1.1
      cases a with
      | none => cases g2
      | some m =>
        simp only at g2
        split at g2
        · cases g2
          exact wait_stood hv hg.stood g1
        · cases g2
    have hg2 : Fine h Tx P n2 := by
      refine ⟨?_, hst, hg.wf⟩
      rw [h4]
      exact ⟨hrest.1, by rw [hrest.2.1]; exact hg.gone.text, hg.gone.watch.marks hrest.2.2, hc⟩
    obtain ⟨r, n3, h5, hr1⟩ := bind_ok hr
    obtain ⟨h6, h7⟩ := proc_ok h5
    have h8 := (getReason_ok hg2.good.rest h6).1
    rw [h8] at h7
    rw [h7] at hr1
    obtain ⟨ev, n4, h9, hr2⟩ := bind_ok hr1
    have := mapReason_ok hg2.good.rest h9
    rw [this] at hr2
    exact (adjust_fine (P := P) (Tx := Tx) _ _ _ hg2 hr2).stood

theorem rawStep_fine : Triple (Fine h Tx P) (rawStep h c) (fun _ => Fine h Tx P) := by
  unfold rawStep
  refine Triple.bind (q := fun _ => FineGone h Tx P) ?_ fun _ => wait_fine
  intro n u n' hf hr
  obtain ⟨h1, h2⟩ := proc_ok hr
  have hg := hf.good
  have := go_ok (Q := n.link.vm.cpu.prog) (D := n.link.vm.cpu.dbg) ⟨hg.rest, rfl, .refl _⟩ (.inr (Proto.parse_step h)) h1
  refine ⟨?_, go_stood hg.rest hf.stood (.inr (Proto.parse_step h)) h1, hf.wf⟩
  rw [h2]
  refine ⟨.inl ⟨hg.fresh, ?_⟩, ?_, ?_⟩
  · exact ⟨this.1, rfl, .refl _, this.2.2.2⟩
  · rw [this.2.1]; exact hg.text
  · exact hg.watch.marks this.2.2.1

theorem resume_fineGone : Triple (Fine h Tx P) (proc (Proc.resume h)) (fun _ => FineGone h Tx P) := by
  intro n u n' hf hr
  refine ⟨resume_gone _ _ _ hf.good hr, ?_, hf.wf⟩
  obtain ⟨h1, h2⟩ := proc_ok hr
  exact go_stood hf.good.rest hf.stood (.inl (Proto.parse_cont h)) h1

theorem step_fine (ht : Texts h Tx) : ∀ fuel, Triple (Fine h Tx P) (singleStepLoop h c fuel) (fun _ => Fine h Tx P)
  | 0 => .throw
  | fuel + 1 => by
    unfold singleStepLoop
    refine getIP_fine.bind fun ip => get_fine.bind fun n => ?_
    split
    · exact (disable_fine ht).bind fun _ => (step_fine ht fuel).bind fun e => (enable_fine ht).bind fun _ => .pure fun s hs => hs
    · exact rawStep_fine

theorem singleStep_fine (ht : Texts h Tx) : Triple (Fine h Tx P) (singleStep h c) (fun _ => Fine h Tx P) := step_fine ht 2

theorem stepOverBreakpoint_fine (ht : Texts h Tx) {ip : Word} : Triple (Fine h Tx P) (stepOverBreakpoint h c ip) (fun _ => Fine h Tx P) :=
  (disable_fine ht).bind fun _ => (singleStep_fine ht).bind fun e => (enable_fine ht).bind fun _ => .pure fun s hs => hs

theorem continue_fineGone (ht : Texts h Tx) : Triple (Fine h Tx P) (continue' h c) (fun _ => FineGone h Tx P) := by
  unfold continue'
  refine getIP_fine.bind fun ip => get_fine.bind fun n => ?_
  split
  · refine (stepOverBreakpoint_fine ht).bind fun e => ?_
    split
    · exact .modify fun s hs => ⟨⟨.inr hs.good.rest, hs.good.text, hs.good.watch⟩, hs.stood, hs.wf⟩
    · exact resume_fineGone
  · exact resume_fineGone

theorem over_fine (ht : Texts h Tx) {ip bp : Word} : ∀ fuel, Triple (Fine h Tx P) (overLoop h c ip bp fuel) (fun _ => Fine h Tx P)
  | 0 => .throw
  | fuel + 1 => by
    unfold overLoop
    refine (continue_fineGone ht).bind fun _ => wait_fine.bind fun e => getRegister_fine.bind fun bp' => getIP_fine.bind fun ip' => ?_
    split
    · exact over_fine ht fuel
    · exact .pure fun s hs => hs

theorem stepOver_fine (ht : Texts h Tx) {fuel : Nat} {skip : Bool} : Triple (Fine h Tx P) (stepOver h c fuel skip) (fun _ => Fine h Tx P) := by
  unfold stepOver
  refine getIP_fine.bind fun ip => (read_fine ht).bind fun text => ofExcept_fine.bind fun s => ?_
  split
  · refine get_fine.bind fun n => ?_
    dsimp only
    repeat' first
      | exact pure_fine
      | exact set_fine ht
      | exact unset_fine ht
      | exact singleStep_fine ht
      | exact getRegister_fine
      | exact getIP_fine
      | exact over_fine ht fuel
      | refine Triple.bind (q := fun _ => Fine h Tx P) ?_ fun _ => ?_
      | split
  · split
    · exact singleStep_fine ht
    · exact rawStep_fine

theorem stepOut_fine (ht : Texts h Tx) {fuel : Nat} : ∀ k skip, Triple (Fine h Tx P) (stepOutLoop h c fuel k skip) (fun _ => Fine h Tx P)
  | 0, _ => .throw
  | k + 1, skip => by
    unfold stepOutLoop
    refine getIP_fine.bind fun ip => (read_fine ht).bind fun text => ofExcept_fine.bind fun s => (stepOver_fine ht).bind fun e => ?_
    split
    · exact pure_fine
    · exact stepOut_fine ht k false

theorem careful_fine {prog : List Instr} {data : List Word} {inp : List (BitVec 8)} {n : Native} (ht : Texts h Tx)
    (hs : prog.length < 2 ^ 63) (hp : ∀ i ∈ prog, Plain h i) (hset : Setup h.cfg prog data)
    (hx : Careful h c Tx prog data inp P n) : Fine h Tx P n := by
  induction hx with
  | begin hb =>
    refine wait_fine _ _ _ ⟨start_gone hs hp, ?_, hset.wf⟩ hb
    exact ⟨_, start_matches hset.station hset.wf hset.data, fit_start⟩
  | @call P P' n n' o _ hr hx hsafe ih =>
    cases o with
    | set a => cases hx; exact set_fine ht _ _ _ ih hr
    | unset a => cases hx; exact unset_fine ht _ _ _ ih hr
    | enable a => cases hx; exact enable_fine ht _ _ _ ih hr
    | disable a => cases hx; exact disable_fine ht _ _ _ ih hr
    | write a l => exact write_fine ht ih hr hx hsafe
    | read a m => cases hx; exact ((read_fine ht).bind fun _ => pure_fine) _ _ _ ih hr
    | registers => cases hx; exact (getRegisters_fine.bind fun _ => pure_fine) _ _ _ ih hr
    | setRegister s v => cases hx; exact setRegister_fine _ _ _ ih hr
    | floats => cases hx; exact (getFloats_fine.bind fun _ => pure_fine) _ _ _ ih hr
    | setFloat s v => cases hx; exact setFloat_fine _ _ _ ih hr
    | readMemory a m => cases hx; exact (readMemory_fine.bind fun _ => pure_fine) _ _ _ ih hr
    | writeMemory a l => cases hx; exact setMemory_fine ih hsafe hr
    | watch a => cases hx; exact watch_fine _ _ _ ih hr
    | unwatch a => cases hx; exact unwatch_fine _ _ _ ih hr
    | step => cases hx; exact ((singleStep_fine ht).bind fun _ => pure_fine) _ _ _ ih hr
    | raw => cases hx; exact (rawStep_fine.bind fun _ => pure_fine) _ _ _ ih hr
    | over fuel skip => cases hx; exact ((stepOver_fine ht).bind fun _ => pure_fine) _ _ _ ih hr
    | out fuel => cases hx; exact ((stepOut_fine ht _ _).bind fun _ => pure_fine) _ _ _ ih hr
    | go => cases hx; exact ((continue_fineGone ht).bind fun _ => wait_fine.bind fun _ => pure_fine) _ _ _ ih hr

end Native

theorem Careful.session {h : Host} {c : Client} {Tx : Str → Instr → Prop} {prog P : List Instr} {data : List Word} {inp : List (BitVec 8)}
    {n : Native} (hx : Careful h c Tx prog data inp P n) : Session h c Tx prog data inp P n := by
  induction hx with
  | begin hb => exact .begin hb
  | call o _ hr hx _ ih => exact .call o ih hr hx

end T86
