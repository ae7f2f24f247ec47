import Verif.Spec.Over
import Verif.Lemmas.SourceStep
import Verif.Lemmas.Track

/-! Stepping over calls, whatever is met on the way. -/

set_option linter.unusedSimpArgs false
set_option linter.unusedVariables false

namespace T86
open Dbg Str Isa Job Native

namespace Isa
variable {cfg : Cfg} {P : List Instr} {dbg : List Word} {stop stop' : State → Prop} {wps : Map Word Nat}

theorem Clear.weaken (hs : ∀ t, stop' t → stop t) : ∀ {k : Nat} {s t : State}, Clear cfg P dbg stop k s t → Clear cfg P dbg stop' k s t
  | 0, _, _, h => h
  | _ + 1, _, _, ⟨h1, h2, h3, u, h4, h5⟩ => ⟨h1, fun q => h2 (hs _ q), h3, u, h4, h5.weaken hs⟩

theorem Clear.add : ∀ {j : Nat} {s t u : State} {k : Nat}, Clear cfg P dbg stop j s t → Clear cfg P dbg stop k t u →
    Clear cfg P dbg stop (j + k) s u
  | 0, s, t, u, k, h, h' => by
    have : t = s := h
    subst this
    rw [Nat.zero_add]; exact h'
  | j + 1, s, t, u, k, ⟨h1, h2, h3, v, h4, h5⟩, h' => by
    rw [Nat.add_right_comm]
    exact ⟨h1, h2, h3, v, h4, h5.add h'⟩

theorem Clear.ran {j : Nat} {s t s' : State} {e : Event} (h : Clear cfg P dbg stop j s t) (hr : Ran cfg P dbg stop wps false t e s') :
    Ran cfg P dbg stop wps false s e s' := by
  cases hr with
  | halt h1 h2 h3 => exact .halt (h.add h1) h2 (by simp)
  | single h1 h2 h3 => cases h3
  | breakpoint h1 h2 h3 h4 => exact .breakpoint (h.add h1) h2 h3 (by simp)
  | watch h1 h2 h3 h4 h5 h6 h7 h8 => exact .watch (h.add h1) h2 h3 h4 h5 h6 h7 (by simp)

theorem Ran.change {trap : Bool} {s s' : State} {e : Event} (hs : ∀ t, stop' t → stop t) (hr : Ran cfg P dbg stop wps trap s e s')
    (he : e = .breakpoint s'.pc → stop s' → stop' s') : Ran cfg P dbg stop' wps trap s e s' := by
  cases hr with
  | halt h1 h2 h3 => exact .halt (h1.weaken hs) h2 h3
  | single h1 h2 h3 => exact .single (h1.weaken hs) h2 h3
  | breakpoint h1 h2 h3 h4 => exact .breakpoint (h1.weaken hs) h2 (h3.imp (he rfl) id) h4
  | watch h1 h2 h3 h4 h5 h6 h7 h8 => exact .watch (h1.weaken hs) h2 (fun q => h3 (hs _ q)) h4 h5 h6 h7 h8

/-- One instruction that is no stop. -/
theorem Ran.once {s s1 : State} (hr : Ran cfg P dbg (fun _ => False) wps true s .singlestep s1) (hn : ¬ stop s) :
    Clear cfg P dbg stop 1 s s1 := by
  cases hr with
  | single h1 h2 h3 =>
    obtain ⟨g1, g2, g3, t, g4, g5⟩ := h1
    exact ⟨g1, hn, g3, t, g4, g5⟩

theorem Ran.lastly {s s' : State} {e : Event} (hr : Ran cfg P dbg (fun _ => False) wps true s e s') (hn : ¬ stop s)
    (he : e ≠ .singlestep) : Ran cfg P dbg stop wps false s e s' := by
  cases hr with
  | halt h1 h2 h3 =>
    have := h3 rfl
    subst this
    obtain ⟨g1, g2, g3, t, g4, g5⟩ := h1
    exact .halt (k := 1) ⟨g1, hn, g3, t, g4, g5⟩ h2 (by simp)
  | single h1 h2 h3 => exact absurd rfl he
  | breakpoint h1 h2 h3 h4 =>
    have := h4 rfl
    subst this
    have : s' = s := h1
    subst this
    exact .breakpoint (k := 0) rfl h2 (.inr (h3.resolve_left id)) (by simp)
  | watch h1 h2 h3 h4 h5 h6 h7 h8 =>
    have := h8 rfl
    subst this
    have := (show _ = s from h1)
    subst this
    exact .watch (k := 0) rfl h2 hn h4 h5 h6 h7 (by simp)

theorem Onward.ran {here : Prop} {s s' : State} {e : Event} (ho : Onward cfg P dbg here stop wps s e s') (hn : ¬ stop s) :
    Ran cfg P dbg stop wps false s e s' := by
  cases ho with
  | free h1 h2 => exact h2
  | last h1 h2 h3 => exact h2.lastly hn h3
  | on h1 h2 h3 => exact (h2.once hn).ran h3

theorem backAt_sub {A : Word → Prop} {ret bp : Word} (t : State) (h : backAt A ret bp t) : A t.pc := h.1

/-- The last pass. -/
theorem Went.onward {A : Word → Prop} {ret bp : Word} {s s' : State} {e : Event}
    (hw : Went cfg P dbg (fun t => A t.pc) wps false s e s') (hend : ¬ (Event.isBreakpoint e = true ∧ s'.pc = ret ∧ bp ≠ s'.reg (.int .bp))) :
    Onward cfg P dbg (A s.pc) (backAt A ret bp) wps s e s' := by
  have hfin : e = .breakpoint s'.pc → A s'.pc → backAt A ret bp s' := by
    rintro rfl hA
    refine ⟨hA, fun hret => ?_⟩
    by_contra hne
    exact hend ⟨rfl, hret, fun q => hne q.symm⟩
  cases hw with
  | free h1 h2 => exact .free h1 (h2.change backAt_sub hfin)
  | last h1 h2 h3 => exact .last h1 h2 h3
  | on h1 h2 h3 => exact .on h1 h2 (h3.change backAt_sub hfin)

/-- A pass that ends after the call of an inner activation. -/
theorem Went.again {A : Word → Prop} {ret bp : Word} {s s1 s' : State} {e e1 : Event} (hb : ∀ a, A a → instrAt P a ≠ .bkpt)
    (hw : Went cfg P dbg (fun t => A t.pc) wps false s e1 s1) (he : Event.isBreakpoint e1 = true) (hpc : s1.pc = ret) (hbp : bp ≠ s1.reg (.int .bp))
    (ho : Onward cfg P dbg (A s1.pc) (backAt A ret bp) wps s1 e s') :
    Onward cfg P dbg (A s.pc) (backAt A ret bp) wps s e s' := by
  have hn : ¬ backAt A ret bp s1 := fun q => hbp (q.2 hpc).symm
  have hr := ho.ran hn
  have key : ∀ {t : State}, Ran cfg P dbg (fun t => A t.pc) wps false t e1 s1 → Ran cfg P dbg (backAt A ret bp) wps false t e s' := by
    intro t q
    cases q with
    | halt h1 h2 h3 => cases he
    | single h1 h2 h3 => cases h3
    | breakpoint h1 h2 h3 h4 => exact (h1.weaken backAt_sub).ran hr
    | watch h1 h2 h3 h4 h5 h6 h7 h8 => cases he
  cases hw with
  | free h1 h2 => exact .free h1 (key h2)
  | last h1 h2 h3 =>
    exfalso
    cases h2 with
    | halt _ _ _ => cases he
    | single _ _ _ => cases he
    | breakpoint g1 g2 g3 g4 =>
      have := g4 rfl
      subst this
      have : s1 = s := g1
      subst this
      exact hb _ h1 (g3.resolve_left id)
    | watch _ _ _ _ _ _ _ _ => cases he
  | on h1 h2 h3 => exact .on h1 h2 (key h3)

/-- A program that ends has executed HALT. -/
theorem Clear.halts : ∀ {k : Nat} {s s' : State}, Clear cfg P dbg stop k s s' → s'.halted = true →
    s' = s ∨ instrAt P (s'.pc - 1) = .halt
  | 0, _, _, h, _ => .inl h
  | k + 1, s, s', ⟨h1, _, _, t, h4, h5⟩, hh => by
    refine .inr ?_
    rcases h5.halts hh with rfl | q
    · by_cases hi : instrAt P s.pc = .halt
      · have : s'.pc = s.pc + 1 := by
          unfold step at h4
          rw [hi] at h4
          cases h4
          rfl
        rw [this]
        have e : s.pc + 1 - 1 = s.pc := BitVec.add_sub_cancel ..
        rw [e]; exact hi
      · have := exec_halted h4 hi
        rw [hh, h1] at this
        cases this
    · exact q

theorem Ran.halts {trap : Bool} {s s' : State} (hr : Ran cfg P dbg stop wps trap s .end' s') :
    s' = s ∨ instrAt P (s'.pc - 1) = .halt := by
  cases hr with
  | halt h1 h2 h3 => exact h1.halts h2

theorem Onward.halts {here : Prop} {s s' : State} (hr : Onward cfg P dbg here stop wps s .end' s') :
    s' = s ∨ instrAt P (s'.pc - 1) = .halt := by
  cases hr with
  | free h1 h2 => exact h2.halts
  | last h1 h2 h3 => exact h2.halts
  | on h1 h2 h3 =>
    rcases h3.halts with rfl | q
    · cases h3 with
      | halt g1 g2 g3 =>
        cases h2 with
        | single _ g4 _ => rw [g4] at g2; cases g2
    · exact .inr q

theorem CallsFree.later {s t : State} {k : Nat} (hc : CallsFree cfg P wps s) (hr : runs cfg P k s t) : CallsFree cfg P wps t :=
  fun l u o a h1 h2 h3 h4 => hc (k + l) u o a (runs_append hr h1) h2 h3 h4

/-- An instruction that writes and is no call is followed by the next one. -/
theorem write_next {s s' : State} {i : Instr} {a : Word} (hw : writeAddr s i = some a) (hi : ∀ o, i ≠ .call o) (he : exec cfg s i = .ok s') :
    s'.pc = s.pc + 1 := by
  have hst : ∀ {u : State} {x y : Word}, s.store x y = .ok u → u.pc = s.pc := by
    intro u x y h
    unfold State.store at h
    split at h <;> cases h
    rfl
  cases i <;> try (cases hw; done)
  case call o => exact absurd rfl (hi o)
  case mov dst v =>
    obtain ⟨x, h1, he⟩ := bind_ok_iff.1 (show (s.operand v >>= _) = _ from he)
    cases dst <;> try (cases hw; done)
    case memImm b _ =>
      obtain ⟨u, h2, he⟩ := bind_ok_iff.1 (show (s.store b x >>= _) = _ from he)
      cases he
      show u.pc + 1 = _
      rw [hst h2]
    case mem b _ =>
      obtain ⟨u, h2, he⟩ := bind_ok_iff.1 (show (s.store (ea s.get b) x >>= _) = _ from he)
      cases he
      show u.pc + 1 = _
      rw [hst h2]
  case push v =>
    obtain ⟨x, h1, he⟩ := bind_ok_iff.1 (show (s.operand v >>= _) = _ from he)
    obtain ⟨u, h2, he⟩ := bind_ok_iff.1 (show (s.store (s.get (.int .sp) - 1) x >>= _) = _ from he)
    cases he
    show u.pc + 1 = _
    rw [hst h2]
  case fpush v =>
    obtain ⟨x, h1, he⟩ := bind_ok_iff.1 (show (s.operand v >>= _) = _ from he)
    obtain ⟨u, h2, he⟩ := bind_ok_iff.1 (show (s.store (s.get (.int .sp) - 1) x >>= _) = _ from he)
    cases he
    show u.pc + 1 = _
    rw [hst h2]

theorem Onward.runs {here : Prop} {s s' : State} {e : Event} (hr : Onward cfg P dbg here stop wps s e s') : ∃ k, Isa.runs cfg P k s s' := by
  cases hr with
  | free _ h1 => exact h1.runs
  | last _ h1 => exact h1.runs
  | on _ h1 h2 =>
    obtain ⟨k, h1⟩ := h1.runs
    obtain ⟨l, h2⟩ := h2.runs
    exact ⟨_, runs_append h1 h2⟩

theorem OverStep.runs {has armed : Word → Prop} {skip : Bool} {s s' : State} {e : Event} (hr : OverStep cfg P dbg has armed wps skip s e s') :
    ∃ k, Isa.runs cfg P k s s' := by
  cases hr with
  | plain _ h1 => exact h1.runs
  | call _ _ h1 h2 =>
    obtain ⟨k, h1⟩ := h1.runs
    obtain ⟨l, h2⟩ := h2.runs
    exact ⟨_, runs_append h1 h2⟩
  | callOn _ _ h2 => exact h2.runs

/-- A watched write is not followed by the instruction after a call. -/
theorem Onward.watch_pc {here : Prop} {s s' : State} {a ip : Word} {o : Operand} (hc : CallsFree cfg P wps s) (hi : instrAt P ip = .call o)
    (hr : Onward cfg P dbg here stop wps s (.watchpoint a) s') : s'.pc ≠ ip + 1 := by
  have key : ∀ {stop : State → Prop} {trap : Bool} {s : State}, CallsFree cfg P wps s → Ran cfg P dbg stop wps trap s (.watchpoint a) s' →
      s'.pc ≠ ip + 1 := by
    intro _ _ s hc q hp
    cases q with
    | @watch k _ s1 _ h1 h2 h3 h4 h5 h6 h7 h8 =>
      have hn : ∀ o, instrAt P s1.pc ≠ .call o := by
        intro o ho
        rw [ho] at h4
        rw [hc k s1 o a h1.runs h2 ho h4] at h5
        cases h5
      have := write_next h4 hn h6
      rw [hp] at this
      have : ip = s1.pc := (BitVec.add_left_inj 1).1 this
      exact hn o (by rw [← this]; exact hi)
  cases hr with
  | free h1 h2 => exact key hc h2
  | last h1 h2 h3 => exact key hc h2
  | on h1 h2 h3 =>
    obtain ⟨k, h2⟩ := h2.runs
    exact key (hc.later h2) h3

theorem Onward.no_single {here : Prop} {s s' : State} (hr : Onward cfg P dbg here stop wps s .singlestep s') : False := by
  have key : ∀ {s : State}, Ran cfg P dbg stop wps false s .singlestep s' → False := by
    intro _ q
    cases q with
    | single h1 h2 h3 => cases h3
  cases hr with
  | free h1 h2 => exact key h2
  | last h1 h2 h3 => exact h3 rfl
  | on h1 h2 h3 => exact key h3

end Isa

variable {h : Host} {c : Client} {Tx : Str → Instr → Prop} {P : List Instr}

/-- The loop of `PerformStepOver`. -/
theorem overLoop_all (ht : Texts h Tx) {ip bp : Word} {A : Word → Prop} (hb : ∀ a, A a → instrAt P a ≠ .bkpt) :
    ∀ {fuel : Nat} {n n' : Native} {d : Dbg} {e : Event}, Fine h Tx P n → View h n d → d.trap = false →
      (∀ b, armed n b = true ↔ A b) → overLoop h c ip bp fuel n = (.ok e, n') →
      ∃ d', Onward h.cfg P d.dbg (A d.state.pc) (backAt A (ip + 1) bp) n.wps d.state e d'.state ∧ View h n' d' ∧ Fine h Tx P n' ∧
        Native.Kept n n' ∧ n'.link.dead = false ∧ (∃ why, d'.phase = .stopped why) ∧
        ((∀ a, e ≠ .watchpoint a) → d'.dbg = d.dbg) ∧ (Event.isBreakpoint e = true → d'.trap = false) := by
  intro fuel
  induction fuel with
  | zero => intro n n' d e _ _ _ _ hr; cases hr
  | succ fuel ih =>
    intro n n' d e hf hv htrap harm hr
    change (continue' h c >>= fun _ => waitEvent h c >>= fun e => getRegister h "BP".toList >>= fun bp' => getIP h >>= fun ip' =>
      if Event.isBreakpoint e ∧ ip' = ip + 1 ∧ bp ≠ bp' then overLoop h c ip bp fuel else pure e) n = _ at hr
    obtain ⟨u, n1, h1, hr⟩ := bind_ok hr
    obtain ⟨e1, n2, h2, hr⟩ := bind_ok hr
    obtain ⟨d1, w1, w2, w3, w4, w5, w6, w7⟩ := continue_view ht hf hv (fun ha => hb _ ((harm _).1 ha)) h1 h2
    have hf2 : Fine h Tx P n2 := wait_fine _ _ _ (continue_fineGone ht _ _ _ hf h1) h2
    have hstops : stops n = fun t => A t.pc := by
      funext t
      exact propext (harm t.pc)
    rw [hstops, htrap] at w1
    obtain ⟨bp', n3, h3, hr⟩ := bind_ok hr
    obtain ⟨rfl, _, _, rfl⟩ := getBP_view w2 h3
    obtain ⟨ip', n4, h4, hr⟩ := bind_ok hr
    obtain ⟨rfl, _, _, rfl⟩ := getIP_view w2 h4
    have htr : Event.isBreakpoint e1 = true → d1.trap = false := fun he => by
      refine w7 ?_ ?_ htrap ?_
      · rintro rfl; cases he
      · rintro a rfl; cases he
      · rintro rfl; cases he
    split at hr
    · rename_i hcond
      obtain ⟨dd, z1, z2, z3, z4, z5, z6, z7, z8⟩ := ih hf2 w2 (htr hcond.1) (fun b => by rw [w3.armed]; exact harm b) hr
      have hne : ∀ a, e1 ≠ .watchpoint a := by rintro a rfl; cases hcond.1
      rw [w5 hne, w3.wps] at z1
      exact ⟨dd, w1.again hb hcond.1 hcond.2.1 hcond.2.2 z1, z2, z3,
        ⟨fun a => by rw [z4.armed, w3.armed], by rw [z4.wps, w3.wps]⟩, z5, z6, fun q => by rw [z7 q, w5 hne], z8⟩
    · rename_i hcond
      cases hr
      exact ⟨d1, w1.onward hcond, w2, hf2, w3, w4, w6, w5, htr⟩

/-- Stepping over an instruction. -/
theorem over_all {n n' : Native} {d : Dbg} {fuel : Nat} {skip : Bool} {e : Event}
    (hf : Fine h (fun s i => s = i.print h.ftos ∧ Plain h i) P n) (hv : View h n d) {why : Reason} (hph : d.phase = .stopped why)
    (htrap : skip = false → d.trap = false)
    (hb : ∀ o, instrAt P d.state.pc = .call o → ∀ a, guards (fun a => (n.bps.find a).isSome = true) (fun a => Native.armed n a = true)
      (d.state.pc + 1) a → instrAt P a ≠ .bkpt)
    (hcw : ∀ o, instrAt P d.state.pc = .call o → skip = true → d.state.halted = false → ∀ a, writeAddr d.state (.call o) = some a →
      n.wps.find a = none)
    (hr : Native.stepOver h c fuel skip n = (.ok e, n')) :
    ∃ d', OverStep h.cfg P d.dbg (fun a => (n.bps.find a).isSome = true) (fun a => Native.armed n a = true) n.wps skip d.state e d'.state ∧
      View h n' d' ∧ Fine h (fun s i => s = i.print h.ftos ∧ Plain h i) P n' ∧ Native.Kept n n' ∧ n'.link.dead = false ∧
      (∀ D, Dom D n → Dom D n') ∧ (∃ why, d'.phase = .stopped why) ∧
      (CallsFree h.cfg P n.wps d.state → e = .singlestep → d'.dbg = d.dbg ∧ d'.trap = false) := by
  have ht := texts_print h
  unfold Native.stepOver at hr
  obtain ⟨ip', n1, h1, hr⟩ := Job.bind_ok hr
  obtain ⟨rfl, _, hd, rfl⟩ := getIP_view hv h1
  obtain ⟨r, n2, h2, hr⟩ := Job.bind_ok hr
  obtain ⟨rfl, g1, g2, g3⟩ := readText_ok ht hf.good h2
  have hlt : d.state.pc.toNat < P.length := by
    have : (1 : Word).toNat = 1 := rfl
    omega
  have hi := List.getElem?_eq_getElem hlt
  obtain ⟨l, rfl⟩ := over_first g2 g3 hi
  obtain ⟨s, n3, h3, hr⟩ := Job.bind_ok hr
  cases h3
  by_cases hc : Arch.isCall (P[d.state.pc.toNat].print h.ftos) = true
  · rw [if_pos hc] at hr
    obtain ⟨o, ho⟩ := (isCall_print _ _).1 hc
    have hc' : instrAt P d.state.pc = .call o := by rw [instrAt_some hi, ho]
    have hb := hb o hc'
    obtain ⟨n4, n5, h4, hr⟩ := Job.bind_ok hr
    cases h4
    dsimp only at hr
    generalize hA : guards (fun a => (n2.bps.find a).isSome = true) (fun a => Native.armed n2 a = true) (d.state.pc + 1) = A at hb
    have hpc1 : d.state.pc ≠ d.state.pc + 1 := by
      intro e
      have := congrArg BitVec.toNat e
      simp [BitVec.toNat_add] at this
      omega
    -- what follows the setting of the breakpoint
    have htail : ∀ (m : Native) (K : Event → N Event) (dm : Dbg), Fine h (fun s i => s = i.print h.ftos ∧ Plain h i) P m → View h m dm →
        Patched d dm → m.wps = n2.wps → (∀ b, Native.armed m b = true ↔ A b) →
        (if skip = true then singleStep h c >>= fun _ => getRegister h "BP".toList >>= fun bp => overLoop h c d.state.pc bp fuel >>= K
          else getRegister h "BP".toList >>= fun bp => overLoop h c d.state.pc bp fuel >>= K) m = (.ok e, n') →
        ∃ e1 m2 d2, K e1 m2 = (.ok e, n') ∧ Fine h (fun s i => s = i.print h.ftos ∧ Plain h i) P m2 ∧ View h m2 d2 ∧
          (∃ why, d2.phase = .stopped why) ∧ (∀ b, Native.armed m2 b = Native.armed m b) ∧ m2.wps = n2.wps ∧
          m2.link.dead = false ∧ (∀ D, Dom D m → Dom D m2) ∧
          OverStep h.cfg P d.dbg (fun a => (n2.bps.find a).isSome = true) (fun a => Native.armed n2 a = true) n2.wps skip d.state
            (if d2.state.pc = d.state.pc + 1 then .singlestep else e1) d2.state ∧
          (CallsFree h.cfg P n2.wps d.state → (if d2.state.pc = d.state.pc + 1 then Event.singlestep else e1) = .singlestep → d2.dbg = d.dbg ∧ d2.trap = false) := by
      intro m K dm a1 a2 a3 a4 a5 a6
      have hloop : ∀ {m1 : Native} {dm : Dbg}, Fine h (fun s i => s = i.print h.ftos ∧ Plain h i) P m1 → View h m1 dm → dm.dbg = d.dbg →
          dm.trap = false → (∀ b, Native.armed m1 b = Native.armed m b) → m1.wps = n2.wps →
          dm.state.reg (.int .bp) = d.state.reg (.int .bp) → (dm.state.pc = d.state.pc + 1 → dm.state.halted = false) →
          (∀ D, Dom D m → Dom D m1) → (CallsFree h.cfg P n2.wps d.state → CallsFree h.cfg P n2.wps dm.state) →
          (getRegister h "BP".toList >>= fun bp => overLoop h c d.state.pc bp fuel >>= K) m1 = (.ok e, n') →
          ∃ e1 m2 d2, K e1 m2 = (.ok e, n') ∧ Fine h (fun s i => s = i.print h.ftos ∧ Plain h i) P m2 ∧ View h m2 d2 ∧
            (∃ why, d2.phase = .stopped why) ∧ (∀ b, Native.armed m2 b = Native.armed m b) ∧ m2.wps = n2.wps ∧
            m2.link.dead = false ∧ (∀ D, Dom D m → Dom D m2) ∧
            Onward h.cfg P d.dbg (A dm.state.pc) (backAt A (d.state.pc + 1) (d.state.reg (.int .bp))) n2.wps dm.state e1 d2.state ∧
            (CallsFree h.cfg P n2.wps d.state → (if d2.state.pc = d.state.pc + 1 then Event.singlestep else e1) = .singlestep → d2.dbg = d.dbg ∧ d2.trap = false) := by
        intro m1 dm w1 w2 w3 w4 w5 w6 w7 w8 w9 w10 a6
        obtain ⟨bp, m2, b2, a6⟩ := Job.bind_ok a6
        obtain ⟨rfl, _, _, rfl⟩ := getBP_view w2 b2
        obtain ⟨e2, m3, b3, a6⟩ := Job.bind_ok a6
        rw [w7] at b3
        obtain ⟨d2, z1, z2, z3, z4, z5, z6, z7, z8⟩ := overLoop_all (ht := ht) hb w1 w2 w4 (fun b => by rw [w5]; exact a5 b) b3
        rw [w3, w6] at z1
        refine ⟨e2, m3, d2, a6, z3, z2, z6, fun b => by rw [z4.armed, w5], by rw [z4.wps, w6], z5,
          fun D hD => Dom.over fuel _ _ _ (w9 D hD) b3, z1, fun hw hq => ?_⟩
        by_cases hp : d2.state.pc = d.state.pc + 1
        · cases e2 with
          | breakpoint a => exact ⟨by rw [z7 (by simp), w3], z8 rfl⟩
          | watchpoint a => exact absurd hp (z1.watch_pc (w10 hw) hc')
          | singlestep => exact z1.no_single.elim
          | end' =>
            exfalso
            rcases z1.halts with q | q
            · rw [← q] at w8
              have hh := w8 hp
              have : d2.state.halted = true := by
                cases z1 with
                | free _ x => cases x with | halt _ x _ => exact x
                | last _ x _ => cases x with | halt _ x _ => exact x
                | on _ _ x => cases x with | halt _ x _ => exact x
              rw [this] at hh; cases hh
            · have : d.state.pc + 1 - 1 = d.state.pc := BitVec.add_sub_cancel ..
              rw [hp, this, hc'] at q
              cases q
          | begin => cases z1 with | free _ x => cases x | last _ x _ => cases x | on _ _ x => cases x
          | cpuError a => cases z1 with | free _ x => cases x | last _ x _ => cases x | on _ _ x => cases x
        · rw [if_neg hp] at hq
          subst hq
          exact z1.no_single.elim
      cases skip with
      | true =>
        rw [if_pos rfl] at a6
        obtain ⟨e0, m1, b1, a6⟩ := Job.bind_ok a6
        obtain ⟨d1, c1, c2, c3, c4, c5, c6, ⟨w0, c7, c8⟩, w1, c9⟩ := singleStep_view ht a1 a2 b1
        rw [a3.dbg, a4, a3.state] at c1
        have he0 : e0 = .singlestep ∧ ∃ s1, step h.cfg P d.state = .ok s1 ∧ d1.state = s1 ∧ s1.halted = false := by
          cases c1 with
          | halt q1 q2 q3 =>
            exfalso
            have := q3 rfl
            subst this
            obtain ⟨r1, r2, r3, t, r4, r5⟩ := q1
            have := exec_halted r4 (by rw [hc']; simp)
            have r5 : d1.state = t := r5
            rw [← r5, q2, r1] at this
            cases this
          | single q1 q2 q3 =>
            obtain ⟨r1, r2, r3, t, r4, r5⟩ := q1
            have r5 : d1.state = t := r5
            exact ⟨rfl, t, r4, r5, by rw [← r5]; exact q2⟩
          | breakpoint q1 q2 q3 q4 =>
            exfalso
            have := q4 rfl
            subst this
            have : d1.state = d.state := q1
            rcases q3 with q3 | q3
            · exact q3
            · rw [this, hc'] at q3; cases q3
          | watch q1 q2 q3 q4 q5 q6 q7 q8 =>
            exfalso
            have := q8 rfl
            subst this
            have q1 : _ = d.state := q1
            subst q1
            rw [hc'] at q4
            rw [hcw o hc' rfl q2 _ q4] at q5
            cases q5
        obtain ⟨rfl, s1, hst, hs1, hrun⟩ := he0
        have hf1 := singleStep_fine ht _ _ _ a1 b1
        obtain ⟨e1, m2, d2, q1, q2, q3, q4, q5, q6, q7, q8, q9, q10⟩ := hloop hf1 c2 (by rw [c5 (by simp), a3.dbg]) (by rw [c6]; rfl)
          (fun b => c3.armed b) (by rw [c3.wps, a4]) (by rw [hs1]; exact call_bp hst hc') (fun _ => by rw [hs1]; exact hrun)
          (fun D hD => Dom.singleStep _ _ _ hD b1) (fun hw => by
            obtain ⟨k, c1⟩ := c1.runs
            exact hw.later c1) a6
        subst hA
        exact ⟨e1, m2, d2, q1, q2, q3, q4, q5, q6, q7, q8, .call hc' rfl c1 q9, q10⟩
      | false =>
        rw [if_neg (by simp)] at a6
        obtain ⟨e1, m2, d2, q1, q2, q3, q4, q5, q6, q7, q8, q9, q10⟩ := hloop a1 a2 a3.dbg (by rw [a3.trap]; exact htrap rfl) (fun _ => rfl) a4
          (by rw [a3.state]) (fun q => absurd (by rw [a3.state] at q; exact q) hpc1) (fun _ hD => hD) (fun hw => by rw [a3.state]; exact hw) a6
        rw [a3.state] at q9
        subst hA
        exact ⟨e1, m2, d2, q1, q2, q3, q4, q5, q6, q7, q8, .callOn hc' rfl q9, q10⟩
    cases hex : (n2.bps.find (d.state.pc + 1)).isSome with
    | true =>
      simp only [hex, if_true] at hr
      obtain ⟨e1, m2, d2, hr, y1, y2, ⟨w, y4⟩, y5, y6, y7, y8, y9, y10⟩ := htail n2 _ d hf hv ⟨rfl, rfl, rfl, rfl⟩ rfl (fun b => by
        rw [← hA]
        exact ⟨.inl, fun q => q.elim id fun q => absurd hex q.2⟩) hr
      obtain ⟨ip2, m3, h5, hr⟩ := Job.bind_ok hr
      obtain ⟨rfl, _, _, rfl⟩ := getIP_view y2 h5
      have he : e = if d2.state.pc = d.state.pc + 1 then .singlestep else e1 := by
        by_cases hp : d2.state.pc = d.state.pc + 1
        · rw [if_pos hp]; rw [if_neg (by simpa using hp)] at hr; cases hr; rfl
        · rw [if_neg hp]; rw [if_pos hp] at hr; cases hr; rfl
      have hn' : n' = m3 := by
        by_cases hp : d2.state.pc = d.state.pc + 1
        · rw [if_neg (by simpa using hp)] at hr; cases hr; rfl
        · rw [if_pos hp] at hr; cases hr; rfl
      subst hn'
      rw [he]
      exact ⟨d2, y9, y2, y1, ⟨y5, y6⟩, y7, y8, ⟨w, y4⟩, y10⟩
    | false =>
      simp only [hex, Bool.false_eq_true, if_false] at hr
      obtain ⟨u, m, h5, hr⟩ := Job.bind_ok hr
      obtain ⟨dm, k1, k2, k3, k4, k5, k6⟩ := set_view hf.good hv hph h5
      obtain ⟨e1, m2, d2, hr, y1, y2, ⟨w, y4⟩, y5, y6, y7, y8, y9, y10⟩ := htail m _ dm (set_fine ht _ _ _ hf h5) k1 k2 k3 (fun b => by
        rw [← hA, k6]
        by_cases hq : b = d.state.pc + 1
        · rw [if_pos hq]
          exact ⟨fun _ => .inr ⟨hq, fun q => absurd (show (n2.bps.find (d.state.pc + 1)).isSome = true from q) (by rw [hex]; simp)⟩, fun _ => rfl⟩
        · rw [if_neg hq]
          exact ⟨.inl, fun q => q.elim id fun q => absurd q.1 hq⟩) hr
      obtain ⟨u, m3, h6, hr⟩ := Job.bind_ok hr
      obtain ⟨d3, j1, j2, j3, j4, j5⟩ := unset_view ht y1 y2 y4 h6
      obtain ⟨ip2, m4, h7, hr⟩ := Job.bind_ok hr
      obtain ⟨rfl, _, _, rfl⟩ := getIP_view j1 h7
      rw [j2.state] at hr
      have he : e = (if d2.state.pc = d.state.pc + 1 then .singlestep else e1) ∧ n' = m4 := by
        by_cases hp : d2.state.pc = d.state.pc + 1
        · rw [if_pos hp]; rw [if_neg (by simpa using hp)] at hr; cases hr; exact ⟨rfl, rfl⟩
        · rw [if_neg hp]; rw [if_pos hp] at hr; cases hr; exact ⟨rfl, rfl⟩
      obtain ⟨rfl, rfl⟩ := he
      refine ⟨d3, by rw [j2.state]; exact y9, j1, unset_fine ht _ _ _ y1 h6, ⟨fun b => ?_, by rw [j3, y6]⟩, by rw [j4]; exact y7, ?_,
        ⟨w, by rw [j2.phase]; exact y4⟩, fun hw he => by rw [j2.dbg, j2.trap]; exact y10 hw he⟩
      · rw [j5, y5, k6]
        by_cases hb : b = d.state.pc + 1
        · rw [if_pos hb, hb, k5]
        · rw [if_neg hb, if_neg hb]
      · intro D hD
        have e1 := Dom.set hD h5
        have e2 := y8 _ e1
        have e3 := Dom.unset e2 h6
        intro b
        rw [e3]
        show (if b = d.state.pc + 1 then false else if b = d.state.pc + 1 then true else D b) = D b
        by_cases hb : b = d.state.pc + 1
        · have hq := hD b
          rw [hb, hex] at hq
          rw [if_pos hb, hb, ← hq]
        · rw [if_neg hb, if_neg hb]
  · rw [if_neg hc] at hr
    have hn : ∀ o, instrAt P d.state.pc ≠ .call o := by
      intro o ho
      rw [instrAt_some hi] at ho
      exact hc ((isCall_print _ _).2 ⟨o, ho⟩)
    cases skip with
    | true =>
      simp only [if_true] at hr
      obtain ⟨d', b1, b2, b3, b4, b5, b6, _, b8⟩ := singleStep_view ht hf hv hr
      refine ⟨d', .plain hn (b1.change (by simp) (by simp)), b2, singleStep_fine ht _ _ _ hf hr, b3, b4, fun D hD => Dom.singleStep _ _ _ hD hr, b8, fun hw he => ⟨b5 (by rw [he]; simp), by rw [b6, if_pos he]⟩⟩
    | false =>
      simp only [Bool.false_eq_true, if_false] at hr
      obtain ⟨d', b1, b2, b3, b4, b5, b6, _, b8⟩ := rawStep_view hf.good hv hr
      refine ⟨d', .plain hn (b1.change (fun t ht => ht.2) fun _ hs => ⟨rfl, hs⟩), b2, rawStep_fine _ _ _ hf hr, ⟨fun a => by rw [b3]; rfl, by rw [b3]⟩, b4, fun D hD => Dom.rawStep _ _ _ hD hr, b8, fun hw he => ⟨b5 (by rw [he]; simp), by rw [b6, if_pos he]⟩⟩

/-- What holds between two steps over instructions. -/
structure Amid (h : Host) (P : List Instr) (D A : Word → Bool) (wps : Map Word Nat) (n : Native) (d : Dbg) : Prop where
  fine : Fine h (fun s i => s = i.print h.ftos ∧ Plain h i) P n
  view : View h n d
  phase : ∃ why, d.phase = .stopped why
  armed : ∀ a, armed n a = A a
  dom : Dom D n
  wps : n.wps = wps
  dead : n.link.dead = false

theorem Amid.over {D A : Word → Bool} {dbg : List Word} {wps : Map Word Nat}
    (hb1 : ∀ a, A a = true → instrAt P a ≠ .bkpt) (hb2 : ∀ a o, instrAt P a = .call o → instrAt P (a + 1) ≠ .bkpt)
    {n n' : Native} {d : Dbg} {fuel : Nat} {skip : Bool} {e : Event} (hm : Amid h P D A wps n d) (hdbg : d.dbg = dbg) (hw : CallsFree h.cfg P wps d.state)
    (htrap : skip = false → d.trap = false)
    (hr : Native.stepOver h c fuel skip n = (.ok e, n')) :
    ∃ d', OverStep h.cfg P dbg (fun a => D a = true) (fun a => A a = true) wps skip d.state e d'.state ∧ Amid h P D A wps n' d' ∧
      CallsFree h.cfg P wps d'.state ∧ (e = .singlestep → d'.dbg = dbg ∧ d'.trap = false) := by
  obtain ⟨why, hph⟩ := hm.phase
  have hA : (fun a => Native.armed n a = true) = fun a => A a = true := by funext a; rw [hm.armed]
  have hD : (fun a => (n.bps.find a).isSome = true) = fun a => D a = true := by funext a; rw [hm.dom]
  obtain ⟨d', a1, a2, a3, a4, a5, a6, a7, a8⟩ := over_all hm.fine hm.view hph htrap (by
    rw [hA, hD]
    intro o ho a ha
    rcases ha with ha | ⟨rfl, _⟩
    · exact hb1 a ha
    · exact hb2 _ o ho) (by
    intro o ho _ hh a ha
    rw [hm.wps]
    exact hw 0 d.state o a rfl hh ho ha) hr
  rw [hA, hD, hdbg, hm.wps] at a1
  obtain ⟨k, hk⟩ := a1.runs
  refine ⟨d', a1, ⟨a3, a2, a7, fun a => by rw [a4.armed, hm.armed], a6 _ hm.dom, by rw [a4.wps, hm.wps], a5⟩, hw.later hk, fun he => ?_⟩
  rw [← hdbg]
  exact a8 (by rw [hm.wps]; exact hw) he

theorem out_all {D A : Word → Bool} {dbg : List Word} {wps : Map Word Nat}
    (hb1 : ∀ a, A a = true → instrAt P a ≠ .bkpt) (hb2 : ∀ a o, instrAt P a = .call o → instrAt P (a + 1) ≠ .bkpt) {fo : Nat} :
    ∀ {fuel : Nat} {skip : Bool} {n n' : Native} {d : Dbg} {e : Event}, Amid h P D A wps n d → d.dbg = dbg → CallsFree h.cfg P wps d.state →
      (skip = false → d.trap = false) →
      stepOutLoop h c fo fuel skip n = (.ok e, n') →
      ∃ d', OutStep h.cfg P dbg (fun a => D a = true) (fun a => A a = true) wps skip d.state e d'.state ∧ Amid h P D A wps n' d' := by
  intro fuel
  induction fuel with
  | zero => intro skip n n' d e _ _ _ _ hr; cases hr
  | succ fuel ih =>
    intro skip n n' d e hm hdbg hw htrap hr
    unfold stepOutLoop at hr
    obtain ⟨ip', n1, h1, hr⟩ := Job.bind_ok hr
    obtain ⟨rfl, _, hd, rfl⟩ := getIP_view hm.view h1
    obtain ⟨r, n2, h2, hr⟩ := Job.bind_ok hr
    obtain ⟨rfl, g1, g2, g3⟩ := readText_ok (texts_print h) hm.fine.good h2
    have hlt : d.state.pc.toNat < P.length := by
      have : (1 : Word).toNat = 1 := rfl
      omega
    have hi := List.getElem?_eq_getElem hlt
    obtain ⟨l, rfl⟩ := over_first g2 g3 hi
    obtain ⟨s, n3, h3, hr⟩ := Job.bind_ok hr
    cases h3
    obtain ⟨e1, n4, h4, hr⟩ := Job.bind_ok hr
    have hret := isReturn_print h.ftos P[d.state.pc.toNat]
    obtain ⟨d1, a1, a2, a4, a3⟩ := hm.over hb1 hb2 hdbg hw htrap h4
    split at hr
    · rename_i hq
      cases hr
      exact ⟨d1, .last a1 (hq.imp (fun q => by rw [instrAt_some hi]; exact hret.1 q) id), a2⟩
    · rename_i hq
      simp only [not_or, ne_eq, Decidable.not_not] at hq
      obtain ⟨q1, rfl⟩ := hq
      obtain ⟨d2, b1, b2⟩ := ih a2 (a3 rfl).1 a4 (fun _ => (a3 rfl).2) hr
      exact ⟨d2, .on a1 (fun q => q1 (hret.2 (by rw [← instrAt_some hi]; exact q))) b1, b2⟩

theorem line_all {src : Src.Source} {D A : Word → Bool} {dbg : List Word} {wps : Map Word Nat}
    (hb1 : ∀ a, A a = true → instrAt P a ≠ .bkpt) (hb2 : ∀ a o, instrAt P a = .call o → instrAt P (a + 1) ≠ .bkpt) {fo : Nat}
    {has armed : Word → Prop} (hD : has = fun a => D a = true) (hA : armed = fun a => A a = true) :
    ∀ {fuel : Nat} {skip : Bool} {s : State} {n n' : Native} {d : Dbg} {e0 e : Event}, Amid h P D A wps n d →
      CallsFree h.cfg P wps d.state → (e0 = .singlestep → d.dbg = dbg ∧ d.trap = false) →
      OverStep h.cfg P dbg has armed wps skip s e0 d.state →
      Src.stepLoop h src (Native.stepOver h c fo false) fuel e0 n = (.ok e, n') →
      ∃ d', LineOver h.cfg P dbg has armed wps src.Begins skip s e d'.state ∧ Amid h P D A wps n' d' := by
  intro fuel
  induction fuel with
  | zero => intro skip s n n' d e0 e _ _ _ _ hr; cases hr
  | succ fuel ih =>
    intro skip s n n' d e0 e hm hw htrap ho hr
    unfold Src.stepLoop at hr
    split at hr
    · rename_i he
      subst he
      obtain ⟨ip, n1, h1, hr⟩ := bind_ok hr
      obtain ⟨rfl, _, _, rfl⟩ := getIP_view hm.view h1
      cases hl : addrToLine src.lines d.state.pc.toNat with
      | some l =>
        rw [hl] at hr
        cases hr
        exact ⟨d, .last ho (.inl (by unfold Src.Source.Begins; rw [hl]; rfl)), hm⟩
      | none =>
        rw [hl] at hr
        obtain ⟨e1, n2, h2, hr⟩ := bind_ok hr
        obtain ⟨d1, a1, a2, a4, a3⟩ := hm.over hb1 hb2 (htrap rfl).1 hw (fun _ => (htrap rfl).2) h2
        rw [← hD, ← hA] at a1
        obtain ⟨d2, b1, b2⟩ := ih a2 a4 a3 a1 hr
        exact ⟨d2, .on ho (by unfold Src.Source.Begins; rw [hl]; simp) b1, b2⟩
    · rename_i he
      cases hr
      exact ⟨d, .last ho (.inr he), hm⟩

end T86
