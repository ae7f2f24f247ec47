import Verif.Lemmas.Careful
import Verif.Lemmas.NativeTotal

/-! What the debugger sees of a machine that corresponds to the debugged sequential machine. -/

set_option linter.unusedSimpArgs false
set_option linter.unusedVariables false

namespace T86
open Dbg Str Isa Job

/-- The register listing of a state. -/
def listed (cfg : Cfg) (s : State) : Map Str Word := (shown cfg).map fun r => (r.print, s.look (.int r))

theorem Reg.print_inj {cfg : Cfg} {r q : Reg} (hr : r ∈ shown cfg) (hq : q ∈ shown cfg) (h : r.print = q.print) : r = q := by
  simp only [shown, List.cons_append, List.nil_append, List.mem_cons, List.mem_map, List.mem_range] at hr hq
  rcases hr with rfl | rfl | rfl | ⟨i, _, rfl⟩ <;> rcases hq with rfl | rfl | rfl | ⟨j, _, rfl⟩ <;>
    first
      | rfl
      | (exact absurd h (by decide))
      | (exfalso
         have := (List.cons.inj h).1
         revert this
         decide)
      | (have := (List.cons.inj h).2
         rw [ofNat_inj this])

theorem shown_nodup (cfg : Cfg) : (shown cfg).Nodup := by
  simp only [shown, List.cons_append, List.nil_append, List.nodup_cons, List.mem_cons, List.mem_map, List.mem_range]
  refine ⟨by simp, by simp, by simp, ?_⟩
  refine List.Nodup.map (fun a b h => by injection h) (List.nodup_range)

theorem listed_ok (cfg : Cfg) (s : State) : (listed cfg s).Ok := by
  unfold Map.Ok listed
  rw [List.map_map]
  refine List.Nodup.map_on ?_ (shown_nodup cfg)
  intro a ha b hb h
  exact Reg.print_inj ha hb h

theorem find_listed {cfg : Cfg} (s : State) {r : Reg} (hr : r ∈ shown cfg) : (listed cfg s).find r.print = some (s.look (.int r)) := by
  refine Map.find_eq_some_of_mem (listed_ok cfg s) ?_
  exact List.mem_map.2 ⟨r, hr, rfl⟩

theorem pc_shown (cfg : Cfg) : Reg.pc ∈ shown cfg := by simp [shown]
theorem bp_shown (cfg : Cfg) : Reg.bp ∈ shown cfg := by simp [shown]

theorem key_shown {cfg : Cfg} {r : Reg} (hr : r ∈ shown cfg) : (cfg.key (.int r)).isSome = true := by
  simp [shown] at hr
  unfold Cfg.key
  rcases hr with rfl | rfl | rfl | ⟨i, hi, rfl⟩ <;> simp [*]

namespace Link
variable {h : Host}

/-- A machine that answers is alive. -/
theorem ask_alive {l l' : Link} (hl : l.At) {m s : Str}
    (hr : (send m >>= fun _ => receive h) l = (.ok (some s), l')) : l.dead = false := by
  obtain ⟨vm, toVm, toDbg, dead⟩ := l
  obtain ⟨rfl, rfl, hi⟩ : toVm = [] ∧ toDbg = [] ∧ vm.phase ≠ .running := ⟨hl.1, hl.2, hl.3⟩
  obtain ⟨u, l1, h1, h2⟩ := Job.bind_ok hr
  cases h1
  unfold receive at h2
  simp only [receiveLoop, List.nil_append] at h2
  unfold turn at h2
  simp only at h2
  cases dead with
  | true => simp at h2
  | false => rfl

end Link

namespace Proc
open Link
variable {h : Host} {c : Client}

theorem fetchRegisters_view {l l' : Link} {d : Dbg} (hl : l.At) (hm : Matches h.cfg l.vm d) {r : Map Str Word}
    (hr : fetchRegisters h l = (.ok r, l')) :
    l' = l ∧ (∃ why, d.phase = .stopped why) ∧ l.dead = false ∧ r = listed h.cfg d.state := by
  have hr0 := hr
  obtain ⟨h1, regs, h2, h3⟩ := fetchRegisters_ok hl hr
  obtain ⟨k, s, e1, e2, e3⟩ := ask_fetch hl hr0
  rw [Proto.parse_regs] at e1
  cases e1
  have hdead : l.dead = false := by
    unfold fetchRegisters fetch at hr0
    obtain ⟨u, t, g1, g2⟩ := Job.bind_ok hr0
    obtain ⟨o, t', g3, g4⟩ := Job.bind_ok g2
    cases o with
    | none => cases g4
    | some s => exact ask_alive (h := h) hl (by rw [Job.bind_eq g1]; exact g3)
  rcases e2 with ⟨why, c', rep, nx, g1, g2, g3, _⟩ | ⟨g1, g2 | g2⟩
  · have hp : d.phase = .stopped why := hm.phase.symm.trans g1
    refine ⟨h1, ⟨why, hp⟩, hdead, ?_⟩
    obtain ⟨hi, _⟩ := hm.live (by rw [hp]; simp) (by rw [hp]; simp)
    have := peekRegs_eq (gregs := 0) (gram := 0) (why := why) hi (hm.quiet _ hp)
    change (Cpu.peekRegs h.cfg l.vm.cpu >>= _) >>= _ = _ at this
    rw [h2] at this
    have : regs = (shown h.cfg).map fun r => (r, d.state.look (.int r)) := by
      injection this with this
      injection this with _ this
      injection this with this _
      injection this
    rw [this, List.map_map] at h3
    have hreg := regMap_eq (num := signed) (t := fun v => ofInt v.toInt) signed_text (l := listed h.cfg d.state)
      (by intro p hp; obtain ⟨r, _, rfl⟩ := List.mem_map.1 hp; exact field_reg r) (listed_ok _ _)
    unfold listed at hreg
    rw [List.map_map] at hreg
    have hh := h3.symm.trans hreg
    injection hh
  · cases g2.1
  · cases g2.1

theorem unsigned_ofNat_any {i j : Nat} (hj : toUnsigned (ofNat i) = some j) : j = i := by
  unfold toUnsigned at hj
  have := takeWhile_append_stop (p := isDigit) (ofNat_isDigit i) (t := []) (by simp)
  rw [List.append_nil] at this
  rw [this] at hj
  simp only [ofNat_digits] at hj
  split at hj
  · cases hj
  · split at hj
    · injection hj with hj; exact hj.symm
    · cases hj

theorem word_reg {cfg : Cfg} {r : Reg} (hr : r ∈ shown cfg) : r.print ≠ [] ∧ ' ' ∉ r.print := by
  refine ⟨(field_reg r).1, ?_⟩
  simp only [shown, List.cons_append, List.nil_append, List.mem_cons, List.mem_map, List.mem_range] at hr
  rcases hr with rfl | rfl | rfl | ⟨i, _, rfl⟩
  · decide
  · decide
  · decide
  · intro hc
    rcases List.mem_cons.1 hc with hc | hc
    · revert hc; decide
    · have := ofNat_isDigit i _ hc
      revert this; decide

/-- Poking a register from its name. -/
theorem parse_pokeReg {r : Reg} {v : Word} {k : Cmd} (hr : r ∈ shown h.cfg)
    (hk : Proto.parse h ("POKEREGS ".toList ++ r.print ++ " ".toList ++ ofInt v.toInt) = .ok k) : k = .pokeReg r v := by
  rw [Proto.parse_pokeRegs h (word_reg hr)] at hk
  obtain ⟨q, h1, h2⟩ := ebind_ok hk
  cases h2
  congr 1
  simp only [shown, List.cons_append, List.nil_append, List.mem_cons, List.mem_map, List.mem_range] at hr
  rcases hr with rfl | rfl | rfl | ⟨i, _, rfl⟩
  · cases h1; rfl
  · cases h1; rfl
  · cases h1; rfl
  · have hne : ∀ s : Str, s.head? ≠ some 'R' → (Reg.gp i).print ≠ s := by
      intro s hs he
      rw [← he] at hs
      exact hs rfl
    unfold Proto.register at h1
    rw [if_neg (hne _ (by decide)), if_neg (hne _ (by decide)), if_neg (hne _ (by decide)), if_neg (hne _ (by decide))] at h1
    have hd : (Reg.gp i).print.drop 1 = ofNat i := rfl
    rw [hd] at h1
    cases hu : toUnsigned (ofNat i) with
    | none => rw [hu] at h1; cases h1
    | some j =>
      rw [hu] at h1
      cases h1
      rw [unsigned_ofNat_any hu]

/-- Poking one register by name. -/
theorem setRegisters_cons {l l' : Link} {d : Dbg} (hl : l.At) (hm : Matches h.cfg l.vm d) {r : Reg} (hrs : r ∈ shown h.cfg) {v : Word}
    {m : Map Str Word} (hr : setRegisters h c ((r.print, v) :: m) l = (.ok (), l')) :
    ∃ t, t.At ∧ t.dead = false ∧ Matches h.cfg t.vm { d with state := d.state.poke (.int r) v } ∧ setRegisters h c m t = (.ok (), l') := by
  unfold setRegisters at hr
  split at hr
  · rename_i hn
    have hdead : l.dead = false := by
      obtain ⟨u, t, g1, g2⟩ := Job.bind_ok hr
      obtain ⟨u2, t2, g3, _⟩ := Job.bind_ok g2
      exact ask_alive (h := h) hl (by rw [Job.bind_eq g1]; exact receive_of_check g3)
    obtain ⟨k, t, h1, h2, h3⟩ := ask_check hl hr
    have := parse_pokeReg hrs h1
    subst this
    have hk := Answer.kept hl h2 (fun c' rep nx why e => by
      obtain ⟨c1, hc1, e⟩ := bind_ok_iff.1 (show (l.vm.cpu.pokeReg h.cfg (.int r) v >>= fun c => (pure (c, .ok, .stay) : Res (Cpu × Reply × Next))) = _ from e)
      cases e
      exact ⟨rfl, Cpu.kept_pokeReg hc1⟩) rfl
    refine ⟨t, hk.1.1, ?_, ?_, h3⟩
    · rcases h2 with ⟨why, c', rep, nx, g1, g2, g3, rfl⟩ | ⟨g1, ⟨g2, _, _⟩ | ⟨g2, _, _⟩⟩
      · exact hdead
      · cases g2
      · cases g2
    · obtain ⟨rs, e⟩ := h2.step
      have hph : ∃ why, d.phase = .stopped why := by
        rcases h2 with ⟨why, c', rep, nx, g1, g2, g3, rfl⟩ | ⟨g1, ⟨g2, _, _⟩ | ⟨g2, _, _⟩⟩
        · exact ⟨why, hm.phase.symm.trans g1⟩
        · cases g2
        · cases g2
      obtain ⟨why, hp⟩ := hph
      obtain ⟨d', g1, g2⟩ := step_of_matches hm (i := .cmd (.pokeReg r v)) trivial e
      cases g1 with
      | command hs hc =>
        change (if (h.cfg.key (.int r)).isSome then (Except.ok ({ d with state := d.state.poke (.int r) v }, Reply.ok) : Res (Dbg × Reply)) else _) = _ at hc
        rw [if_pos (key_shown hrs)] at hc
        cases hc
        exact g2
      | leave hs => rw [hp] at hs; cases hs
      | idle hi =>
        rcases hi with ⟨hi, _⟩ | ⟨k, _, hi, _⟩
        · cases hi
        · exact absurd hp (hi why)
  · cases hr

theorem poke_look (s : State) (r : LReg) : s.poke r (s.look r) = s := by
  unfold State.poke State.look
  split
  · rfl
  · unfold State.set
    congr 1
    funext q
    split
    · rename_i e; rw [e]
    · rfl

/-- Poking the values that are there changes nothing. -/
theorem setRegisters_same {rest : Map Str Word} : ∀ {rs : List Reg} {l l' : Link} {d : Dbg} (hl : l.At) (hm : Matches h.cfg l.vm d),
    (∀ r ∈ rs, r ∈ shown h.cfg) →
    setRegisters h c (rs.map (fun r => (r.print, d.state.look (.int r))) ++ rest) l = (.ok (), l') →
    ∃ t, t.At ∧ Matches h.cfg t.vm d ∧ setRegisters h c rest t = (.ok (), l')
  | [], l, l', d, hl, hm, _, hr => ⟨l, hl, hm, hr⟩
  | r :: rs, l, l', d, hl, hm, hrs, hr => by
    obtain ⟨t, h1, h0, h2, h3⟩ := setRegisters_cons hl hm (hrs _ (List.mem_cons_self ..)) hr
    rw [poke_look] at h2
    exact setRegisters_same h1 h2 (fun q hq => hrs q (List.mem_cons_of_mem _ hq)) h3

/-- Setting IP. -/
theorem setIP_view {l l' : Link} {d : Dbg} (hl : l.At) (hm : Matches h.cfg l.vm d) {v : Word}
    (hr : setRegisters h c ((listed h.cfg d.state).assign "IP".toList v) l = (.ok (), l')) :
    l'.At ∧ l'.dead = false ∧ Matches h.cfg l'.vm { d with state := { d.state with pc := v } } := by
  have e : (listed h.cfg d.state).assign "IP".toList v =
      ((shown h.cfg).filter (fun r => r.print ≠ "IP".toList)).map (fun r => (r.print, d.state.look (.int r))) ++ [(Reg.pc.print, v)] := by
    unfold Map.assign Map.erase listed
    rw [List.filter_map]
    rfl
  rw [e] at hr
  obtain ⟨t, h1, h2, h3⟩ := setRegisters_same hl hm (fun r hr => (List.mem_filter.1 hr).1) hr
  obtain ⟨t', h4, h5, h6, h7⟩ := setRegisters_cons h1 h2 (pc_shown _) h3
  cases h7
  exact ⟨h4, h5, h6⟩

/-- A machine that has announced a stop is alive. -/
theorem receive_alive {s : Str} : ∀ {fuel : Nat} {l l' : Link}, (l.toDbg ≠ [] → l.dead = false) →
    receiveLoop h fuel l = (.ok (some s), l') → l'.dead = false := by
  intro fuel
  induction fuel with
  | zero =>
    intro l l' hd hr
    unfold receiveLoop at hr
    cases ht : l.toDbg with
    | nil => rw [ht] at hr; cases hr
    | cons m rest => rw [ht] at hr; cases hr; exact hd (by rw [ht]; simp)
  | succ fuel ih =>
    intro l l' hd hr
    unfold receiveLoop at hr
    cases ht : l.toDbg with
    | cons m rest => rw [ht] at hr; cases hr; exact hd (by rw [ht]; simp)
    | nil =>
      rw [ht] at hr
      simp only at hr
      cases htu : turn h l with
      | error e => rw [htu] at hr; cases hr
      | ok o =>
        rw [htu] at hr
        cases o with
        | none => cases hr
        | some t =>
          refine ih ?_ hr
          intro hne
          unfold turn at htu
          cases hdd : l.dead with
          | true => rw [hdd] at htu; cases htu
          | false =>
            rw [hdd] at htu
            simp only [Bool.false_eq_true, if_false] at htu
            repeat' split at htu
            all_goals cases htu
            all_goals first
              | rfl
              | exact absurd ht hne


theorem go_view {l l' : Link} {d : Dbg} (hl : l.At) (hm : Matches h.cfg l.vm d) {m : Str} {k : Cmd} {u : Unit} (hk : k = .cont ∨ k = .step)
    (hp : Proto.parse h m = .ok k) (hr : (send m >>= fun _ => check h) l = (.ok u, l')) :
    l'.toVm = [] ∧ l'.toDbg = [] ∧ l'.dead = false ∧
      (l'.vm.phase = .running → (∃ why, d.phase = .stopped why ∧ why ≠ .halt) ∧
        Matches h.cfg l'.vm { d with phase := .running, trap := d.trap || k = .step }) := by
  have hdead : l.dead = false := by
    obtain ⟨u, t, g1, g2⟩ := Job.bind_ok hr
    exact ask_alive (h := h) hl (by rw [Job.bind_eq g1]; exact receive_of_check g2)
  obtain ⟨k', h1, h2⟩ := ask_check' hl hr
  rw [hp] at h1
  cases h1
  obtain ⟨rs, e⟩ := h2.step
  obtain ⟨d', g1, g2⟩ := step_of_matches hm (i := .cmd k) (by rcases hk with rfl | rfl <;> trivial) e
  have hlink : l'.toVm = [] ∧ l'.toDbg = [] ∧ l'.dead = false := by
    rcases h2 with ⟨why, c', rep, nx, g1, g2, g3, rfl⟩ | ⟨g1, ⟨g2, _, rfl⟩ | ⟨g2, _, rfl⟩⟩
    · exact ⟨hl.1, hl.2, hdead⟩
    · exact ⟨hl.1, hl.2, hdead⟩
    · exact ⟨hl.1, hl.2, hdead⟩
  refine ⟨hlink.1, hlink.2.1, hlink.2.2, ?_⟩
  intro hrun
  have hrun' : d'.phase = .running := g2.phase.symm.trans hrun
  cases g1 with
  | command hs hc =>
    rename_i why r
    by_cases hw : why = .halt
    · exfalso
      rcases hk with rfl | rfl <;>
      · rw [show Dbg.command _ _ _ _ _ _ = _ from rfl] at hc
        cases hc
        rw [hw] at hrun'
        cases hrun'
    · refine ⟨⟨why, hs, hw⟩, ?_⟩
      rcases hk with rfl | rfl
      · cases hc
        rw [if_neg hw] at g2
        simpa using g2
      · cases hc
        rw [if_neg hw] at g2
        simpa using g2
  | reason hs => rcases hk with hk | hk <;> cases hk
  | leave hs => cases hrun'
  | idle hi =>
    exfalso
    rcases hi with ⟨hi, _⟩ | ⟨k, _, hi, _⟩
    · cases hi
    · rcases h2 with ⟨why, c', rep, nx, g1, _, g3, _⟩ | ⟨g1, _⟩
      · exact hi why (hm.phase.symm.trans g1)
      · rw [← hm.phase, g1] at hrun'; cases hrun'

theorem wait_view {s : Str} {d0 : Dbg} : ∀ {fuel : Nat} {l l' : Link} {d : Dbg}, l.toVm = [] → Matches h.cfg l.vm d → Since h.cfg d0 d →
    (l.toDbg = [] ∧ d.phase = .running ∨ ∃ m, l.toDbg = [m] ∧ d.phase ≠ .running) →
    receiveLoop h fuel l = (.ok (some s), l') → ∃ d', Matches h.cfg l'.vm d' ∧ Since h.cfg d0 d' ∧ l'.At := by
  intro fuel
  induction fuel with
  | zero =>
    intro l l' d hv hm hs hq hr
    unfold receiveLoop at hr
    rcases hq with ⟨hq, _⟩ | ⟨m, hq, hp⟩
    · rw [hq] at hr; cases hr
    · rw [hq] at hr; cases hr
      exact ⟨d, hm, hs, hv, rfl, by rw [show l.vm.phase = d.phase from hm.phase]; exact hp⟩
  | succ fuel ih =>
    intro l l' d hv hm hs hq hr
    unfold receiveLoop at hr
    rcases hq with ⟨hq, hp⟩ | ⟨m, hq, hp⟩
    · rw [hq] at hr
      simp only at hr
      cases ht : turn h l with
      | error e => rw [ht] at hr; cases hr
      | ok o =>
        rw [ht] at hr
        cases o with
        | none => cases hr
        | some t =>
          have hph : l.vm.phase = .running := hm.phase.trans hp
          unfold turn at ht
          rw [hph] at ht
          cases hdd : l.dead with
          | true => rw [hdd] at ht; cases ht
          | false =>
            rw [hdd] at ht
            simp only [Bool.false_eq_true, if_false] at ht
            cases hv2 : l.vm.step h.cfg h.gregs h.gram .tick with
            | error f =>
              rw [hv2] at ht
              exfalso
              have hdie : ∀ n : Nat, receiveLoop h n ⟨l.vm, l.toVm, l.toDbg, true⟩ ≠ (.ok (some s), l') := by
                intro n
                cases n with
                | zero => simp [receiveLoop, hq]
                | succ n => simp [receiveLoop, turn, hq]
              cases f <;> cases ht <;> exact hdie _ hr
            | ok x =>
              obtain ⟨vm, rs⟩ := x
              rw [hv2] at ht
              cases ht
              obtain ⟨d', h1, h2⟩ := step_of_matches hm (i := .tick) trivial hv2
              have hs' := hs.tick h1
              refine ih (l := { l with vm := vm, toDbg := _, dead := _ }) hv h2 hs' ?_ hr
              cases h1 with
              | tick _ ht =>
                unfold announce
                by_cases hp' : d'.phase = .running
                · left
                  simp [hq, hp']
                · right
                  rw [if_neg hp']
                  exact ⟨_, by simp [hq]; rfl, hp'⟩
              | idle hi =>
                rcases hi with ⟨_, hi⟩ | ⟨k, hi, _⟩
                · exact absurd hp hi
                · cases hi
    · rw [hq] at hr; cases hr
      exact ⟨d, hm, hs, hv, rfl, by rw [show l.vm.phase = d.phase from hm.phase]; exact hp⟩

end Proc
end T86
