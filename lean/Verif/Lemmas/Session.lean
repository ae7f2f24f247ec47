import Verif.Lemmas.Init
import Verif.Spec.Session

/-! Debugger commands preserve the invariant; the machine under a debugger refines the debugged sequential machine. -/

set_option linter.unusedSimpArgs false
set_option linter.unusedVariables false

namespace T86
open Isa

section
variable {cfg : Cfg}

theorem mark_eq (dbg : List Word) {j : Nat} (hj : j < 4) : mark dbg j = dbg.set 4 (Cpu.markHit (dbg.getD 4 0) j) := by
  unfold mark Cpu.markHit
  congr 2
  have : j = 0 ∨ j = 1 ∨ j = 2 ∨ j = 3 := by omega
  rcases this with rfl | rfl | rfl | rfl <;> rfl

theorem watchHit_lt {dbg : List Word} {a : Word} {j : Nat} (h : watchHit dbg a = some j) : j < 4 := by
  have := List.mem_of_find?_eq_some h
  simp at this
  omega

theorem marked_eq (dbg : List Word) (S : State) (i : Instr) : marked dbg S i = hitDbg dbg ((writeAddr S i).bind (watchHit dbg)) := by
  unfold marked
  cases h : (writeAddr S i).bind (watchHit dbg) with
  | none => rfl
  | some j =>
    obtain ⟨a, _, h2⟩ := Option.bind_eq_some_iff.1 h
    exact mark_eq dbg (watchHit_lt h2)

/-- Setting a register when the pipeline is empty. -/
theorem Inv.pokeReg {c : Cpu} {S : State} (h : Inv cfg c S) (hq : Quiet c) {r : LReg} {k : Nat} (hk : cfg.key r = some k) (v : Word) :
    ∃ c', c.pokeReg cfg r v = .ok c' ∧ Inv cfg c' (S.poke r v) ∧ c' = { c with regs := c'.regs, spc := c'.spc } := by
  obtain ⟨own, n, m, b, h⟩ := h
  have hw := h.win
  rw [hq.entries] at hw
  obtain ⟨t1, t2, t3⟩ := hw
  rw [hq.fetch, hq.decode] at t3
  obtain ⟨t3, t4⟩ := t3
  obtain ⟨p0, hp0, ho0, hv0⟩ := h.pc hq.entries
  subst t2
  have hlt : k < c.rat.length := by rw [h.base.len]; exact key_lt hk
  -- the cell
  obtain ⟨p, hp, ho⟩ : ∃ p, c.rat[k]? = some p ∧ (own p).2 = k := by
    by_cases hr : r = .int .pc
    · subst hr; rw [key_pc] at hk; cases hk; exact ⟨p0, hp0, ho0⟩
    · obtain ⟨p, h1, h2, _, _⟩ := h.base.cells r k hk hr
      exact ⟨p, h1, h2⟩
  have hpn : p < cfg.nphys := h.subs.bound p (by simp [List.mem_of_getElem? hp])
  obtain ⟨x, hx⟩ : ∃ x, c.regs[p]? = some x := ⟨_, List.getElem?_eq_getElem (by rw [h.subs.len]; exact hpn)⟩
  have htr : Rat.translate cfg c.rat r = .ok p := by unfold Rat.translate; rw [hk]; simp only [hp]
  have hwr : c.regs.write p v = .ok (c.regs.set p { x with value := v, ready := true }) := by
    unfold Regs.write; rw [regs_get hx]; rfl
  generalize hr2 : c.regs.set p { x with value := v, ready := true } = r2 at hwr
  have hself : CellVal r2 p v := by
    refine ⟨{ x with value := v, ready := true }, ?_, rfl, rfl⟩
    rw [← hr2]
    exact List.getElem?_set_self (by rw [h.subs.len]; exact hpn)
  have hother : ∀ q, q ≠ p → cellView r2 q = cellView c.regs q := by
    intro q hq
    rw [← hr2]
    unfold cellView
    rw [List.getElem?_set_ne (fun h => hq h.symm)]
  have hne : ∀ k' q, k' ≠ k → (own q).2 = k' → q ≠ p := by
    rintro k' q hk' hq rfl
    exact hk' (hq.symm.trans ho)
  refine ⟨{ c with regs := r2, spc := if r = .int .pc then v else c.spc }, ?_, ?_, rfl⟩
  · unfold Cpu.pokeReg
    rw [htr, ok_bind, hwr]
    rfl
  refine ⟨own, n, m, c.rat, h.wf, ?_, ⟨h.base.len, ?_⟩, ?_, ?_, h.wm, ?_, ?_, ?_, ?_, h.alus, h.cap⟩
  · change Win cfg _ _ c.entries _ _ _ _ _
    rw [hq.entries]
    refine ⟨t1, rfl, ?_⟩
    change Front c.prog (if r = .int .pc then v else c.spc) (c.decode.toList ++ c.fetch.toList) _ _
    rw [hq.fetch, hq.decode]
    refine ⟨?_, t4⟩
    unfold State.poke
    split
    · rfl
    · exact t3
  · intro r' k' hk' hr'
    obtain ⟨q, q1, q2, q3, q4⟩ := h.base.cells r' k' hk' hr'
    refine ⟨q, q1, q2, q3, ?_⟩
    by_cases he : r' = r
    · subst he
      rw [hk] at hk'; cases hk'
      rw [hp] at q1; cases q1
      have : (S.poke r' v).reg r' = v := by
        unfold State.poke
        rw [if_neg hr']
        simp only [State.set, if_true]
      rw [this]
      exact hself
    · have hkk : k' ≠ k := by
        rintro rfl
        exact he (key_inj hk' hk)
      have : (S.poke r v).reg r' = S.reg r' := by
        unfold State.poke
        split
        · rfl
        · simp only [State.set, if_neg he]
      rw [this]
      exact q4.congr (hother q (hne k' q hkk q2))
  · intro _
    refine ⟨p0, hp0, ho0, ?_⟩
    by_cases hr : r = .int .pc
    · subst hr
      rw [key_pc] at hk; cases hk
      rw [hp0] at hp; cases hp
      unfold State.poke
      rw [if_pos rfl]
      exact hself
    · have : (S.poke r v).pc = S.pc := by unfold State.poke; rw [if_neg hr]; rfl
      rw [this]
      exact hv0.congr (hother p0 (hne cfg.pcK p0 (fun h => key_ne_pcK hk hr h.symm) ho0))
  · refine ⟨by rw [← hr2]; exact (List.length_set ..).trans h.subs.len, ?_, h.subs.bound⟩
    intro q y hy
    change r2[q]? = some y at hy
    rw [← hr2, List.getElem?_set] at hy
    split at hy
    · next he =>
      subst he
      split at hy
      · cases hy; exact (show x.subs = _ from h.subs.subs _ x hx)
      · cases hy
    · exact h.subs.subs q y hy
  · have : (S.poke r v).mem = S.mem := by unfold State.poke; split <;> rfl
    rw [this]; exact h.ram
  · have : (S.poke r v).out = S.out := by unfold State.poke; split <;> rfl
    rw [this]; exact h.out
  · have : (S.poke r v).inp = S.inp := by unfold State.poke; split <;> rfl
    rw [this]; exact h.inp
  · have : (S.poke r v).halted = S.halted := by unfold State.poke; split <;> rfl
    rw [this]; exact h.halted

/-- Changing the program when the pipeline is empty. -/
theorem Inv.setProg {c : Cpu} {S : State} (h : Inv cfg c S) (hq : Quiet c) {prog : List Instr} (hw : ∀ i ∈ prog, i.wf cfg = true) :
    Inv cfg { c with prog := prog } S := by
  obtain ⟨own, n, m, b, h⟩ := h
  refine ⟨own, n, m, b, hw, ?_, h.base, h.pc, h.subs, h.wm, h.ram, h.out, h.inp, h.halted, h.alus, h.cap⟩
  have hw := h.win
  rw [hq.entries] at hw
  obtain ⟨t1, t2, t3⟩ := hw
  rw [hq.fetch, hq.decode] at t3
  change Win cfg _ _ c.entries _ _ _ _ _
  rw [hq.entries]
  refine ⟨t1, t2, ?_⟩
  change Front prog c.spc (c.decode.toList ++ c.fetch.toList) _ _
  rw [hq.fetch, hq.decode]
  exact t3

theorem ram_get {c : Cpu} {S : State} (h : Inv cfg c S) (a : Word) : c.ram.get a = S.load a := by
  unfold Ram.get State.load
  rw [h.memEq a]
  cases c.ram.mem[a.toNat]? <;> rfl

/-- Writing a memory cell that is not being accessed. -/
theorem Inv.setMemory {c : Cpu} {S : State} (h : Inv cfg c S) (hq : Quiet c) {a v : Word} (hs : c.settled a)
    (hm : (S.mem a).isSome = true) :
    ∃ ram', c.ram.set a v = .ok ram' ∧ Inv cfg { c with ram := ram' } { S with mem := fun a' => if a' = a then some v else S.mem a' } := by
  have hlt : a.toNat < c.ram.mem.length := by
    rw [h.memEq a] at hm
    by_contra hc
    rw [List.getElem?_eq_none (by omega)] at hm
    cases hm
  refine ⟨{ c.ram with mem := c.ram.mem.set a.toNat v }, by unfold Ram.set; rw [if_pos hlt], ?_⟩
  obtain ⟨own, n, m, b, h⟩ := h
  refine ⟨own, n, m, b, h.wf, ?_, ⟨h.base.len, h.base.cells⟩, h.pc, h.subs, h.wm, ?_, h.out, h.inp, h.halted, h.alus, h.cap⟩
  · have hw := h.win
    rw [hq.entries] at hw
    change Win cfg _ _ c.entries _ _ _ _ _
    rw [hq.entries]
    exact hw
  · have hout : ∀ w ∈ c.wm.outs, w.2.1 ≠ a := by
      intro w hw
      obtain ⟨w', hw', _, rfl⟩ := outs_mem hw
      exact hs.2 w' hw'
    refine ⟨?_, ?_, ?_, h.ram.writes, h.ram.outRid, ?_, h.ram.inj⟩
    · exact (List.length_set ..).trans h.ram.size
    · intro a'
      change (if a' = a then some v else S.mem a') = (c.ram.mem.set a.toNat v)[a'.toNat]?
      rw [List.getElem?_set]
      split
      · next he => subst he; simp [hlt]
      · next he => rw [if_neg (fun h => he (BitVec.eq_of_toNat_eq h.symm))]; exact h.ram.memEq a'
    · intro x hx
      obtain ⟨h1, h2⟩ := h.ram.reads x hx
      refine ⟨h1, ?_⟩
      rcases h2 with h2 | h2
      · refine Or.inl ?_
        change (if x.addr = a then some v else S.mem x.addr) = _
        rw [if_neg (hs.1 x hx)]
        exact h2
      · exact Or.inr h2
    · intro w hw hn
      change (if w.2.1 = a then some v else S.mem w.2.1) = _
      rw [if_neg (hout w hw)]
      exact h.ram.newest w hw hn

theorem mapM_ok {α β : Type} {f : α → Res β} {g : α → β} : ∀ {l : List α}, (∀ x ∈ l, f x = .ok (g x)) → l.mapM f = .ok (l.map g)
  | [], _ => rfl
  | x :: l, h => by
    rw [List.mapM_cons, h x (List.mem_cons_self ..), ok_bind, mapM_ok fun y hy => h y (List.mem_cons_of_mem _ hy)]
    rfl

/-- The correspondence of the machine with the debugged sequential machine. -/
structure Matches (cfg : Cfg) (vm : Vm) (d : Dbg) : Prop where
  phase : vm.phase = d.phase
  live : d.phase ≠ .failed → d.phase ≠ .ended false → Inv cfg vm.cpu d.state ∧ vm.cpu.prog = d.prog ∧ vm.cpu.dbg = d.dbg ∧
    vm.cpu.trap = d.trap ∧ vm.cpu.retired = d.count
  quiet : ∀ why, d.phase = .stopped why → Quiet vm.cpu
  run : d.phase = .running ∨ (∃ why, d.phase = .stopped why ∧ why ≠ .halt) → d.state.halted = false ∧ vm.cpu.stepped = false

theorem start_matches {prog : List Instr} {data : List Word} {inp : List (BitVec 8)} (hr : 0 < cfg.rsMax)
    (hw : ∀ i ∈ prog, i.wf cfg = true) (hd : data.length ≤ cfg.ramSize) :
    Matches cfg (Vm.start cfg prog data inp).1 (Dbg.start cfg prog data inp) :=
  ⟨rfl, fun _ _ => ⟨inv_init hr hw hd, rfl, rfl, rfl, rfl⟩, fun _ _ => ⟨rfl, rfl, rfl, rfl⟩, fun _ => ⟨rfl, rfl⟩⟩

/-- The outcome of a step: a state that corresponds, or undefined behaviour, where it is possible. -/
theorem tick_matches {vm : Vm} {d : Dbg} (h : Matches cfg vm d) (hp : d.phase = .running) :
    Sat (Vm.tick cfg vm.cpu) (fun x => ∃ d', d.Tick cfg d' ∧ x.2 = announce d'.phase ∧ Matches cfg x.1 d') (HostUb cfg d.prog) := by
  obtain ⟨hi, h1, h2, h3, h4⟩ := h.live (by rw [hp]; simp) (by rw [hp]; simp)
  obtain ⟨hh, hs⟩ := h.run (Or.inl hp)
  have ht := tick_sat hi hh hs
  unfold Vm.tick
  revert ht
  cases Cpu.tick cfg vm.cpu with
  | error f =>
    rintro (hf | ⟨hf, k, S1, g1, g2, g3, g4⟩)
    · obtain ⟨rfl, hf2⟩ := hf
      rw [h1] at hf2
      exact ⟨rfl, hf2⟩
    · subst hf
      rw [h1, h2] at g1
      rw [h1] at g3
      rw [h3] at g4
      exact ⟨_, .fail g1 g2 g3 g4, rfl, ⟨rfl, fun h => absurd rfl h, (fun _ h => by cases h), (fun h => by
        rcases h with h | ⟨_, h, _⟩ <;> cases h)⟩⟩
  | ok c' =>
    rintro ⟨t1, t2, S', k, t3, t4, t5⟩
    have hhal := t3.halted
    rw [h1] at t1
    rw [h3] at t2
    rw [h4] at t4
    cases t5 with
    | go g1 g2 g3 g4 g5 g6 =>
      rw [h1, h2] at g1
      rw [h3] at g3
      rw [h2] at g5
      rw [g2] at hhal
      dsimp only
      rw [hhal, if_neg (by simp), g4]
      have hph : announce d.phase = [] := by rw [hp]; rfl
      exact ⟨_, .go g1 g2 g3, hph.symm, ⟨hp.symm, fun _ _ => ⟨t3, t1, g5, t2, t4⟩, (fun why hq => by rw [hp] at hq; cases hq),
        fun _ => ⟨g2, g6⟩⟩⟩
    | halt g1 g2 g3 g4 g5 g6 =>
      rw [h1, h2] at g1
      rw [h3] at g3
      rw [h2] at g5
      rw [g2] at hhal
      dsimp only
      rw [hhal, if_pos rfl]
      refine ⟨_, .halt g1 g2 g3, rfl, ⟨rfl, fun _ _ => ⟨t3, t1, g5, t2, t4⟩, fun _ _ => g6, ?_⟩⟩
      rintro (h | ⟨why, h, h'⟩)
      · cases h
      · cases h; exact absurd rfl h'
    | single g1 g2 g3 g4 g5 g6 g7 =>
      rw [h1, h2] at g1
      rw [h3] at g3
      rw [h2] at g5
      rw [g2] at hhal
      dsimp only
      rw [hhal, if_neg (by simp), g4]
      refine ⟨_, .single g1 g2 g3, rfl, ⟨rfl, fun _ _ => ⟨?_, t1, g5, rfl, t4⟩, fun _ _ => ⟨g7.1, g7.2, g7.3, g7.4⟩, fun _ => ⟨g2, g6⟩⟩⟩
      obtain ⟨own, n, m, b, w⟩ := t3
      exact ⟨own, n, m, b, w.wf, w.win, w.base, w.pc, w.subs, w.wm, w.ram, w.out, w.inp, w.halted, w.alus, w.cap⟩
    | @stop k S1 g1 g2 g3 g4 g5 g6 g7 g8 g9 g10 =>
      rw [h1, h2] at g1
      rw [h1] at g3
      rw [h3] at g5
      rw [h1, h2] at g6
      rw [h1, h2] at g8
      rw [g4] at hhal
      rw [← marked_eq] at g8
      dsimp only
      rw [hhal, if_neg (by simp)]
      have hcode : c'.intr = 2 ∨ c'.intr = 3 := by
        have : ∀ (dbg : List Word) (s : State) (i : Instr), stopCode dbg s i = 0 ∨ stopCode dbg s i = 2 ∨ stopCode dbg s i = 3 := by
          intro dbg s i
          unfold stopCode
          repeat' split
          all_goals simp
        rcases this d.dbg S1 (instrAt d.prog S1.pc) with h | h | h
        · rw [h] at g6; exact absurd g6 g7
        · exact Or.inl (g6.trans h)
        · exact Or.inr (g6.trans h)
      have hres := Dbg.Tick.stop (cfg := cfg) (d := d) (n := c'.intr) g1 g2 g3 g4 g5 g6.symm g7
      rcases hcode with hc | hc
      · rw [hc] at hres ⊢
        exact ⟨_, hres, rfl, ⟨rfl, fun _ _ => ⟨t3, t1, g8, t2, t4⟩, fun _ _ => g10, fun _ => ⟨g4, g9⟩⟩⟩
      · rw [hc] at hres ⊢
        exact ⟨_, hres, rfl, ⟨rfl, fun _ _ => ⟨t3, t1, g8, t2, t4⟩, fun _ _ => g10, fun _ => ⟨g4, g9⟩⟩⟩

/-- What a command does to the two machines. -/
def CmdRel (cfg : Cfg) (why : Reason) (x : Res (Cpu × Reply × Next)) (y : Res (Dbg × Reply)) : Prop :=
  match x, y with
  | .ok a, .ok b => Matches cfg (Vm.leave why a.1 a.2.2) b.1 ∧ a.2.1 = b.2
  | .error f, .error f' => f = f' ∧ f = .exn .outOfRange
  | _, _ => False

theorem command_matches {vm : Vm} {d : Dbg} (h : Matches cfg vm d) {why : Reason} (hp : d.phase = .stopped why) (gregs gram : Nat)
    (k : Cmd) (hs : vm.safe cfg (.cmd k)) :
    CmdRel cfg why (Cpu.command cfg gregs gram why vm.cpu k) (d.command cfg gregs gram why k) := by
  obtain ⟨hi, h1, h2, h3, h4⟩ := h.live (by rw [hp]; simp) (by rw [hp]; simp)
  have hq := h.quiet why hp
  have hrun : why ≠ .halt → d.state.halted = false ∧ vm.cpu.stepped = false := fun hw => h.run (Or.inr ⟨why, hp, hw⟩)
  -- commands that change nothing
  have same : ∀ r, CmdRel cfg why (.ok (vm.cpu, r, .stay)) (.ok (d, r)) := fun r =>
    ⟨⟨hp.symm, fun _ _ => ⟨hi, h1, h2, h3, h4⟩, fun _ _ => hq, h.run⟩, rfl⟩
  -- commands that go on
  have going : ∀ (c : Cpu) (d' : Dbg), Inv cfg c d'.state → Quiet c → c.prog = d'.prog → c.dbg = d'.dbg → c.trap = d'.trap →
      c.retired = d'.count → c.stepped = vm.cpu.stepped → d'.state.halted = d.state.halted → d'.phase = d.phase →
      CmdRel cfg why (.ok (c, .ok, .stay)) (.ok (d', .ok)) := by
    intro c d' a1 a2 a3 a4 a5 a6 a7 a8 a9
    refine ⟨⟨hp.symm.trans a9.symm, fun _ _ => ⟨a1, a3, a4, a5, a6⟩, fun _ _ => a2, fun hr => ?_⟩, rfl⟩
    change d'.state.halted = false ∧ c.stepped = false
    simp only at hr
    rw [a9] at hr
    rw [a8, a7]
    exact h.run hr
  cases k with
  | reason => exact same _
  | unknown => exact same _
  | regCount => exact same _
  | dataSize => exact same _
  | textSize =>
    have := same (.count d.prog.length)
    nth_rewrite 1 [← h1] at this
    exact this
  | peekDebugRegs =>
    have := same (.debugs d.dbg)
    nth_rewrite 1 [← h2] at this
    exact this
  | peekText i n =>
    have hh : vm.cpu.peekText i n = (List.range n).map fun j => instrAt d.prog (BitVec.ofNat 64 (i + j)) := by
      unfold Cpu.peekText
      rw [h1]
      exact List.map_congr_left fun j _ => fetchAt_eq _ _
    change CmdRel cfg why (.ok (vm.cpu, .text (vm.cpu.peekText i n), .stay)) _
    rw [hh]
    exact same _
  | peekData i n =>
    have hh : vm.cpu.peekData i n = (List.range n).mapM fun j => d.state.load (BitVec.ofNat 64 (i + j)) := by
      unfold Cpu.peekData
      congr 1
      funext j
      exact ram_get hi _
    change CmdRel cfg why (vm.cpu.peekData i n >>= _) (((List.range n).mapM fun j => d.state.load (BitVec.ofNat 64 (i + j))) >>= _)
    rw [hh]
    cases hm : ((List.range n).mapM fun j => d.state.load (BitVec.ofNat 64 (i + j))) with
    | ok l => exact same _
    | error f =>
      refine ⟨rfl, ?_⟩
      revert hm
      generalize List.range n = l
      induction l with
      | nil => intro hm; cases hm
      | cons j l ih =>
        intro hm
        rw [List.mapM_cons] at hm
        cases hl : d.state.load (BitVec.ofNat 64 (i + j)) with
        | error g =>
          rw [hl] at hm
          cases hm
          unfold State.load at hl
          split at hl
          · cases hl
          · cases hl; rfl
        | ok v =>
          rw [hl, ok_bind] at hm
          apply ih
          cases hx : (l.mapM fun j => d.state.load (BitVec.ofNat 64 (i + j))) with
          | error g => rw [hx] at hm; cases hm; rfl
          | ok l' => rw [hx] at hm; cases hm
  | peekRegs =>
    have hh : vm.cpu.peekRegs cfg = .ok ((shown cfg).map fun r => (r, d.state.look (.int r))) := by
      unfold Cpu.peekRegs
      refine mapM_ok ?_
      intro r hr
      have hk : ∃ k, cfg.key (.int r) = some k := by
        unfold Cpu.shownRegs at hr
        simp only [List.cons_append, List.nil_append, List.mem_cons, List.mem_map, List.mem_range] at hr
        rcases hr with rfl | rfl | rfl | ⟨i, hi, rfl⟩
        · exact ⟨_, rfl⟩
        · exact ⟨_, rfl⟩
        · exact ⟨_, rfl⟩
        · exact ⟨i, if_pos hi⟩
      obtain ⟨k, hk⟩ := hk
      rw [hi.readReg hq hk]
      rfl
    change CmdRel cfg why (vm.cpu.peekRegs cfg >>= _) _
    rw [hh]
    exact same _
  | peekFloatRegs =>
    have hh : vm.cpu.peekFloats cfg = .ok ((List.range cfg.nfreg).map fun i => d.state.look (.flt i)) := by
      unfold Cpu.peekFloats
      refine mapM_ok ?_
      intro i hi'
      have hk : cfg.key (.flt i) = some (cfg.nreg + i) := if_pos (List.mem_range.1 hi')
      exact hi.readReg hq hk
    change CmdRel cfg why (vm.cpu.peekFloats cfg >>= _) _
    rw [hh]
    exact same _
  | pokeText i ins =>
    change CmdRel cfg why (vm.cpu.setText i ins >>= _) (if i < d.prog.length then _ else _)
    unfold Cpu.setText
    rw [h1]
    by_cases hlt : i < d.prog.length
    · rw [if_pos hlt, if_pos hlt]
      refine going { vm.cpu with prog := d.prog.set i ins } { d with prog := d.prog.set i ins } (hi.setProg hq ?_) ⟨hq.1, hq.2, hq.3, hq.4⟩ rfl h2 h3 h4 rfl rfl rfl
      intro j hj
      rcases List.mem_or_eq_of_mem_set hj with hj | rfl
      · obtain ⟨_, _, _, _, w⟩ := hi
        exact w.wf j (by rw [h1]; exact hj)
      · exact hs
    · rw [if_neg hlt, if_neg hlt]
      exact ⟨rfl, rfl⟩
  | pokeData i v =>
    change CmdRel cfg why (vm.cpu.setMemory (BitVec.ofNat 64 i) v >>= _) (d.state.store (BitVec.ofNat 64 i) v >>= _)
    unfold Cpu.setMemory State.store
    cases hm : d.state.mem (BitVec.ofNat 64 i) with
    | none =>
      have : vm.cpu.ram.set (BitVec.ofNat 64 i) v = .error (.exn .outOfRange) := by
        unfold Ram.set
        rw [if_neg]
        intro hlt
        rw [hi.memEq, List.getElem?_eq_getElem hlt] at hm
        cases hm
      rw [this]
      exact ⟨rfl, rfl⟩
    | some w =>
      obtain ⟨ram', e1, e2⟩ := hi.setMemory hq (v := v) hs (by rw [hm]; rfl)
      rw [e1]
      refine going { vm.cpu with ram := ram' } { d with state := { d.state with mem := fun a' => if a' = BitVec.ofNat 64 i then some v else d.state.mem a' } } e2 ⟨hq.1, hq.2, hq.3, hq.4⟩ h1 h2 h3 h4 rfl rfl rfl
  | pokeDebugReg i v =>
    change CmdRel cfg why (vm.cpu.setDebugReg i v >>= _) (if i < 5 then _ else _)
    unfold Cpu.setDebugReg
    by_cases hlt : i < 5
    · rw [if_pos hlt, if_pos hlt]
      refine going { vm.cpu with dbg := vm.cpu.dbg.set i v } { d with dbg := d.dbg.set i v } ?_ ⟨hq.1, hq.2, hq.3, hq.4⟩ h1 (by rw [h2]) h3 h4 rfl rfl rfl
      obtain ⟨own, n, m, b, w⟩ := hi
      exact ⟨own, n, m, b, w.wf, w.win, w.base, w.pc, w.subs, w.wm, w.ram, w.out, w.inp, w.halted, w.alus, w.cap⟩
    · rw [if_neg hlt, if_neg hlt]
      exact ⟨rfl, rfl⟩
  | pokeFloatReg i v =>
    change CmdRel cfg why (vm.cpu.pokeReg cfg (.flt i) v >>= _) (if i < cfg.nfreg then _ else _)
    by_cases hlt : i < cfg.nfreg
    · have hk : cfg.key (.flt i) = some (cfg.nreg + i) := if_pos hlt
      obtain ⟨c', e1, e2, e3⟩ := hi.pokeReg hq hk v
      rw [e1, if_pos hlt]
      have hhal : (d.state.poke (.flt i) v).halted = d.state.halted := by unfold State.poke; split <;> rfl
      refine going c' { d with state := d.state.poke (.flt i) v } e2 ?_ ?_ ?_ ?_ ?_ ?_ hhal rfl <;> rw [e3] <;> first | assumption | rfl | skip
      exact ⟨hq.1, hq.2, hq.3, hq.4⟩
    · have hk : cfg.key (.flt i) = none := if_neg hlt
      rw [if_neg hlt]
      unfold Cpu.pokeReg Rat.translate
      rw [hk]
      exact ⟨rfl, rfl⟩
  | pokeReg r v =>
    change CmdRel cfg why (vm.cpu.pokeReg cfg (.int r) v >>= _) (if (cfg.key (.int r)).isSome = true then _ else _)
    cases hk : cfg.key (.int r) with
    | some k =>
      obtain ⟨c', e1, e2, e3⟩ := hi.pokeReg hq hk v
      rw [e1, if_pos (by rfl)]
      have hhal : (d.state.poke (.int r) v).halted = d.state.halted := by unfold State.poke; split <;> rfl
      refine going c' { d with state := d.state.poke (.int r) v } e2 ?_ ?_ ?_ ?_ ?_ ?_ hhal rfl <;> rw [e3] <;> first | assumption | rfl | skip
      exact ⟨hq.1, hq.2, hq.3, hq.4⟩
    | none =>
      rw [if_neg (by simp)]
      unfold Cpu.pokeReg Rat.translate
      rw [hk]
      exact ⟨rfl, rfl⟩
  | terminate =>
    refine ⟨⟨rfl, fun _ _ => ⟨hi, h1, h2, h3, h4⟩, (fun _ h => by cases h), fun h => ?_⟩, rfl⟩
    rcases h with h | ⟨_, h, _⟩ <;> cases h
  | cont =>
    by_cases hw : why = .halt
    · subst hw
      refine ⟨⟨rfl, fun _ _ => ⟨hi, h1, h2, h3, h4⟩, (fun _ h => by cases h), fun h => ?_⟩, rfl⟩
      rcases h with h | ⟨_, h, _⟩ <;> cases h
    · refine ⟨⟨rfl, fun _ _ => ⟨hi, h1, h2, h3, h4⟩, fun _ h => ?_, fun _ => hrun hw⟩, rfl⟩
      change (if why = .halt then Phase.ended true else .running) = _ at h
      rw [if_neg hw] at h
      cases h
  | step =>
    have hi' : Inv cfg { vm.cpu with trap := true } d.state := by
      obtain ⟨own, n, m, b, w⟩ := hi
      exact ⟨own, n, m, b, w.wf, w.win, w.base, w.pc, w.subs, w.wm, w.ram, w.out, w.inp, w.halted, w.alus, w.cap⟩
    by_cases hw : why = .halt
    · subst hw
      refine ⟨⟨rfl, fun _ _ => ⟨hi', h1, h2, rfl, h4⟩, (fun _ h => by cases h), fun h => ?_⟩, rfl⟩
      rcases h with h | ⟨_, h, _⟩ <;> cases h
    · refine ⟨⟨rfl, fun _ _ => ⟨hi', h1, h2, rfl, h4⟩, fun _ h => ?_, fun _ => hrun hw⟩, rfl⟩
      change (if why = .halt then Phase.ended true else .running) = _ at h
      rw [if_neg hw] at h
      cases h

/-- Errors of a step: undefined behaviour while the machine runs, where it is possible, and a command with an index out of
range. -/
def VmErr (cfg : Cfg) (gregs gram : Nat) (d : Dbg) (i : Vm.Input) (f : Fault) : Prop :=
  (d.phase = .running ∧ i = .tick ∧ HostUb cfg d.prog f) ∨
  (f = .exn .outOfRange ∧ ∃ why k, d.phase = .stopped why ∧ i = .cmd k ∧ d.command cfg gregs gram why k = .error f)

/-- The machine under a debugger takes the steps of the debugged sequential machine. -/
theorem step_matches {vm : Vm} {d : Dbg} (h : Matches cfg vm d) (gregs gram : Nat) (i : Vm.Input) (hs : vm.safe cfg i) :
    Sat (vm.step cfg gregs gram i) (fun x => ∃ d', d.Step cfg gregs gram i d' x.2 ∧ Matches cfg x.1 d')
      (VmErr cfg gregs gram d i) := by
  have hph := h.phase
  unfold Vm.step
  cases hp : d.phase with
  | running =>
    rw [hp] at hph
    rw [hph]
    cases i with
    | tick =>
      refine (tick_matches h hp).mono ?_ (fun f hf => Or.inl ⟨hp, rfl, hf⟩)
      rintro ⟨vm', rs⟩ ⟨d', h1, h2, h3⟩
      simp only at h2
      subst h2
      exact ⟨d', .tick hp h1, h3⟩
    | cmd k => exact ⟨d, .idle (Or.inr ⟨k, rfl, by rw [hp]; simp, by rw [hp]; simp⟩), h⟩
  | stopped why =>
    rw [hp] at hph
    rw [hph]
    cases i with
    | tick => exact ⟨d, .idle (Or.inl ⟨rfl, by rw [hp]; simp⟩), h⟩
    | cmd k =>
      have hc := command_matches h hp gregs gram k hs
      dsimp only
      revert hc
      cases hx : Cpu.command cfg gregs gram why vm.cpu k with
      | error f =>
        cases hy : d.command cfg gregs gram why k with
        | error f' =>
          rintro ⟨rfl, h2⟩
          exact Or.inr ⟨h2, why, k, hp, rfl, hy⟩
        | ok y => intro h; exact h.elim
      | ok x =>
        cases hy : d.command cfg gregs gram why k with
        | error f' => intro h; exact h.elim
        | ok y =>
          rintro ⟨h1, h2⟩
          obtain ⟨d', r⟩ := y
          simp only at h2
          rw [ok_bind, h2]
          exact ⟨d', .command hp hy, h1⟩
  | failed =>
    rw [hp] at hph
    rw [hph]
    cases i with
    | tick => exact ⟨d, .idle (Or.inl ⟨rfl, by rw [hp]; simp⟩), h⟩
    | cmd k =>
      have hend : ∀ vm' : Vm, vm'.phase = .ended false → Matches cfg vm' { d with phase := .ended false } := fun vm' hv =>
        ⟨hv, fun _ h => absurd rfl h, (fun _ h => by cases h), (fun h => by rcases h with h | ⟨_, h, _⟩ <;> cases h)⟩
      cases k
      case reason => exact ⟨d, .reason hp, h⟩
      case cont => exact ⟨_, .leave hp (Or.inl rfl), hend _ rfl⟩
      case step => exact ⟨_, .leave hp (Or.inr (Or.inl rfl)), hend _ rfl⟩
      case terminate => exact ⟨_, .leave hp (Or.inr (Or.inr rfl)), hend _ rfl⟩
      all_goals exact ⟨d, .idle (Or.inr ⟨_, rfl, by rw [hp]; simp, by simp⟩), h⟩
  | ended b =>
    rw [hp] at hph
    rw [hph]
    cases i with
    | tick => exact ⟨d, .idle (Or.inl ⟨rfl, by rw [hp]; simp⟩), h⟩
    | cmd k => exact ⟨d, .idle (Or.inr ⟨k, rfl, by rw [hp]; simp, by rw [hp]; simp⟩), h⟩

end
end T86
