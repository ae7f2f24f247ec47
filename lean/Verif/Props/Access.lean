import Verif.Lemmas.Poke
import Verif.Props.Stepping

/-! # Reading and writing the program's state (C49)

`Native.Shows h n s` (`Verif/Spec/Native.lean`): the debugger is at a stop and shows the state `s` of the sequential machine.
`s.write a l` is `s` with the cells from `a` on replaced by `l`; `s.poke r v` is `s` with one register replaced. -/

set_option linter.unusedSimpArgs false
set_option linter.unusedVariables false
set_option maxRecDepth 100000

namespace T86
open Dbg Str Native Isa

/-- Looking at registers after setting one. -/
theorem look_poke (s : State) (r q : LReg) (v : Word) : (s.poke r v).look q = if q = r then v else s.look q := by
  unfold State.poke State.look
  by_cases hr : r = .int .pc
  · subst hr
    by_cases hq : q = .int .pc <;> simp [hq]
  · by_cases hq : q = .int .pc
    · subst hq
      simp only [if_neg hr, if_true]
      rw [if_neg (fun e => hr e.symm)]
      rfl
    · simp only [if_neg hr, if_neg hq, State.set]

/-- What is shown after setting a register does not depend on what is not shown. -/
theorem shows_poke {cfg : Cfg} {c c' : Cpu} {s s0 : State} {r : LReg} {v : Word} (h1 : Isa.Shows cfg c s) (h2 : Isa.Shows cfg c s0)
    (h3 : Isa.Shows cfg c' (s0.poke r v)) : Isa.Shows cfg c' (s.poke r v) := by
  have hrest : ∀ t : State, (t.poke r v).mem = t.mem ∧ (t.poke r v).out = t.out ∧ (t.poke r v).inp = t.inp ∧ (t.poke r v).halted = t.halted := by
    intro t
    unfold State.poke
    split <;> exact ⟨rfl, rfl, rfl, rfl⟩
  obtain ⟨e1, e2, e3, e4⟩ := hrest s
  obtain ⟨f1, f2, f3, f4⟩ := hrest s0
  refine ⟨fun q hq => ?_, fun a => ?_, ?_, ?_, ?_⟩
  · rw [h3.regs q hq, look_poke, look_poke]
    have := (h2.regs q hq).symm.trans (h1.regs q hq)
    injection this with this
    rw [this]
  · rw [h3.mem, e1, f1, ← h1.mem, ← h2.mem]
  · rw [h3.out, e2, f2, ← h1.out, ← h2.out]
  · rw [h3.inp, e3, f3, ← h1.inp, ← h2.inp]
  · rw [h3.halted, e4, f4, ← h1.halted, ← h2.halted]

section
variable {h : Host} {c : Client} {Tx : Str → Instr → Prop} {prog P : List Instr} {data : List Word} {inp : List (BitVec 8)} {n n' : Native}

/-- C49, reading memory: `ReadMemory` returns the cells of the program's memory, in order, and changes nothing. -/
theorem C49_read_memory {s : State} (hs : Native.Shows h n s) (a m : Word) (hin : a.toNat + m.toNat ≤ c.size) (hsz : c.size < 2 ^ 63)
    (hm : ∀ j, j < m.toNat → (s.mem (a + BitVec.ofNat 64 j)).isSome = true) :
    ∃ l, readMemory h c a m n = (.ok l, n) ∧ l.length = m.toNat ∧ ∀ j, j < m.toNat → l[j]? = s.mem (a + BitVec.ofNat 64 j) := by
  refine ⟨(List.range m.toNat).map fun j => (s.mem (a + BitVec.ofNat 64 j)).getD 0, ?_, by simp, ?_⟩
  · refine readMemory_shows hs (by simp) hin hsz fun j w hj => ?_
    rw [List.getElem?_map] at hj
    obtain ⟨k, hk, e⟩ := Option.map_eq_some_iff.1 hj
    obtain ⟨hlt, hk⟩ := List.getElem?_eq_some_iff.1 hk
    rw [List.getElem_range] at hk
    subst hk
    rw [List.length_range] at hlt
    obtain ⟨v, hv⟩ := Option.isSome_iff_exists.1 (hm j hlt)
    rw [hv] at e ⊢
    exact congrArg some e
  · intro j hj
    obtain ⟨v, hv⟩ := Option.isSome_iff_exists.1 (hm j hj)
    rw [List.getElem?_map, List.getElem?_range hj]
    simp [hv]

/-- C49, writing memory: `SetMemory` replaces exactly the cells from `a` on, and the debugger then shows the changed state. Its
breakpoints and watchpoints stay as they are. (What the program itself sees of it afterwards is C18.) -/
theorem C49_write_memory {s : State} (hs : Native.Shows h n s) (a : Word) (l : List Word) (hin : a.toNat + l.length ≤ c.size)
    (hsz : c.size < 2 ^ 63) (hm : ∀ j, j < l.length → (s.mem (a + BitVec.ofNat 64 j)).isSome = true) :
    ∃ n', setMemory h c a l n = (.ok (), n') ∧ Native.Shows h n' (s.write a l) ∧ n'.bps = n.bps ∧ n'.wps = n.wps := by
  obtain ⟨mem, h1, h2⟩ := setMemory_shows (c := c) hs hin hsz hm
  exact ⟨_, h1, h2, rfl, rfl⟩

/-- C49: what has been written is read back. -/
theorem C49_read_back {s : State} (hs : Native.Shows h n s) (a : Word) (l : List Word) (hin : a.toNat + l.length ≤ c.size)
    (hsz : c.size < 2 ^ 63) (hm : ∀ j, j < l.length → (s.mem (a + BitVec.ofNat 64 j)).isSome = true) :
    ∃ n', setMemory h c a l n = (.ok (), n') ∧ readMemory h c a (BitVec.ofNat 64 l.length) n' = (.ok l, n') := by
  obtain ⟨n', h1, h2, _⟩ := C49_write_memory hs a l hin hsz hm
  have hl : (BitVec.ofNat 64 l.length).toNat = l.length := by
    rw [BitVec.toNat_ofNat, Nat.mod_eq_of_lt (by omega)]
  refine ⟨n', h1, readMemory_shows h2 hl.symm (by omega) hsz fun j w hj => ?_⟩
  obtain ⟨hlt, _⟩ := List.getElem?_eq_some_iff.1 hj
  have e : (a + BitVec.ofNat 64 j).toNat = a.toNat + j := by
    simp only [BitVec.toNat_add, BitVec.toNat_ofNat]
    omega
  unfold State.write
  simp only [e]
  rw [if_pos (by omega), show a.toNat + j - a.toNat = j by omega]
  exact hj

/-- C49, reading registers: `GetRegister` returns the value of the register, and rejects every name that is not one of IP, BP, SP,
R0, R1, ... up to the number of registers. Nothing is changed. -/
theorem C49_read_register {s : State} (hs : Native.Shows h n s) :
    (∀ r ∈ shown h.cfg, getRegister h r.print n = (.ok (s.look (.int r)), n)) ∧
    ∀ name, (∀ r ∈ shown h.cfg, name ≠ r.print) → getRegister h name n = (.error .debugger, n) := by
  refine ⟨hs.regs, fun name hn => ?_⟩
  unfold getRegister
  rw [Job.bind_eq (getRegisters_shows hs.live hs.machine)]
  have : (listed h.cfg s).find name = none := by
    cases hf : (listed h.cfg s).find name with
    | none => rfl
    | some v =>
      obtain ⟨r, hr, e⟩ := List.mem_map.1 (Map.mem_of_find hf)
      injection e with e _
      exact absurd e.symm (hn r hr)
  rw [this]
  rfl

/-- C49, writing a register: `SetRegister` replaces exactly this register, and the debugger then shows the changed state, when the
debugger knows of all registers of the machine (see `C34_many_registers`). -/
theorem C49_write_register (ht : Texts h Tx) (hl : prog.length < 2 ^ 63) (hp : ∀ i ∈ prog, Plain h i) (hset : Setup h.cfg prog data)
    (hx : Careful h c Tx prog data inp P n) {s : State} (hs : Native.Shows h n s) (hg : h.cfg.nreg ≤ c.gp) (h64 : h.cfg.nreg ≤ 2 ^ 64)
    (r : Reg) (hr : r ∈ shown h.cfg) (v : Word) :
    ∃ n', setRegister h c r.print v n = (.ok (), n') ∧ Native.Shows h n' (s.poke (.int r) v) ∧ n'.bps = n.bps ∧ n'.wps = n.wps ∧
      Careful h c Tx prog data inp P n' := by
  obtain ⟨hf, d, hv⟩ := careful_view ht hl hp hset hx
  obtain ⟨why, hw⟩ := hs.live.stopped
  have hd : d.phase = .stopped why := hv.same.phase.symm.trans hw
  obtain ⟨hi, _⟩ := hv.same.live (by rw [hd]; simp) (by rw [hd]; simp)
  have hm := hi.shows (hv.same.quiet why hd)
  obtain ⟨l', h1, h2, h3⟩ := setRegister_shows hv hs.live hg h64 hr v
  have hd' : ({ d with state := d.state.poke (.int r) v } : Isa.Dbg).phase = .stopped why := hd
  obtain ⟨hi', _⟩ := h3.same.live (by rw [hd']; simp) (by rw [hd']; simp)
  have hm' := hi'.shows (h3.same.quiet why hd')
  refine ⟨_, h1, shows_of_machine h2 (shows_poke hs.machine hm hm'), rfl, rfl, ?_⟩
  exact .call (.setRegister r.print v) hx h1 rfl trivial

end

/-! ## Examples -/

/-- At every stop of a careful session a state is shown, so the theorems above apply. -/
theorem careful_shows {h : Host} {c : Client} {Tx : Str → Instr → Prop} {prog P : List Instr} {data : List Word} {inp : List (BitVec 8)}
    {n : Native} (ht : Texts h Tx) (hl : prog.length < 2 ^ 63) (hp : ∀ i ∈ prog, Plain h i) (hset : Setup h.cfg prog data)
    (hx : Careful h c Tx prog data inp P n) (hn : n.link.Live) : ∃ s, Native.Shows h n s := by
  obtain ⟨_, d, hv⟩ := careful_view ht hl hp hset hx
  obtain ⟨why, hw⟩ := hn.stopped
  exact ⟨d.state, hv.shows (hv.same.phase.symm.trans hw) hn.alive⟩

theorem Sample.calls_shows : ∃ s, Native.Shows Sample.host (Sample.after (Sample.started Sample.calls) Sample.history) s :=
  careful_shows (Tx := fun s i => s = i.print Sample.host.ftos ∧ Plain Sample.host i) (texts_print _) (by decide) Sample.calls_plain
    Sample.calls_setup Sample.history_careful ⟨by decide +kernel, by decide +kernel, by decide +kernel, ⟨.singleStep, by decide +kernel⟩⟩

/-- Non-vacuity: at the end of the history of `Verif/Props/Native.lean` a state is shown whose memory has the 16 cells the debugger
expects; the cells 8 and 9 can be written and read back, and R0 can be set. -/
example : ∃ s, Native.Shows Sample.host (Sample.after (Sample.started Sample.calls) Sample.history) s ∧ s.mem 8 = some 7 ∧
    (∀ j, j < 2 → (s.mem (8 + BitVec.ofNat 64 j)).isSome = true) ∧ (8 : Word).toNat + [1, 2].length ≤ Sample.client.size ∧
    Reg.gp 0 ∈ shown Sample.host.cfg ∧ Sample.host.cfg.nreg ≤ Sample.client.gp := by
  obtain ⟨s, hs⟩ := Sample.calls_shows
  refine ⟨s, hs, ?_, ?_, by decide, by decide, by decide⟩
  · rw [← hs.machine.mem]
    decide +kernel
  · intro j hj
    rw [← hs.machine.mem]
    have : j = 0 ∨ j = 1 := by omega
    rcases this with rfl | rfl <;> decide +kernel

/-- The calls themselves. -/
example :
    (readMemory Sample.host Sample.client 8 2 (Sample.after (Sample.started Sample.calls) Sample.history)).1 = .ok [7, 0] ∧
    (readMemory Sample.host Sample.client 8 2 (setMemory Sample.host Sample.client 9 [5]
      (Sample.after (Sample.started Sample.calls) Sample.history)).2).1 = .ok [7, 5] ∧
    (getRegister Sample.host "R0".toList (setRegister Sample.host Sample.client "R0".toList 9
      (Sample.after (Sample.started Sample.calls) Sample.history)).2).1 = .ok 9 ∧
    (getRegister Sample.host "R1".toList (setRegister Sample.host Sample.client "R0".toList 9
      (Sample.after (Sample.started Sample.calls) Sample.history)).2).1 =
      (getRegister Sample.host "R1".toList (Sample.after (Sample.started Sample.calls) Sample.history)).1 ∧
    (getRegister Sample.host "FLAGS".toList (Sample.after (Sample.started Sample.calls) Sample.history)).1 = .error .debugger := by
  decide +kernel

end T86
