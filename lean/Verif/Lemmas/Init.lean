import Verif.Lemmas.Tick
import Mathlib.Data.List.Nodup

/-! The initial state, and what the debugger's accessors see when the pipeline is empty. -/

set_option linter.unusedSimpArgs false
set_option linter.unusedVariables false

namespace T86
open Isa

section
variable {cfg : Cfg}

theorem init_get {k : Nat} (hk : k < cfg.nkeys) :
    (Rat.init cfg)[k]? = some (if k < cfg.nreg + cfg.nfreg then k else k + 1) := by
  unfold Cfg.nkeys at hk
  unfold Rat.init
  split
  · next h =>
    rw [List.getElem?_append_left (by rw [List.length_range]; exact h), List.getElem?_range h]
  · next h =>
    rw [List.getElem?_append_right (by rw [List.length_range]; omega), List.length_range]
    obtain ⟨j, rfl⟩ : ∃ j, k = cfg.nreg + cfg.nfreg + j := ⟨k - (cfg.nreg + cfg.nfreg), by omega⟩
    rw [Nat.add_sub_cancel_left]
    have : j = 0 ∨ j = 1 ∨ j = 2 ∨ j = 3 := by omega
    rcases this with rfl | rfl | rfl | rfl <;> rfl

theorem init_length : (Rat.init cfg).length = cfg.nkeys := by
  unfold Rat.init Cfg.nkeys; simp

theorem init_nodup : (Rat.init cfg).Nodup := by
  unfold Rat.init
  rw [List.nodup_append]
  refine ⟨List.nodup_range, by simp, ?_⟩
  intro a ha b hb
  simp at ha hb
  omega

theorem init_lt {p : Nat} (hr : 0 < cfg.rsMax) (hp : p ∈ Rat.init cfg) : p < cfg.nphys := by
  obtain ⟨k, hk, h⟩ := List.getElem_of_mem hp
  have h := List.getElem?_eq_getElem hk ▸ congrArg some h
  rw [init_length] at hk
  rw [init_get hk] at h
  unfold Cfg.nkeys at hk
  unfold Cfg.nphys
  simp only [Option.some.injEq] at h
  split at h <;> omega

theorem initRegs_get {p : Nat} (hp : p < cfg.nphys) : (Cpu.initRegs cfg)[p]? = some (
    if p ∈ Rat.init cfg then
      { value := if p = cfg.nreg + cfg.nfreg + 2 ∨ p = cfg.nreg + cfg.nfreg + 3 then BitVec.ofNat 64 cfg.ramSize else 0
        ready := true, subs := 1 }
    else { value := 0, ready := false, subs := 0 }) := by
  unfold Cpu.initRegs
  rw [List.getElem?_map, List.getElem?_range hp]
  rfl

theorem init_cell (hr : 0 < cfg.rsMax) {data : List Word} {inp : List (BitVec 8)} {r : LReg} {k : Nat} (hk : cfg.key r = some k) :
    ∃ p, (Rat.init cfg)[k]? = some p ∧ (if p < cfg.nreg + cfg.nfreg then p else p - 1) = k ∧
      CellVal (Cpu.initRegs cfg) p ((start cfg data inp).reg r) := by
  have hlt := key_lt hk
  refine ⟨_, init_get hlt, ?_, ?_⟩
  · split
    · rfl
    · split <;> omega
  · have hm := List.mem_of_getElem? (init_get hlt)
    refine ⟨_, initRegs_get (init_lt hr hm), ?_, ?_⟩
    · rw [if_pos hm]
    · rw [if_pos hm]
      change (if _ then _ else _) = (if r = .int .sp ∨ r = .int .bp then BitVec.ofNat 64 cfg.ramSize else 0)
      unfold Cfg.key at hk
      split at hk <;> simp at hk <;> grind

/-- The initial state. -/
theorem inv_init {prog : List Instr} {data : List Word} {inp : List (BitVec 8)} (hr : 0 < cfg.rsMax)
    (hw : ∀ i ∈ prog, i.wf cfg = true) (hd : data.length ≤ cfg.ramSize) :
    Inv cfg (Cpu.init cfg prog data inp) (start cfg data inp) := by
  refine ⟨fun p => (0, if p < cfg.nreg + cfg.nfreg then p else p - 1), 1, 0, Rat.init cfg, hw, ⟨rfl, rfl, rfl, rfl⟩, ⟨init_length, ?_⟩,
    ?_, ⟨?_, ?_, ?_⟩, ⟨List.Pairwise.nil, ?_, ?_, ?_⟩, ⟨?_, ?_, ?_, ?_, ?_, ?_, ?_⟩, rfl, rfl, rfl, rfl, Nat.zero_le _⟩
  · intro r k hk _
    obtain ⟨p, h1, h2, h3⟩ := init_cell hr (data := data) (inp := inp) hk
    exact ⟨p, h1, h2, Nat.zero_lt_one, h3⟩
  · intro _
    obtain ⟨p, h1, h2, h3⟩ := init_cell hr (data := data) (inp := inp) (key_pc (cfg := cfg))
    exact ⟨p, h1, h2, h3⟩
  · change (Cpu.initRegs cfg).length = _
    unfold Cpu.initRegs; simp
  · intro p c hc
    change (Cpu.initRegs cfg)[p]? = some c at hc
    change c.subs = (Rat.init cfg ++ [] ++ []).count p
    rw [List.append_nil, List.append_nil]
    have hp : p < cfg.nphys := by
      have := (List.getElem?_eq_some_iff.1 hc).1
      simpa [Cpu.initRegs] using this
    rw [initRegs_get hp] at hc
    cases hc
    split
    · next hm => exact (List.count_eq_one_of_mem init_nodup hm).symm
    · next hm => exact (List.count_eq_zero_of_not_mem hm).symm
  · intro p hp
    change p ∈ Rat.init cfg ++ [] ++ [] at hp
    rw [List.append_nil, List.append_nil] at hp
    exact init_lt hr hp
  · intro w hw; cases hw
  · intro w hw; cases hw
  · intro w hw; cases hw
  · change (data ++ List.replicate (cfg.ramSize - data.length) 0).length = _
    simp; omega
  · intro a
    change (if a.toNat < cfg.ramSize then some (data[a.toNat]?.getD 0) else none) =
      (data ++ List.replicate (cfg.ramSize - data.length) 0)[a.toNat]?
    rw [List.getElem?_append]
    split
    · split
      · next h => rw [List.getElem?_eq_getElem h]; rfl
      · next h1 h =>
        rw [List.getElem?_eq_none (by omega), List.getElem?_replicate, if_pos (by omega)]; rfl
    · rw [if_neg (by omega), List.getElem?_replicate, if_neg (by omega)]
  · intro x hx; cases hx
  · intro x hx; cases hx
  · intro x hx; cases hx
  · intro x hx; cases hx
  · intro x hx; cases hx

/-- The register accessors when the pipeline is empty. -/
theorem Inv.readReg {c : Cpu} {S : State} (h : Inv cfg c S) (hq : Quiet c) {r : LReg} {k : Nat} (hk : cfg.key r = some k) :
    Cpu.readReg cfg c.regs c.rat r = .ok (if r = .int .pc then S.pc else S.reg r) := by
  obtain ⟨own, n, m, b, h⟩ := h
  have : ∃ p, c.rat[k]? = some p ∧ CellVal c.regs p (if r = .int .pc then S.pc else S.reg r) := by
    by_cases hr : r = .int .pc
    · subst hr
      rw [key_pc] at hk; cases hk
      rw [if_pos rfl]
      obtain ⟨p, h1, _, h2⟩ := h.pc hq.entries
      exact ⟨p, h1, h2⟩
    · have hw := h.win
      rw [hq.entries] at hw
      obtain ⟨p, h1, _, _, h2⟩ := h.base.cells r k hk hr
      rw [if_neg hr, ← hw.2.1]
      exact ⟨p, h1, h2⟩
  obtain ⟨p, h1, x, h2, _, h3⟩ := this
  unfold Cpu.readReg Rat.translate
  rw [hk]
  simp only [h1, ok_bind, regs_get h2, pure_ok, h3]

theorem Inv.memEq {c : Cpu} {S : State} (h : Inv cfg c S) (a : Word) : S.mem a = c.ram.mem[a.toNat]? := by
  obtain ⟨_, _, _, _, h⟩ := h; exact h.ram.memEq a

theorem Inv.out {c : Cpu} {S : State} (h : Inv cfg c S) : c.out = S.out := by
  obtain ⟨_, _, _, _, h⟩ := h; exact h.out

theorem Inv.inp {c : Cpu} {S : State} (h : Inv cfg c S) : c.inp = S.inp := by
  obtain ⟨_, _, _, _, h⟩ := h; exact h.inp

/-- An empty pipeline goes on at the address of the next instruction. -/
theorem Inv.spc {c : Cpu} {S : State} (h : Inv cfg c S) (hq : Quiet c) : c.spc = S.pc := by
  obtain ⟨_, _, _, _, h⟩ := h
  have hw := h.win
  rw [hq.entries] at hw
  obtain ⟨_, _, hf⟩ := hw
  rw [hq.fetch, hq.decode] at hf
  exact hf.1.symm

end
end T86
