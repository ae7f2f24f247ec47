import Verif.Lemmas.Refs

/-! The memory write of a retiring instruction. -/

set_option linter.unusedSimpArgs false
set_option linter.unusedVariables false

namespace T86
open Isa

section
variable {cfg : Cfg}

/-! ## Watchpoints -/

theorem testBit_eq (x : Word) {i : Nat} (hi : i < 4) : x &&& BitVec.ofNat 64 (1 <<< i) = 0 ↔ x.getLsbD i = false := by
  have h : BitVec.ofNat 64 (1 <<< i) = BitVec.twoPow 64 i := by
    have : i = 0 ∨ i = 1 ∨ i = 2 ∨ i = 3 := by omega
    rcases this with rfl | rfl | rfl | rfl <;> decide
  rw [h, BitVec.and_twoPow]
  split
  · next hb =>
    rw [hb]
    constructor
    · intro h0
      exfalso
      have : i = 0 ∨ i = 1 ∨ i = 2 ∨ i = 3 := by omega
      rcases this with rfl | rfl | rfl | rfl <;> exact absurd h0 (by decide)
    · intro h; cases h
  · next hb =>
    simp at hb
    simp [hb]

theorem markHit_low (x : Word) (j : Nat) {i : Nat} (hi : i < 8) : (Cpu.markHit x j).getLsbD i = x.getLsbD i := by
  unfold Cpu.markHit
  have : (0xFF00 : Word).getLsbD i = false := by
    have : i = 0 ∨ i = 1 ∨ i = 2 ∨ i = 3 ∨ i = 4 ∨ i = 5 ∨ i = 6 ∨ i = 7 := by omega
    rcases this with rfl | rfl | rfl | rfl | rfl | rfl | rfl | rfl <;> decide
  simp only [BitVec.getLsbD_or, BitVec.getLsbD_and, BitVec.getLsbD_not, BitVec.getLsbD_shiftLeft, this]
  simp [hi, show i < 64 by omega]

theorem markHit_markHit (x : Word) (i j : Nat) (hi : i < 4) : Cpu.markHit (Cpu.markHit x i) j = Cpu.markHit x j := by
  unfold Cpu.markHit
  congr 1
  have h : (BitVec.ofNat 64 (1 <<< i) <<< (8 : Nat)) &&& ~~~(0xFF00 : Word) = 0 := by
    have : i = 0 ∨ i = 1 ∨ i = 2 ∨ i = 3 := by omega
    rcases this with rfl | rfl | rfl | rfl <;> decide
  rw [show ∀ a b c : Word, (a ||| b) &&& c = (a &&& c) ||| (b &&& c) from fun a b c => by
    ext k hk; simp [Bool.and_or_distrib_right]]
  rw [h, BitVec.and_assoc, BitVec.and_self]
  exact BitVec.or_zero

/-- The debug registers after a hit of register `j`. -/
def hitDbg (dbg : List Word) : Option Nat → List Word
  | none => dbg
  | some j => dbg.set 4 (Cpu.markHit (dbg.getD 4 0) j)

theorem hitDbg_get (dbg : List Word) (o : Option Nat) {i : Nat} (hi : i < 4) : (hitDbg dbg o).getD i 0 = dbg.getD i 0 := by
  cases o with
  | none => rfl
  | some j => simp [hitDbg, List.getD_eq_getElem?_getD, List.getElem?_set, show 4 ≠ i by omega]

theorem hitDbg_control (dbg : List Word) (j : Nat) (h : 4 < dbg.length) :
    (hitDbg dbg (some j)).getD 4 0 = Cpu.markHit (dbg.getD 4 0) j := by
  simp [hitDbg, List.getD_eq_getElem?_getD, List.getElem?_set, h]

theorem hitDbg_watches (dbg : List Word) (o : Option Nat) (a : Word) {i : Nat} (hi : i < 4) :
    watches (hitDbg dbg o) a i = watches dbg a i := by
  unfold watches
  rw [hitDbg_get _ _ hi]
  congr 1
  cases o with
  | none => rfl
  | some j =>
    by_cases h : 4 < dbg.length
    · rw [hitDbg_control _ _ h, markHit_low _ _ (by omega)]
    · simp [hitDbg, List.getD_eq_getElem?_getD, List.getElem?_set, h]

theorem hitDbg_hitDbg (dbg : List Word) {i : Nat} (j : Nat) (hi : i < 4) : hitDbg (hitDbg dbg (some i)) (some j) = hitDbg dbg (some j) := by
  by_cases h : 4 < dbg.length
  · have := hitDbg_control dbg i h
    change (hitDbg dbg (some i)).set 4 (Cpu.markHit ((hitDbg dbg (some i)).getD 4 0) j) = _
    rw [this, markHit_markHit _ _ _ hi]
    simp [hitDbg]
  · simp [hitDbg, List.set_eq_of_length_le (show dbg.length ≤ 4 by omega)]

theorem checkWriteStep_eq (a : Word) (dbg : List Word) (k : Nat) {i : Nat} (hi : i < 4) :
    Cpu.checkWriteStep a (dbg, k) i = if watches dbg a i then (hitDbg dbg (some i), 2) else (dbg, k) := by
  unfold Cpu.checkWriteStep watches
  simp only
  rw [if_congr (testBit_eq _ hi) rfl rfl]
  cases h : (dbg.getD 4 0).getLsbD i
  · simp
  · by_cases h2 : dbg.getD i 0 = a
    · simp [h2, hitDbg]
    · simp only [Bool.true_and, beq_iff_eq, h2, if_false, reduceCtorEq]

/-- What `checkWrite` does. -/
theorem checkWrite_eq (c : Cpu) (a : Word) : c.checkWrite a =
    { c with dbg := hitDbg c.dbg (watchHit c.dbg a), intr := if (watchHit c.dbg a).isSome then 2 else c.intr } := by
  unfold Cpu.checkWrite
  have hr : List.range 4 = [0, 1, 2, 3] := rfl
  have key : [0, 1, 2, 3].foldl (Cpu.checkWriteStep a) (c.dbg, c.intr) =
      (hitDbg c.dbg (watchHit c.dbg a), if (watchHit c.dbg a).isSome then 2 else c.intr) := by
    have hn : hitDbg c.dbg none = c.dbg := rfl
    rcases Bool.eq_false_or_eq_true (watches c.dbg a 0) with h0 | h0 <;>
      rcases Bool.eq_false_or_eq_true (watches c.dbg a 1) with h1 | h1 <;>
      rcases Bool.eq_false_or_eq_true (watches c.dbg a 2) with h2 | h2 <;>
      rcases Bool.eq_false_or_eq_true (watches c.dbg a 3) with h3 | h3 <;>
      simp [checkWriteStep_eq, hitDbg_watches, h0, h1, h2, h3, hitDbg_hitDbg, hn, watchHit, List.find?_cons]
  rw [hr, key]

theorem watchHit_hitDbg (dbg : List Word) (o : Option Nat) (a : Word) : watchHit (hitDbg dbg o) a = watchHit dbg a := by
  unfold watchHit
  simp [List.find?_cons, hitDbg_watches]

/-! ## Handing a write over to the RAM -/

theorem startWriting_sat {q : Writes} {ram : Ram} {m : Nat} {a v : Word} {mem : Word → Option Word} (hm : WmOK q m)
    (hr : q.recOf (m + 1) = some (a, some v, none)) (hu : m + 1 ∉ q.unspec) (hle : m + 1 ≤ q.cur)
    (hR : RamOK cfg ram q.outs mem) :
    Sat (q.startWriting (m + 1) ram) (fun y => (mem a).isSome ∧ WmOK y.1 (m + 1) ∧
      RamOK cfg y.2 y.1.outs (storeMem (some (a, v)) mem) ∧ y.1.cur = q.cur ∧
      (∀ j, j ≠ m + 1 → y.1.recOf j = q.recOf j) ∧ y.1.unspec = q.unspec)
      (fun f => f = .ub ∨ (f = .exn .outOfRange ∧ mem a = none)) := by
  obtain ⟨w, hw, h1, h2, h3, h4, hf⟩ := Writes.recOf_some hr
  unfold Writes.startWriting Writes.getWrite
  rw [hf]
  simp only
  split
  case isFalse => exact Or.inl rfl
  rw [ok_bind]
  simp only [h4, h3]
  unfold Ram.write
  rw [h2]
  split
  case isFalse hlt =>
    refine Or.inr ⟨rfl, ?_⟩
    rw [hR.memEq, List.getElem?_eq_none (by omega)]
  next hlt =>
  have hsome : (mem a).isSome := by rw [hR.memEq, List.getElem?_eq_getElem hlt]; rfl
  rw [ok_bind]
  have hmo : ∀ x, x ∈ (q.modify (m + 1) fun w => { w with ramId := some ram.nextId }).outs ↔
      x ∈ q.outs ∨ x = (m + 1, a, some v, some ram.nextId) := by
    intro x
    unfold Writes.outs Writes.modify
    simp only [List.mem_map, List.mem_filter]
    constructor
    · rintro ⟨y, ⟨⟨z, hz, rfl⟩, hy⟩, rfl⟩
      split
      · next hid =>
        have := Desc.unique hm.sorted hz hw (by omega)
        subst this
        simp only [h2, h3, h1]
        exact Or.inr trivial
      · next hid =>
        rw [if_neg hid] at hy
        exact Or.inl ⟨z, ⟨hz, hy⟩, rfl⟩
    · rintro (⟨y, ⟨hy, hs⟩, rfl⟩ | rfl)
      · refine ⟨y, ⟨⟨y, hy, ?_⟩, hs⟩, rfl⟩
        rw [if_neg]
        intro hid
        have := Desc.unique hm.sorted hy hw (by omega)
        subst this
        rw [h4] at hs; cases hs
      · refine ⟨_, ⟨⟨w, hw, rfl⟩, ?_⟩, ?_⟩
        · rw [if_pos h1]; rfl
        · rw [if_pos h1]; simp [h1, h2, h3]
  have hold : ∀ x ∈ q.outs, x.1 ≤ m := fun x hx => hm.outs_le hx
  refine ⟨hsome, ⟨?_, ?_, ?_, ?_⟩, ⟨?_, ?_, ?_, ?_, ?_, ?_, ?_⟩, rfl, ?_, rfl⟩
  · unfold Writes.modify; simp only
    rw [List.pairwise_map]
    refine hm.sorted.imp ?_
    intro x y hxy
    split <;> split <;> simpa using hxy
  · intro x hx hle
    obtain ⟨y, hy, rfl⟩ := List.mem_map.1 hx
    split at hle
    · next hid => rw [if_pos hid]; rfl
    · next hid => rw [if_neg hid]; exact hm.old y hy (by omega)
  · intro x hx hlt
    obtain ⟨y, hy, rfl⟩ := List.mem_map.1 hx
    split at hlt
    · simp only at hlt; omega
    · next hid => rw [if_neg hid]; exact hm.new y hy (by omega)
  · intro u hu'
    have hu' : u ∈ q.unspec := hu'
    have := hm.unspec u hu'
    have hne : u ≠ m + 1 := by rintro rfl; exact hu hu'
    exact ⟨by omega, this.2⟩
  · simp only [List.length_set]; exact hR.size
  · intro a'
    simp only [storeMem]
    rw [List.getElem?_set]
    by_cases haa : a' = a
    · subst haa; simp [hlt]
    · rw [if_neg haa, if_neg (fun h => haa (BitVec.eq_of_toNat_eq h.symm))]
      exact hR.memEq a'
  · intro x hx
    obtain ⟨k1, k2⟩ := hR.reads x hx
    refine ⟨k1, ?_⟩
    by_cases haa : x.addr = a
    · exact Or.inr ⟨_, List.mem_cons_self .., haa.symm, k1⟩
    · rcases k2 with k2 | ⟨w', g1, g2, g3⟩
      · left; simp [storeMem, haa, k2]
      · exact Or.inr ⟨w', List.mem_cons_of_mem _ (List.mem_filter.2 ⟨g1, by simp [g2, haa]⟩), g2, g3⟩
  · intro we hwe
    rcases List.mem_cons.1 hwe with rfl | hwe
    · refine ⟨_, (hmo _).2 (Or.inr rfl), rfl, rfl, ?_⟩
      intro w' hw' _
      rcases (hmo _).1 hw' with hw' | rfl
      · have := hold _ hw'; simp only; omega
      · exact Nat.le_refl _
    · rw [List.mem_filter] at hwe
      obtain ⟨w', k1, k2, k3, k4⟩ := hR.writes we hwe.1
      refine ⟨w', (hmo _).2 (Or.inl k1), k2, k3, ?_⟩
      intro w2 hw2 ha2
      rcases (hmo _).1 hw2 with hw2 | rfl
      · exact k4 w2 hw2 ha2
      · exfalso
        simp only at ha2
        have := hwe.2
        simp at this
        exact this (k3.symm.trans ha2.symm)
  · intro w' hw'
    rcases (hmo _).1 hw' with hw' | rfl
    · obtain ⟨rid, k1, k2⟩ := hR.outRid w' hw'
      exact ⟨rid, k1, by simp only; omega⟩
    · exact ⟨_, rfl, by simp only; omega⟩
  · intro w' hw' hn
    rcases (hmo _).1 hw' with hw' | rfl
    · have hne : w'.2.1 ≠ a := by
        intro ha
        have := hn _ ((hmo _).2 (Or.inr rfl)) ha.symm
        have := hold _ hw'
        simp only at *
        omega
      simp only [storeMem, hne, if_false]
      exact hR.newest w' hw' fun w2 hw2 => hn w2 ((hmo _).2 (Or.inl hw2))
    · simp [storeMem]
  · intro w1 hw1 w2 hw2 he
    rcases (hmo _).1 hw1 with k1 | rfl <;> rcases (hmo _).1 hw2 with k2 | rfl
    · exact hR.inj w1 k1 w2 k2 he
    · obtain ⟨rid, g1, g2⟩ := hR.outRid w1 k1
      simp only at he
      rw [g1] at he; cases he; omega
    · obtain ⟨rid, g1, g2⟩ := hR.outRid w2 k2
      simp only at he
      rw [g1] at he; cases he; omega
    · rfl
  · intro j hj
    rw [Writes.modify_recOf (by intro w; rfl), if_neg hj]

theorem removePending_outs (q : Writes) : q.removePending.outs = q.outs := by
  unfold Writes.removePending Writes.outs
  simp

theorem removePending_wmOK {q : Writes} {m : Nat} (h : WmOK q m) (hle : m ≤ q.cur) : WmOK q.removePending q.cur where
  sorted := h.sorted.filter _
  old := fun w hw _ => (List.mem_filter.1 hw).2
  new := fun w hw hlt => by
    rw [Writes.removePending] at hw
    obtain ⟨h1, h2⟩ := List.mem_filter.1 hw
    have := h.new w h1 (by omega)
    rw [this.1] at h2
    cases h2
  unspec := fun u hu => by cases hu

/-- The address of a write in the sense of the specification. -/
theorem storeOf_writeAddr {S : State} {i : Instr} {a v : Word} (hw : i.wf cfg = true) (h : storeOf cfg S i = some (a, v)) :
    writeAddr S i = some a := by
  unfold storeOf at h
  split at h
  case h_2 => cases h
  next x hx =>
  cases i
  case mov dst v' =>
    cases dst
    case memImm a' =>
      change Except.ok _ = _ at hx
      cases hx
      cases h
      rfl
    case mem e =>
      rw [valsOf_mov_mem, exec_mov_mem, bind_ok_iff] at hx
      obtain ⟨a', ha, hx⟩ := hx
      cases hx
      have ha := address_ok_eq ha
      subst ha
      cases h
      rfl
    case val e =>
      cases e
      case reg d => cases hx; cases h
      all_goals simp [Instr.wf] at hw
    case freg => cases hx; cases h
    all_goals simp [Instr.wf] at hw
  case call a' =>
    change Instr.exec cfg _ [_, _, _] = _ at hx
    rw [exec_call, bind_ok_iff] at hx
    obtain ⟨sp, ha, hx⟩ := hx
    cases hx
    have ha := ssub_ok_eq ha
    subst ha
    cases h
    rfl
  case push v' =>
    change Instr.exec cfg _ [_, _] = _ at hx
    rw [exec_push, bind_ok_iff] at hx
    obtain ⟨sp, ha, hx⟩ := hx
    cases hx
    have ha := ssub_ok_eq ha
    subst ha
    cases h
    rfl
  case fpush v' =>
    change Instr.exec cfg _ [_, _] = _ at hx
    rw [exec_fpush, bind_ok_iff] at hx
    obtain ⟨sp, ha, hx⟩ := hx
    cases hx
    have ha := ssub_ok_eq ha
    subst ha
    cases h
    rfl
  all_goals
    exfalso
    have sh := (exec_shape hw hx).mem
    have he : actMems x.acts = [] := by
      simpa [storeProd, prodsOf, Instr.produces, store?_reg, store?_freg, List.findSome?] using sh
    rw [actsStore_none he] at h
    cases h

theorem writeAddr_none {S : State} {i : Instr} (h : storeProd i = none) : writeAddr S i = none := by
  cases i
  case mov dst v =>
    cases dst
    case memImm => simp [storeProd, prodsOf, Instr.produces, Product.fromOperand, bind, Except.bind, pure, Except.pure, store?_memImm, List.findSome?] at h
    case mem => simp [storeProd, prodsOf, Instr.produces, Product.fromOperand, bind, Except.bind, pure, Except.pure, store?_memReg, List.findSome?] at h
    all_goals rfl
  case call => simp [storeProd, prodsOf, Instr.produces, store?_reg, store?_memReg, List.findSome?] at h
  case push => simp [storeProd, prodsOf, Instr.produces, store?_reg, store?_memReg, List.findSome?] at h
  case fpush => simp [storeProd, prodsOf, Instr.produces, store?_reg, store?_memReg, List.findSome?] at h
  all_goals rfl

end
end T86
