import Verif.Lemmas.NativeInv

/-! Every call keeps what holds throughout a session. -/

set_option linter.unusedSimpArgs false
set_option linter.unusedVariables false

namespace T86
open Dbg Str
namespace Native
open Proc Job
variable {h : Host} {c : Client} {Tx : Str → Instr → Prop} {P : List Instr}

/-! ## Reading and writing text -/

theorem patch_get : ∀ (l : List Str) (bps : Map Word Bp) (a : Word) (j : Nat), (patch bps a l)[j]? =
    (l[j]?).map fun s => match bps.find (a + BitVec.ofNat 64 j) with
      | some bp => bp.data
      | none => s
  | [], _, _, _ => by simp [patch]
  | s :: l, bps, a, 0 => by
    rw [patch]
    simp only [List.getElem?_cons_zero, Option.map_some, BitVec.ofNat_eq_ofNat, BitVec.add_zero]
    cases bps.find a <;> rfl
  | s :: l, bps, a, j + 1 => by
    rw [patch, List.getElem?_cons_succ, patch_get l, List.getElem?_cons_succ]
    have : a + 1 + BitVec.ofNat 64 j = a + BitVec.ofNat 64 (j + 1) := by
      rw [BitVec.ofNat_add, BitVec.add_assoc, BitVec.add_comm (BitVec.ofNat 64 j)]
      rfl
    rw [this]

theorem patch_length : ∀ (l : List Str) (bps : Map Word Bp) (a : Word), (patch bps a l).length = l.length
  | [], _, _ => rfl
  | s :: l, bps, a => by rw [patch, List.length_cons, patch_length l]; rfl

theorem toNat_add {a : Word} {j : Nat} (hj : a.toNat + j < 2 ^ 64) : (a + BitVec.ofNat 64 j).toNat = a.toNat + j := by
  rw [BitVec.toNat_add, BitVec.toNat_ofNat, Nat.mod_eq_of_lt (a := j) (by omega), Nat.mod_eq_of_lt hj]

theorem readText_ok {n n' : Native} {a m : Word} {r : List Str} (ht : Texts h Tx) (hg : Good h Tx P n)
    (hr : readText h a m n = (.ok r, n')) :
    n' = n ∧ a.toNat + m.toNat ≤ P.length ∧ r.length = m.toNat ∧
      ∀ j i, j < m.toNat → P[a.toNat + j]? = some i → ∃ s, r[j]? = some s ∧ Tx s i := by
  unfold readText at hr
  obtain ⟨size, n1, h1, hr⟩ := bind_ok hr
  obtain ⟨e1, hsz, rfl⟩ := textSize_ok hg.rest h1
  rw [e1] at hr
  split at hr
  · cases hr
  · rename_i hle
    obtain ⟨text, n2, h2, hr⟩ := bind_ok hr
    obtain ⟨e2, ha, hm, rfl⟩ := procReadText_ok hg.rest h2
    rw [e2] at hr
    obtain ⟨n3, n4, h3, hr⟩ := bind_ok hr
    cases h3
    cases hr
    have hsum : (a + m).toNat = a.toNat + m.toNat := by
      rw [BitVec.toNat_add, Nat.mod_eq_of_lt (by omega)]
    have hlen := hg.text.length
    have hin : a.toNat + m.toNat ≤ n.link.vm.cpu.prog.length := by
      rw [hsum, BitVec.toNat_ofNat, Nat.mod_eq_of_lt hsz] at hle
      omega
    have hsz2 := hg.text.size
    rw [peekText_eq hin (by omega)]
    have hpl : ∀ i ∈ (n.link.vm.cpu.prog.drop a.toNat).take m.toNat, Plain h i := by
      intro i hi
      obtain ⟨j, hj⟩ := List.getElem?_of_mem hi
      rw [List.getElem?_take] at hj
      split at hj
      · rw [List.getElem?_drop] at hj
        have : a.toNat + j < n.link.vm.cpu.prog.length := (List.getElem?_eq_some_iff.1 hj).1
        rw [← toNat_add (by omega)] at hj
        exact hg.text.plainQ hj
      · cases hj
    rw [split_lines hpl]
    refine ⟨rfl, by omega, ?_, ?_⟩
    · rw [patch_length, List.length_map, List.length_take, List.length_drop]
      omega
    · intro j i hj hi
      rw [patch_get, List.getElem?_map, List.getElem?_take, if_pos hj, List.getElem?_drop]
      have hw : a.toNat + j = (a + BitVec.ofNat 64 j).toNat := (toNat_add (by omega)).symm
      have hq : a.toNat + j < n.link.vm.cpu.prog.length := by omega
      rw [List.getElem?_eq_getElem hq]
      refine ⟨_, rfl, ?_⟩
      simp only
      cases hb : n.bps.find (a + BitVec.ofNat 64 j) with
      | some bp =>
        obtain ⟨i', hi', hx⟩ := hg.text.saved _ bp hb
        rw [← hw, hi] at hi'
        cases hi'
        exact hx
      | none =>
        have := hg.text.clear (a + BitVec.ofNat 64 j) (by rw [hb]; intro bp hc; cases hc)
        rw [← hw, hi, List.getElem?_eq_getElem hq] at this
        rw [Option.some.inj this]
        exact ht.print (hg.text.plain i (List.mem_of_getElem? hi))

theorem overwrite_nil (Q : List Instr) (i : Nat) : overwrite Q i [] = Q := by
  unfold overwrite
  simp

theorem overwrite_cons {Q : List Instr} {i : Nat} {x : Instr} {l : List Instr} (hi : i < Q.length) :
    overwrite Q i (x :: l) = overwrite (Q.set i x) (i + 1) l := by
  unfold overwrite
  rw [List.take_set, List.drop_set, List.take_add_one, List.getElem?_eq_getElem hi]
  simp only [Option.toList_some, List.length_cons]
  rw [if_pos (by omega), List.set_append_right _ _ (by simp; omega)]
  simp only [List.length_take, Nat.min_eq_left (Nat.le_of_lt hi), Nat.sub_self, List.set_cons_zero, List.append_assoc,
    List.cons_append, List.nil_append]
  rw [show i + (l.length + 1) = i + 1 + l.length by omega]

theorem shape_write {Q : List Instr} {bps : Map Word Bp} {a : Word} {i j : Instr} {bps' : Map Word Bp} {s : Str} (hs : Shape h Tx P bps Q)
    (hlt : a.toNat < Q.length) (hpl : Plain h i) (hx : Tx s i)
    (hb : ∀ b, b ≠ a → bps'.find b = bps.find b)
    (ha : (∃ bp, bps.find a = some bp ∧ bp.enabled = true ∧ bps'.find a = some { bp with data := s } ∧ j = .bkpt) ∨
      (bps.find a = none ∧ bps'.find a = none ∧ j = i)) :
    Shape h Tx (P.set a.toNat i) bps' (Q.set a.toNat j) := by
  have hP : a.toNat < P.length := by rw [← hs.length]; exact hlt
  refine ⟨by simp [hs.size], ?_, by simp [hs.length], ?_, ?_, ?_⟩
  · intro x hx
    rcases List.mem_or_eq_of_mem_set hx with hx | rfl
    · exact hs.plain x hx
    · exact hpl
  · intro b bp hbp
    by_cases e : b = a
    · subst e
      rcases ha with ⟨bp', _, _, h3, _⟩ | ⟨_, h3, _⟩
      · rw [h3] at hbp
        cases hbp
        exact ⟨i, by simp [hP], hx⟩
      · rw [h3] at hbp; cases hbp
    · rw [hb b e] at hbp
      rw [getElem_set_word e]
      exact hs.saved b bp hbp
  · intro b bp hbp he
    by_cases e : b = a
    · subst e
      rcases ha with ⟨bp', _, _, h3, rfl⟩ | ⟨_, h3, _⟩
      · simp [hlt]
      · rw [h3] at hbp; cases hbp
    · rw [hb b e] at hbp
      rw [getElem_set_word e]
      exact hs.armed b bp hbp he
  · intro b hbp
    by_cases e : b = a
    · subst e
      rcases ha with ⟨bp', _, h2, h3, rfl⟩ | ⟨_, h3, rfl⟩
      · have := hbp _ h3
        simp only at this
        rw [h2] at this
        cases this
      · simp [hlt, hP]
    · rw [getElem_set_word e, getElem_set_word e]
      exact hs.clear b (by intro bp hf; exact hbp bp (by rw [hb b e]; exact hf))

theorem write_loop (ht : Texts h Tx) : ∀ {l : List Str} {is : List Instr} {P : List Instr} {bps : Map Word Bp} {a : Word} {k k' : Link},
    k.At → Shape h Tx P bps k.vm.cpu.prog → List.Forall₂ Tx l is → (∀ i ∈ is, Plain h i) →
    (∀ b bp, bps.find b = some bp → a.toNat ≤ b.toNat → b.toNat < a.toNat + l.length → bp.enabled = true) →
    Proc.writeText h a (save bps a l).2 k = (.ok (), k') →
    (∃ Q, k' = withProg k Q) ∧ Shape h Tx (overwrite P a.toNat is) (save bps a l).1 k'.vm.cpu.prog
  | [], is, P, bps, a, k, k', hk, hs, hf, hp, hd, hr => by
    cases hf
    cases hr
    rw [overwrite_nil]
    exact ⟨⟨k.vm.cpu.prog, rfl⟩, hs⟩
  | s :: l, is, P, bps, a, k, k', hk, hs, hf, hp, hd, hr => by
    cases hf with
    | @cons _ i _ is hx hf =>
    have hm := ht.means hx
    cases hb : bps.find a with
    | none =>
      simp only [save, hb] at hr ⊢
      obtain ⟨i', e1, e2, e3, e4⟩ := writeText_cons hk hm.2 hr
      rw [hm.1] at e1
      cases e1
      have hsz := hs.size
      have hlen := hs.length
      have hn : (a + 1).toNat = a.toNat + 1 := toNat_add (j := 1) (by omega)
      have hs' : Shape h Tx (P.set a.toNat i) bps (k.vm.cpu.prog.set a.toNat i) :=
        shape_write hs e2 (hp i (by simp)) hx (fun _ _ => rfl) (.inr ⟨hb, hb, rfl⟩)
      obtain ⟨⟨Q, h5⟩, h6⟩ := write_loop ht e3 hs' hf (fun j hj => hp j (by simp [hj])) (by
        intro b bp hbp hab hbl
        rw [hn] at hab hbl
        exact hd b bp hbp (by omega) (by simp only [List.length_cons]; omega)) e4
      refine ⟨⟨Q, h5⟩, ?_⟩
      rw [overwrite_cons (by omega), ← hn]
      exact h6
    | some bp =>
      have hen := hd a bp hb (Nat.le_refl _) (by simp)
      simp only [save, hb] at hr ⊢
      obtain ⟨i', e1, e2, e3, e4⟩ := writeText_cons hk (by decide) hr
      have hbk := (plain_bkpt h).means.1
      rw [print_bkpt, e1] at hbk
      cases hbk
      have hsz := hs.size
      have hlen := hs.length
      have hn : (a + 1).toNat = a.toNat + 1 := toNat_add (j := 1) (by omega)
      have hs' : Shape h Tx (P.set a.toNat i) (bps.assign a { bp with data := s }) (k.vm.cpu.prog.set a.toNat .bkpt) :=
        shape_write hs e2 (hp i (by simp)) hx (fun b e => by rw [Map.find_assign, if_neg e])
          (.inl ⟨bp, hb, hen, by rw [Map.find_assign, if_pos rfl], rfl⟩)
      obtain ⟨⟨Q, h5⟩, h6⟩ := write_loop ht e3 hs' hf (fun j hj => hp j (by simp [hj])) (by
        intro b bp' hbp hab hbl
        rw [hn] at hab hbl
        rw [Map.find_assign, if_neg (by rintro rfl; omega)] at hbp
        exact hd b bp' hbp (by omega) (by simp only [List.length_cons]; omega)) e4
      refine ⟨⟨Q, h5⟩, ?_⟩
      rw [overwrite_cons (by omega), ← hn]
      exact h6

theorem write_good (ht : Texts h Tx) {a : Word} {l : List Str} {n n' : Native} {P' : List Instr} (hg : Good h Tx P n)
    (hr : writeText h a l n = (.ok (), n')) (hx : (Op.write a l).Text h Tx n P P') : Good h Tx P' n' := by
  obtain ⟨is, h1, h2, rfl, h3⟩ := hx
  unfold writeText at hr
  obtain ⟨size, n1, e1, hr⟩ := bind_ok hr
  obtain ⟨rfl, hsz, rfl⟩ := textSize_ok hg.rest e1
  split at hr
  · cases hr
  · obtain ⟨n2, n3, e2, hr⟩ := bind_ok hr
    cases e2
    obtain ⟨u, n4, e3, hr⟩ := bind_ok hr
    cases e3
    obtain ⟨e4, e5⟩ := proc_ok hr
    obtain ⟨⟨Q, e6⟩, e7⟩ := write_loop ht hg.rest hg.text h1 h2 h3 e4
    rw [e5]
    refine ⟨?_, e7, ?_, hg.fresh⟩
    · rw [e6]; exact ⟨hg.rest.1, hg.rest.2, hg.rest.3⟩
    · rw [e6]; exact hg.watch

/-! ## Registers and memory -/

theorem read_good (ht : Texts h Tx) {a m : Word} : Triple (Good h Tx P) (readText h a m) (fun _ => Good h Tx P) := by
  intro n r n' hg hr
  rw [(readText_ok ht hg hr).1]
  exact hg

theorem setRegisters_good {m : Map Str Word} : Triple (Good h Tx P) (setRegisters h c m) (fun _ => Good h Tx P) := by
  intro n r n' hg hr
  obtain ⟨h1, h2⟩ := proc_ok hr
  rw [h2]
  exact same_good hg (setRegisters_ok hg.rest h1)

theorem getRegisters_good : Triple (Good h Tx P) (getRegisters h) (fun _ => Good h Tx P) := by
  intro n r n' hg hr
  rw [getRegisters_ok hg.rest hr]
  exact hg

theorem getRegister_good {s : Str} : Triple (Good h Tx P) (getRegister h s) (fun _ => Good h Tx P) := by
  intro n r n' hg hr
  rw [getRegister_ok hg.rest hr]
  exact hg

theorem getIP_good : Triple (Good h Tx P) (getIP h) (fun _ => Good h Tx P) := getRegister_good

theorem setRegister_good {s : Str} {v : Word} : Triple (Good h Tx P) (setRegister h c s v) (fun _ => Good h Tx P) := by
  refine getRegisters_good.bind fun r => ?_
  cases r.find s with
  | none => exact .throw
  | some w => exact setRegisters_good

theorem getFloats_good : Triple (Good h Tx P) (getFloatRegisters h) (fun _ => Good h Tx P) := by
  intro n r n' hg hr
  rw [getFloats_ok hg.rest hr]
  exact hg

theorem setFloat_good {s : Str} {v : Word} : Triple (Good h Tx P) (setFloatRegister h c s v) (fun _ => Good h Tx P) := by
  refine getFloats_good.bind fun r => ?_
  cases r.find s with
  | none => exact .throw
  | some w =>
    intro n r n' hg hr
    obtain ⟨h1, h2⟩ := proc_ok hr
    rw [h2]
    exact same_good hg (setFloats_ok hg.rest h1)

theorem readMemory_good {a m : Word} : Triple (Good h Tx P) (readMemory h c a m) (fun _ => Good h Tx P) := by
  intro n r n' hg hr
  rw [readMemory_ok hg.rest hr]
  exact hg

theorem setMemory_good {a : Word} {l : List Word} : Triple (Good h Tx P) (setMemory h c a l) (fun _ => Good h Tx P) := by
  intro n r n' hg hr
  obtain ⟨h1, h2⟩ := proc_ok hr
  rw [h2]
  exact same_good hg (writeMemory_ok hg.rest h1)

/-! ## Watchpoints -/

theorem freeRegister_some {wps : Map Word Nat} {i : Nat} (hi : freeRegister wps = some i) : i < 4 ∧ ∀ w ∈ wps, w.2 ≠ i := by
  unfold freeRegister at hi
  have h1 := List.mem_of_find?_eq_some hi
  have h2 := List.find?_some hi
  refine ⟨List.mem_range.1 h1, fun w hw e => ?_⟩
  simp only [Bool.not_eq_true', List.any_eq_false] at h2
  exact h2 w hw (by simpa using e)

theorem mem_assign {κ α : Type} [DecidableEq κ] {m : Map κ α} {k : κ} {v : α} {p : κ × α} (hp : p ∈ m.assign k v) : p ∈ m ∨ p = (k, v) := by
  unfold Map.assign Map.erase at hp
  rcases List.mem_append.1 hp with hp | hp
  · exact .inl (List.mem_filter.1 hp).1
  · exact .inr (by simpa using hp)

theorem at_ok {m : Map Str Word} {k : Str} {v : Word} (hr : Arch.at' m k = .ok v) : m.find k = some v := by
  unfold Arch.at' at hr
  cases hf : m.find k with
  | none => rw [hf] at hr; cases hr
  | some w => rw [hf] at hr; cases hr; rfl

theorem setWatchpoint_ok {n n' : Native} {a : Word} (hl : n.link.At) (hw : Watched n.link.vm.cpu.dbg n.wps)
    (hr : setWatchpoint h a n = (.ok (), n')) :
    n.wps.find a = none ∧ ∃ i D, freeRegister n.wps = some i ∧ D.length = 5 ∧
      (∀ j, j < 4 → D.getD j 0 = if j = i then a else n.link.vm.cpu.dbg.getD j 0) ∧
      D.getD 4 0 = n.link.vm.cpu.dbg.getD 4 0 ||| BitVec.ofNat 64 (2 ^ i) ∧
      n' = { n with link := withDbg n.link D, wps := n.wps ++ [(a, i)] } := by
  unfold setWatchpoint at hr
  obtain ⟨m, n1, h1, hr⟩ := bind_ok hr
  cases h1
  cases hf : n.wps.find a with
  | some w => rw [hf] at hr; cases hr
  | none =>
    rw [hf] at hr
    refine ⟨rfl, ?_⟩
    simp only at hr
    cases hi : freeRegister n.wps with
    | none => rw [hi] at hr; cases hr
    | some i =>
      rw [hi] at hr
      simp only at hr
      have hi4 := (freeRegister_some hi).1
      obtain ⟨regs, n2, h2, hr⟩ := bind_ok hr
      obtain ⟨h3, h4⟩ := proc_ok h2
      obtain ⟨h5, rfl⟩ := fetchDebugs_eq hl h3
      rw [h5] at h4
      change n2 = n at h4
      subst h4
      obtain ⟨regs2, n3, h6, hr⟩ := bind_ok hr
      have h7 : Arch.setDebugRegister i a (Proc.listing 0 n2.link.vm.cpu.dbg) = .ok regs2 := congrArg Prod.fst h6
      have h8 : n2 = n3 := congrArg Prod.snd h6
      subst h8
      obtain ⟨regs3, n4, h9, hr⟩ := bind_ok hr
      have h10 : Arch.activate i regs2 = .ok regs3 := congrArg Prod.fst h9
      have h11 : n2 = n4 := congrArg Prod.snd h9
      subst h11
      obtain ⟨u, n5, h12, hr⟩ := bind_ok hr
      obtain ⟨h13, h14⟩ := proc_ok h12
      cases hr
      unfold Arch.setDebugRegister at h7
      rw [if_neg (by simp [Arch.debugRegistersCount]; omega)] at h7
      obtain ⟨_, _, h7⟩ := ebind_ok h7
      cases h7
      unfold Arch.activate at h10
      obtain ⟨v, hv, h10⟩ := ebind_ok h10
      cases h10
      have hv := at_ok hv
      have e4 : "D4".toList = Arch.debugName 4 := rfl
      have hlist : ∀ j, Map.find (Proc.listing 0 n2.link.vm.cpu.dbg) (Arch.debugName j) = n2.link.vm.cpu.dbg[j]? := by
        intro j
        have := find_listing 0 n2.link.vm.cpu.dbg j
        rwa [Nat.zero_add] at this
      rw [e4, Map.find_assign, if_neg (fun hc => by have := debugName_inj hc; omega), hlist] at hv
      have hlen := hw.length
      obtain ⟨D, hD1, hD2, hD3⟩ := setDebugs_ok hl (((listing_ok 0 _).assign _ _).assign _ _) (by
        intro p hp
        rcases mem_assign hp with hp | rfl
        · rcases mem_assign hp with hp | rfl
          · obtain ⟨j, _, h2, h3⟩ := mem_listing hp
            exact ⟨j, by omega, h3⟩
          · exact ⟨i, by omega, rfl⟩
        · exact ⟨4, by omega, rfl⟩) h13
      refine ⟨i, D, rfl, by omega, ?_, ?_, ?_⟩
      · intro j hj
        rw [hD3 j (by omega), e4, Map.find_assign, if_neg (fun hc => by have := debugName_inj hc; omega), Map.find_assign]
        by_cases hji : j = i
        · subst hji
          simp
        · rw [if_neg (fun hc => hji (debugName_inj hc)), if_neg hji, hlist, List.getD_eq_getElem?_getD]
          rw [List.getElem?_eq_getElem (by omega)]
          rfl
      · rw [hD3 4 (by omega), e4, Map.find_assign, if_pos rfl, List.getD_eq_getElem?_getD, hv]
        rfl
      · rw [h14, hD1]
        simp only [Map.emplace, hf]

theorem getLsbD_or_pow (v : Word) (i j : Nat) : (v ||| BitVec.ofNat 64 (2 ^ i)).getLsbD j = (v.getLsbD j || decide (i = j ∧ j < 64)) := by
  rw [BitVec.getLsbD_or, BitVec.getLsbD_ofNat, Nat.testBit_two_pow]
  by_cases h1 : i = j <;> by_cases h2 : j < 64 <;> simp [h1, h2]

theorem watch_good {a : Word} : Triple (Good h Tx P) (setWatchpoint h a) (fun _ => Good h Tx P) := by
  intro n u n' hg hr
  obtain ⟨hf, i, D, hi, h1, h2, h3, rfl⟩ := setWatchpoint_ok hg.rest hg.watch hr
  obtain ⟨hi4, hfree⟩ := freeRegister_some hi
  refine ⟨⟨hg.rest.1, hg.rest.2, hg.rest.3⟩, hg.text, ?_, hg.fresh⟩
  have hw := hg.watch
  refine ⟨h1, ?_, ?_, ?_, ?_, ?_⟩
  · unfold Map.Ok
    rw [List.map_append, List.nodup_append]
    refine ⟨hw.ok, by simp, ?_⟩
    intro x hx y hy hxy
    simp only [List.map_cons, List.map_nil, List.mem_singleton] at hy
    subst hy hxy
    obtain ⟨w, hw1, hw2⟩ := List.mem_map.1 hx
    have := (Map.find_eq_none x).1 hf w.2
    exact this (by rw [← hw2]; exact hw1)
  · rw [List.map_append, List.nodup_append]
    refine ⟨hw.own, by simp, ?_⟩
    intro x hx y hy hxy
    simp only [List.map_cons, List.map_nil, List.mem_singleton] at hy
    subst hy hxy
    obtain ⟨w, hw1, hw2⟩ := List.mem_map.1 hx
    exact hfree w hw1 hw2
  · intro w hw'
    rcases List.mem_append.1 hw' with hw' | hw'
    · exact hw.small w hw'
    · simp only [List.mem_singleton] at hw'
      subst hw'
      exact hi4
  · intro w hw'
    change D.getD w.2 0 = w.1
    rcases List.mem_append.1 hw' with hw' | hw'
    · rw [h2 _ (hw.small w hw'), if_neg (hfree w hw')]
      exact hw.addr w hw'
    · simp only [List.mem_singleton] at hw'
      subst hw'
      rw [h2 _ hi4, if_pos rfl]
  · intro w hw'
    change (D.getD 4 0).getLsbD w.2 = true
    rw [h3, getLsbD_or_pow]
    rcases List.mem_append.1 hw' with hw' | hw'
    · rw [hw.active w hw', Bool.true_or]
    · simp only [List.mem_singleton] at hw'
      subst hw'
      have : i < 64 := by omega
      simp [this]

theorem removeWatchpoint_ok {n n' : Native} {a : Word} (hl : n.link.At) (hr : removeWatchpoint h a n = (.ok (), n')) :
    ∃ i, n.wps.find a = some i ∧ n' = { n with wps := n.wps.erase a } := by
  unfold removeWatchpoint at hr
  obtain ⟨m, n1, h1, hr⟩ := bind_ok hr
  cases h1
  cases hf : n.wps.find a with
  | none => rw [hf] at hr; cases hr
  | some i =>
    rw [hf] at hr
    obtain ⟨regs, n2, h2, hr⟩ := bind_ok hr
    obtain ⟨h3, h4⟩ := proc_ok h2
    obtain ⟨h5, rfl⟩ := fetchDebugs_eq hl h3
    rw [h5] at h4
    change n2 = n at h4
    subst h4
    obtain ⟨regs2, n3, h6, hr⟩ := bind_ok hr
    have h8 : n2 = n3 := congrArg Prod.snd h6
    subst h8
    cases hr
    exact ⟨i, rfl, rfl⟩

theorem unwatch_good {a : Word} : Triple (Good h Tx P) (removeWatchpoint h a) (fun _ => Good h Tx P) := by
  intro n u n' hg hr
  obtain ⟨i, hf, rfl⟩ := removeWatchpoint_ok hg.rest hr
  have hw := hg.watch
  have hsub : ∀ w ∈ n.wps.erase a, w ∈ n.wps := fun w hw => (List.mem_filter.1 hw).1
  refine ⟨hg.rest, hg.text, ⟨hw.length, hw.ok.erase a, ?_, fun w hw' => hw.small w (hsub w hw'), fun w hw' => hw.addr w (hsub w hw'),
    fun w hw' => hw.active w (hsub w hw')⟩, hg.fresh⟩
  exact hw.own.sublist (List.Sublist.map _ List.filter_sublist)

/-! ## Running -/

theorem mapReason_ok {n n' : Native} {r : Reason} {e : Event} (hl : n.link.At) (hr : mapReason h r n = (.ok e, n')) : n' = n := by
  cases r with
  | swBkpt =>
    obtain ⟨ip, n1, h1, hr⟩ := bind_ok hr
    cases hr
    exact getIP_ok hl h1
  | cpuError =>
    obtain ⟨ip, n1, h1, hr⟩ := bind_ok hr
    cases hr
    exact getIP_ok hl h1
  | hwBkpt =>
    obtain ⟨regs, n1, h1, hr1⟩ := bind_ok hr
    obtain ⟨h3, h4⟩ := proc_ok h1
    obtain ⟨h5, -⟩ := fetchDebugs_eq hl h3
    rw [h5] at h4
    rw [h4] at hr1
    obtain ⟨i, n2, h2, hr2⟩ := bind_ok hr1
    have h8 : n = n2 := congrArg Prod.snd h2
    rw [← h8] at hr2
    obtain ⟨m, n3, h3, hr3⟩ := bind_ok hr2
    cases h3
    revert hr3
    generalize List.find? _ _ = o
    intro hr3
    cases o with
    | some w => cases hr3; rfl
    | none => cases hr3
  | begin => cases hr; rfl
  | singleStep => cases hr; rfl
  | halt => cases hr; rfl

theorem adjust_good {e : Event} : Triple (Good h Tx P) (adjust h c e) (fun _ => Good h Tx P) := by
  unfold adjust
  split
  · refine getRegisters_good.bind fun r => ?_
    refine Triple.bind (q := fun _ => Good h Tx P) (.ofExcept fun s a _ hg => hg) fun ip => ?_
    exact setRegisters_good.bind fun _ => .pure fun s hs => hs
  · exact .pure fun s hs => hs

theorem wait_good : Triple (Gone h Tx P) (waitEvent h c) (fun _ => Good h Tx P) := by
  intro n e n' hg hr
  unfold waitEvent at hr
  obtain ⟨m, n1, h1, hr⟩ := bind_ok hr
  cases h1
  cases hc : n.cached with
  | some e' =>
    rw [hc] at hr
    obtain ⟨u, n2, h2, hr⟩ := bind_ok hr
    cases h2
    refine adjust_good _ _ _ ?_ hr
    rcases hg.away with ⟨h1, _⟩ | h1
    · rw [hc] at h1; cases h1
    · exact ⟨h1, hg.text, hg.watch, rfl⟩
  | none =>
    rw [hc] at hr
    obtain ⟨u, n2, h2, hr⟩ := bind_ok hr
    obtain ⟨h3, h4⟩ := proc_ok h2
    have hrest : Rest n.link.vm.cpu.prog n.link.vm.cpu.dbg n2.link := by
      rcases hg.away with ⟨_, h1⟩ | h1
      · exact wait_ok h1 h3
      · exact wait_ok ⟨h1.1, rfl, .refl _, .inl h1.2⟩ h3
    have hg2 : Good h Tx P n2 := by
      rw [h4]
      exact ⟨hrest.1, by rw [hrest.2.1]; exact hg.text, hg.watch.marks hrest.2.2, hc⟩
    obtain ⟨r, n3, h5, hr1⟩ := bind_ok hr
    obtain ⟨h6, h7⟩ := proc_ok h5
    have h8 := (getReason_ok hg2.rest h6).1
    rw [h8] at h7
    rw [h7] at hr1
    obtain ⟨ev, n4, h9, hr2⟩ := bind_ok hr1
    have := mapReason_ok hg2.rest h9
    rw [this] at hr2
    exact adjust_good _ _ _ hg2 hr2

theorem rawStep_good : Triple (Good h Tx P) (rawStep h c) (fun _ => Good h Tx P) := by
  unfold rawStep
  refine Triple.bind (q := fun _ => Gone h Tx P) ?_ fun _ => wait_good
  intro n u n' hg hr
  obtain ⟨h1, h2⟩ := proc_ok hr
  have := go_ok (Q := n.link.vm.cpu.prog) (D := n.link.vm.cpu.dbg) ⟨hg.rest, rfl, .refl _⟩ (.inr (Proto.parse_step h)) h1
  rw [h2]
  refine ⟨.inl ⟨hg.fresh, ?_⟩, ?_, ?_⟩
  · exact ⟨this.1, rfl, .refl _, this.2.2.2⟩
  · rw [this.2.1]; exact hg.text
  · exact hg.watch.marks this.2.2.1

theorem resume_gone : Triple (Good h Tx P) (proc (Proc.resume h)) (fun _ => Gone h Tx P) := by
  intro n u n' hg hr
  obtain ⟨h1, h2⟩ := proc_ok hr
  have := go_ok (Q := n.link.vm.cpu.prog) (D := n.link.vm.cpu.dbg) ⟨hg.rest, rfl, .refl _⟩ (.inl (Proto.parse_cont h)) h1
  rw [h2]
  refine ⟨.inl ⟨hg.fresh, ?_⟩, ?_, ?_⟩
  · exact ⟨this.1, rfl, .refl _, this.2.2.2⟩
  · rw [this.2.1]; exact hg.text
  · exact hg.watch.marks this.2.2.1

theorem get_good : Triple (Good h Tx P) (Job.get : N Native) (fun _ => Good h Tx P) := .get fun s hs => hs

theorem step_good (ht : Texts h Tx) : ∀ fuel, Triple (Good h Tx P) (singleStepLoop h c fuel) (fun _ => Good h Tx P)
  | 0 => .throw
  | fuel + 1 => by
    unfold singleStepLoop
    refine getIP_good.bind fun ip => get_good.bind fun n => ?_
    split
    · exact (disable_good ht).bind fun _ => (step_good ht fuel).bind fun e => (enable_good ht).bind fun _ => .pure fun s hs => hs
    · exact rawStep_good

theorem singleStep_good (ht : Texts h Tx) : Triple (Good h Tx P) (singleStep h c) (fun _ => Good h Tx P) := step_good ht 2

theorem stepOverBreakpoint_good (ht : Texts h Tx) {ip : Word} : Triple (Good h Tx P) (stepOverBreakpoint h c ip) (fun _ => Good h Tx P) :=
  (disable_good ht).bind fun _ => (singleStep_good ht).bind fun e => (enable_good ht).bind fun _ => .pure fun s hs => hs

theorem continue_gone (ht : Texts h Tx) : Triple (Good h Tx P) (continue' h c) (fun _ => Gone h Tx P) := by
  unfold continue'
  refine getIP_good.bind fun ip => get_good.bind fun n => ?_
  split
  · refine (stepOverBreakpoint_good ht).bind fun e => ?_
    split
    · exact .modify fun s hs => ⟨.inr hs.rest, hs.text, hs.watch⟩
    · exact resume_gone
  · exact resume_gone

theorem over_good (ht : Texts h Tx) {ip bp : Word} : ∀ fuel, Triple (Good h Tx P) (overLoop h c ip bp fuel) (fun _ => Good h Tx P)
  | 0 => .throw
  | fuel + 1 => by
    unfold overLoop
    refine (continue_gone ht).bind fun _ => wait_good.bind fun e => getRegister_good.bind fun bp' => getIP_good.bind fun ip' => ?_
    split
    · exact over_good ht fuel
    · exact .pure fun s hs => hs

theorem ofExcept_good {α : Type} {x : Except Err α} : Triple (Good h Tx P) (Job.ofExcept x : N α) (fun _ => Good h Tx P) :=
  .ofExcept fun s a _ hs => hs

theorem pure_good {α : Type} {x : α} : Triple (Good h Tx P) (pure x : N α) (fun _ => Good h Tx P) := .pure fun s hs => hs

theorem stepOver_good (ht : Texts h Tx) {fuel : Nat} {skip : Bool} : Triple (Good h Tx P) (stepOver h c fuel skip) (fun _ => Good h Tx P) := by
  unfold stepOver
  refine getIP_good.bind fun ip => (read_good ht).bind fun text => ofExcept_good.bind fun s => ?_
  split
  · refine get_good.bind fun n => ?_
    dsimp only
    repeat' first
      | exact pure_good
      | exact set_good ht
      | exact unset_good ht
      | exact singleStep_good ht
      | exact getRegister_good
      | exact getIP_good
      | exact over_good ht fuel
      | refine Triple.bind (q := fun _ => Good h Tx P) ?_ fun _ => ?_
      | split
  · split
    · exact singleStep_good ht
    · exact rawStep_good

theorem stepOut_good (ht : Texts h Tx) {fuel : Nat} : ∀ k skip, Triple (Good h Tx P) (stepOutLoop h c fuel k skip) (fun _ => Good h Tx P)
  | 0, _ => .throw
  | k + 1, skip => by
    unfold stepOutLoop
    refine getIP_good.bind fun ip => (read_good ht).bind fun text => ofExcept_good.bind fun s => (stepOver_good ht).bind fun e => ?_
    split
    · exact pure_good
    · exact stepOut_good ht k false

/-! ## Sessions -/

theorem start_gone {data : List Word} {inp : List (BitVec 8)} (hs : P.length < 2 ^ 63) (hp : ∀ i ∈ P, Plain h i) :
    Gone h Tx P (connect h P data inp) := by
  refine ⟨.inl ⟨rfl, rfl, rfl, .refl _, .inr ⟨rfl, by simp [connect, Link.start, Vm.start, Vm.enter]⟩⟩, ?_, ?_⟩
  · exact ⟨hs, hp, rfl, (fun a bp hf => by cases hf), (fun a bp hf => by cases hf), fun a _ => rfl⟩
  · exact ⟨rfl, List.nodup_nil, List.nodup_nil, (fun w hw => by cases hw), (fun w hw => by cases hw), (fun w hw => by cases hw)⟩

theorem session_good {prog : List Instr} {data : List Word} {inp : List (BitVec 8)} {n : Native} (ht : Texts h Tx)
    (hs : prog.length < 2 ^ 63) (hp : ∀ i ∈ prog, Plain h i) (hx : Session h c Tx prog data inp P n) : Good h Tx P n := by
  induction hx with
  | begin hr => exact wait_good _ _ _ (start_gone hs hp) hr
  | @call P P' n n' o _ hr htx ih =>
    cases o with
    | write a l => exact write_good ht ih hr htx
    | _ =>
      cases (htx : P' = P)
      first
        | exact set_good ht _ _ _ ih hr
        | exact unset_good ht _ _ _ ih hr
        | exact enable_good ht _ _ _ ih hr
        | exact disable_good ht _ _ _ ih hr
        | exact setRegister_good _ _ _ ih hr
        | exact setFloat_good _ _ _ ih hr
        | exact setMemory_good _ _ _ ih hr
        | exact watch_good _ _ _ ih hr
        | exact unwatch_good _ _ _ ih hr
        | exact ((read_good ht).bind fun _ => pure_good) _ _ _ ih hr
        | exact (getRegisters_good.bind fun _ => pure_good) _ _ _ ih hr
        | exact (getFloats_good.bind fun _ => pure_good) _ _ _ ih hr
        | exact (readMemory_good.bind fun _ => pure_good) _ _ _ ih hr
        | exact ((singleStep_good ht).bind fun _ => pure_good) _ _ _ ih hr
        | exact (rawStep_good.bind fun _ => pure_good) _ _ _ ih hr
        | exact ((stepOver_good ht).bind fun _ => pure_good) _ _ _ ih hr
        | exact ((stepOut_good ht _ _).bind fun _ => pure_good) _ _ _ ih hr
        | exact ((continue_gone ht).bind fun _ => wait_good.bind fun _ => pure_good) _ _ _ ih hr

end Native
end T86
