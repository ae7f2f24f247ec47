import Verif.Lemmas.Rename

/-! Adding an instruction to the station. -/

set_option linter.unusedSimpArgs false
set_option linter.unusedVariables false

namespace T86
open Isa

section
variable {cfg : Cfg}

/-- The registration of a memory write. -/
def regStore (x : Writes × List Nat) (sp : Option Word) : Writes × List Nat :=
  match sp with
  | some a => ((x.1.registerAt a).2, x.2 ++ [(x.1.registerAt a).1])
  | none => (x.1.registerUnspecified.2, x.2 ++ [x.1.registerUnspecified.1])

/-- The state of the product loop. -/
structure AddInv (cfg : Cfg) (r0 : Regs) (rrat : Rat) (T : List Nat) (wm0 : Writes) (own0 : Nat → Nat × Nat) (N F : Nat)
    (ps : List Product) (s : Cpu.AddState) (own : Nat → Nat × Nat) : Prop where
  len : s.rat.length = cfg.nkeys
  subs : SubsOK cfg s.regs (s.rat ++ (rrat ++ T))
  view : ∀ q ∈ rrat ++ T, cellView s.regs q = cellView r0 q
  ownv : ∀ q ∈ rrat ++ T, own q = own0 q
  keep : ∀ k : Nat, (∀ p ∈ ps, ∀ r, p.lreg? = some r → cfg.key r ≠ some k) → s.rat[k]? = rrat[k]?
  cells : ∀ p ∈ ps, ∀ r k, p.lreg? = some r → cfg.key r = some k →
    ∃ q, s.rat[k]? = some q ∧ CellBusy s.regs q ∧ own q = (N, k)
  cover : ∃ K : List Nat, K.length ≤ F + ps.length ∧ ∀ q ∈ s.rat ++ (rrat ++ T), q ∈ K
  wm : (s.wm, s.wids) = (ps.filterMap Product.store?).foldl regStore (wm0, [])

/-- The renaming of one product. -/
theorem AddInv.rename {r0 : Regs} {rrat : Rat} {T : List Nat} {wm0 : Writes} {own0 own : Nat → Nat × Nat} {N F : Nat}
    {ps : List Product} {s : Cpu.AddState} (h : AddInv cfg r0 rrat T wm0 own0 N F ps s own) {p : Product} {r : LReg}
    (hr : p.lreg? = some r) (hs : p.store? = none) {k : Nat} (hk : cfg.key r = some k) (hF : F + ps.length < cfg.nphys) :
    ∃ x own', Cpu.rename cfg (s.regs, s.rat) r = .ok x ∧
      AddInv cfg r0 rrat T wm0 own0 N F (ps ++ [p]) { s with regs := x.1, rat := x.2 } own' := by
  obtain ⟨K, hK1, hK2⟩ := h.cover
  obtain ⟨p0, hp0, hp1⟩ := exists_not_mem (n := cfg.nphys) (K := K) (by omega)
  obtain ⟨c, regs', h1, h2, h3, h4, h5, h6⟩ := rename_ok h.subs h.len hk ⟨p0, hp0, fun hm => hp1 (hK2 p0 hm)⟩
  have hlt : k < s.rat.length := by rw [h.len]; exact key_lt hk
  refine ⟨_, fun q => if q = c then (N, k) else own q, h1, ?_⟩
  have hne : ∀ q ∈ s.rat ++ (rrat ++ T), q ≠ c := by rintro q hq rfl; exact h3 hq
  have hne2 : ∀ q ∈ rrat ++ T, q ≠ c := fun q hq => hne q (List.mem_append.2 (Or.inr hq))
  refine ⟨?_, h4, ?_, ?_, ?_, ?_, ?_, ?_⟩
  · rw [List.length_set]; exact h.len
  · intro q hq
    rw [h5 q (hne2 q hq)]; exact h.view q hq
  · intro q hq
    rw [if_neg (hne2 q hq)]; exact h.ownv q hq
  · intro k' hk'
    have hkk : k ≠ k' := by
      rintro rfl
      exact hk' p (by simp) r hr hk
    change (s.rat.set k c)[k']? = _
    rw [List.getElem?_set_ne hkk]
    exact h.keep k' fun p' hp' => hk' p' (by simp [hp'])
  · intro p' hp' r' k' hr' hk'
    by_cases hkk : k = k'
    · subst hkk
      exact ⟨c, List.getElem?_set_self hlt, h6, by simp⟩
    · rcases List.mem_append.1 hp' with hp' | hp'
      · obtain ⟨q, q1, q2, q3⟩ := h.cells p' hp' r' k' hr' hk'
        have hqc : q ≠ c := hne q (List.mem_append.2 (Or.inl (List.mem_of_getElem? q1)))
        refine ⟨q, ?_, q2.congr (h5 q hqc), by simp [hqc, q3]⟩
        change (s.rat.set k c)[k']? = _
        rw [List.getElem?_set_ne hkk]; exact q1
      · simp at hp'
        subst hp'
        rw [hr] at hr'; cases hr'
        rw [hk] at hk'; cases hk'
        exact absurd rfl hkk
  · refine ⟨c :: K, by simp; omega, ?_⟩
    intro q hq
    rcases List.mem_append.1 hq with hq | hq
    · rcases List.mem_or_eq_of_mem_set hq with hq | hq
      · exact List.mem_cons_of_mem _ (hK2 q (List.mem_append.2 (Or.inl hq)))
      · rw [hq]; exact List.mem_cons_self ..
    · exact List.mem_cons_of_mem _ (hK2 q (List.mem_append.2 (Or.inr hq)))
  · rw [List.filterMap_append]
    simp [hs]
    exact h.wm

/-- A product that is not a register. -/
theorem AddInv.skip {r0 : Regs} {rrat : Rat} {T : List Nat} {wm0 : Writes} {own0 own : Nat → Nat × Nat} {N F : Nat}
    {ps : List Product} {s s' : Cpu.AddState} (h : AddInv cfg r0 rrat T wm0 own0 N F ps s own) {p : Product}
    (hr : p.lreg? = none) (h1 : s'.regs = s.regs) (h2 : s'.rat = s.rat)
    (h3 : (s'.wm, s'.wids) = (p.store?.toList).foldl regStore (s.wm, s.wids)) :
    AddInv cfg r0 rrat T wm0 own0 N F (ps ++ [p]) s' own := by
  refine ⟨by rw [h2]; exact h.len, by rw [h1, h2]; exact h.subs, by rw [h1]; exact h.view, h.ownv, ?_, ?_, ?_, ?_⟩
  · intro k hk; rw [h2]; exact h.keep k fun p' hp' => hk p' (by simp [hp'])
  · intro p' hp' r k hr' hk
    rw [h1, h2]
    rcases List.mem_append.1 hp' with hp' | hp'
    · exact h.cells p' hp' r k hr' hk
    · simp at hp'; subst hp'; rw [hr] at hr'; cases hr'
  · obtain ⟨K, hK1, hK2⟩ := h.cover
    exact ⟨K, by simp; omega, by rw [h2]; exact hK2⟩
  · rw [h3, List.filterMap_append, List.foldl_append, ← h.wm]
    congr 1

theorem addProduct_ok {r0 : Regs} {rrat : Rat} {T : List Nat} {wm0 : Writes} {own0 own : Nat → Nat × Nat} {N F : Nat}
    {ps : List Product} {s : Cpu.AddState} (h : AddInv cfg r0 rrat T wm0 own0 N F ps s own) (p : Product)
    (hk : ∀ r, p.lreg? = some r → ∃ k, cfg.key r = some k) (hF : F + ps.length < cfg.nphys) :
    ∃ s' own', Cpu.addProduct cfg s p = .ok s' ∧ AddInv cfg r0 rrat T wm0 own0 N F (ps ++ [p]) s' own' := by
  cases p with
  | memImm a => exact ⟨_, own, rfl, h.skip rfl rfl rfl rfl⟩
  | memReg => exact ⟨_, own, rfl, h.skip rfl rfl rfl rfl⟩
  | freg i =>
    obtain ⟨k, hk⟩ := hk _ rfl
    obtain ⟨x, own', h1, h2⟩ := h.rename (p := .freg i) rfl rfl hk hF
    refine ⟨_, own', ?_, h2⟩
    unfold Cpu.addProduct
    simp only [h1, ok_bind, pure_ok]
  | reg r =>
    by_cases hpc : r = .pc
    · subst hpc; exact ⟨_, own, rfl, h.skip rfl rfl rfl rfl⟩
    · have hl := lreg?_reg hpc
      obtain ⟨k, hk⟩ := hk _ hl
      obtain ⟨x, own', h1, h2⟩ := h.rename (p := .reg r) hl rfl hk hF
      refine ⟨_, own', ?_, h2⟩
      cases r
      case pc => exact absurd rfl hpc
      all_goals
        unfold Cpu.addProduct
        simp only [h1, ok_bind, pure_ok]

theorem addProducts_ok {r0 : Regs} {rrat : Rat} {T : List Nat} {wm0 : Writes} {own0 : Nat → Nat × Nat} {N F : Nat} :
    ∀ (l : List Product) {ps : List Product} {s : Cpu.AddState} {own : Nat → Nat × Nat},
    AddInv cfg r0 rrat T wm0 own0 N F ps s own →
    (∀ p ∈ l, ∀ r, p.lreg? = some r → ∃ k, cfg.key r = some k) → F + ps.length + l.length ≤ cfg.nphys →
    ∃ s' own', l.foldlM (Cpu.addProduct cfg) s = .ok s' ∧ AddInv cfg r0 rrat T wm0 own0 N F (ps ++ l) s' own'
  | [], ps, s, own, h, _, _ => ⟨s, own, rfl, by rw [List.append_nil]; exact h⟩
  | p :: l, ps, s, own, h, hk, hF => by
    rw [List.length_cons] at hF
    obtain ⟨s1, own1, h1, h2⟩ := addProduct_ok h p (hk p (List.mem_cons_self ..)) (by omega)
    obtain ⟨s2, own2, h3, h4⟩ := addProducts_ok l h2 (fun p' hp' => hk p' (List.mem_cons_of_mem _ hp')) (by simp; omega)
    refine ⟨s2, own2, ?_, by simpa using h4⟩
    rw [List.foldlM_cons, h1]
    exact h3

theorem wf_stores {i : Instr} (hw : i.wf cfg = true) : (prodsOf i).filterMap Product.store? = (storeProd i).toList := by
  cases i
  case mov dst v =>
    cases dst
    case val ex => cases ex <;> rfl
    case freg => rfl
    case memImm => rfl
    case mem => rfl
    all_goals simp [Instr.wf] at hw
  all_goals rfl

theorem ofReg_ok {r : Reg} (h : cfg.hasReg r = true) : (Operand.ofReg r).ok cfg = true := by
  simp [Operand.ofReg, Operand.ok, RegExpr.ok, RegExpr.regs, h]

theorem wf_operands {i : Instr} (hw : i.wf cfg = true) :
    i.operands = .ok (opsOf i) ∧ ∀ op ∈ opsOf i, op.ok cfg = true := by
  have hsp : cfg.hasReg .sp = true := rfl
  have hpc : cfg.hasReg .pc = true := rfl
  have hfl : cfg.hasReg .flags = true := rfl
  have htop : Operand.top.ok cfg = true := rfl
  have hd : ∀ {r}, cfg.destReg r = true → cfg.hasReg r = true := by
    intro r h; simp [Cfg.destReg] at h; exact h.1.1
  have hregs : ∀ {e : RegExpr}, e.ok cfg = true → ∀ op ∈ e.regs.map Operand.ofReg, op.ok cfg = true := by
    intro e he op hop
    obtain ⟨r, hr, rfl⟩ := List.mem_map.1 hop
    exact ofReg_ok (List.all_eq_true.1 he r hr)
  cases i
  case mov dst v =>
    cases dst
    case val ex =>
      cases ex <;> first | (simp [Instr.wf] at hw; done) | skip
      refine ⟨rfl, ?_⟩
      simp [Instr.wf] at hw
      intro op hop
      simp [opsOf, Instr.operands] at hop
      rw [hop]; exact hw.1
    case freg =>
      refine ⟨rfl, ?_⟩
      simp [Instr.wf] at hw
      intro op hop
      simp [opsOf, Instr.operands] at hop
      rw [hop]; exact hw.1
    case memImm =>
      refine ⟨rfl, ?_⟩
      simp [Instr.wf] at hw
      intro op hop
      simp [opsOf, Instr.operands] at hop
      rw [hop]; exact hw
    case mem e =>
      refine ⟨rfl, ?_⟩
      simp [Instr.wf] at hw
      intro op hop
      have : op ∈ v :: e.regs.map Operand.ofReg := hop
      rcases List.mem_cons.1 this with rfl | h
      · exact hw.1
      · exact hregs hw.2 op h
    all_goals simp [Instr.wf] at hw
  case lea d mm =>
    cases mm
    case mem e =>
      cases e
      case reg => simp [Instr.wf] at hw
      all_goals
        refine ⟨rfl, ?_⟩
        simp only [Instr.wf, Bool.and_eq_true] at hw
        exact hregs hw.2
    all_goals simp [Instr.wf] at hw
  all_goals
    refine ⟨rfl, ?_⟩
    simp only [Instr.wf, Bool.and_eq_true, decide_eq_true_eq] at hw
    intro op hop
    simp only [opsOf, Instr.operands, List.mem_cons, List.not_mem_nil, or_false] at hop
  case bin =>
    rcases hop with rfl | rfl
    · exact ofReg_ok hw.1.2
    · exact hw.2
  case fbin =>
    rcases hop with rfl | rfl
    · exact decide_eq_true hw.1
    · exact hw.2
  case un => rw [hop]; exact ofReg_ok (hd hw)
  case cmp =>
    rcases hop with rfl | rfl
    · exact ofReg_ok hw.1
    · exact hw.2
  case fcmp =>
    rcases hop with rfl | rfl
    · exact decide_eq_true hw.1
    · exact hw.2
  case jmp => rw [hop]; exact hw
  case jcc =>
    rcases hop with rfl | rfl
    · exact hw
    · exact ofReg_ok hfl
  case loop =>
    rcases hop with rfl | rfl
    · exact ofReg_ok (hd hw.1)
    · exact hw.2
  case call =>
    rcases hop with rfl | rfl | rfl
    · exact hw
    · exact ofReg_ok hpc
    · exact ofReg_ok hsp
  case ret =>
    rcases hop with rfl | rfl
    · exact htop
    · exact ofReg_ok hsp
  case push =>
    rcases hop with rfl | rfl
    · exact hw
    · exact ofReg_ok hsp
  case fpush =>
    rcases hop with rfl | rfl
    · exact hw
    · exact ofReg_ok hsp
  case pop =>
    rcases hop with rfl | rfl
    · exact htop
    · exact ofReg_ok hsp
  case fpop =>
    rcases hop with rfl | rfl
    · exact htop
    · exact ofReg_ok hsp
  case putchar => rw [hop]; exact ofReg_ok hw
  case putnum => rw [hop]; exact ofReg_ok hw
  case ext => rw [hop]; exact ofReg_ok hw.2
  case nrw => rw [hop]; exact decide_eq_true hw.2

/-- Writes of the window are not later than the last one. -/
theorem Win.wid_le {X : Ctx} {T : State → Nat → Rat → Nat → List Word → Prop} {M : Nat}
    (hT : ∀ S m b n ps, T S m b n ps → m ≤ M) :
    ∀ {es : List Entry} {S : State} {m : Nat} {b : Rat} {n : Nat} {ps : List Word}, Win cfg X T es S m b n ps →
    ∀ e ∈ es, ∀ id ∈ e.wids, id ≤ M
  | [], _, _, _, _, _, _, _, he, _, _ => by cases he
  | e :: es, _, m, _, _, _, h, e', he', id, hid => by
    rcases List.mem_cons.1 he' with rfl | he'
    · have := h.1.wid_eq hid
      have := Win.cur_ge hT h.2.2
      omega
    · exact Win.wid_le hT h.2.2 e' he' id hid

/-- More about the end of the window. -/
theorem Win.strengthen {X : Ctx} {T : State → Nat → Rat → Nat → List Word → Prop} :
    ∀ {es : List Entry} {S : State} {m : Nat} {b : Rat} {n : Nat} {ps : List Word}, Win cfg X T es S m b n ps →
    b.length = cfg.nkeys →
    Win cfg X (fun S m b n' ps => T S m b n' ps ∧ n' = n + es.length ∧ b.length = cfg.nkeys) es S m b n ps
  | [], _, _, _, _, _, h, hb => ⟨h, rfl, hb⟩
  | e :: es, _, _, _, n, _, h, hb => by
    refine ⟨h.1, h.2.1, ?_⟩
    have := Win.strengthen h.2.2 h.1.tab.lenw
    refine Win.frame (X := X) (X' := X) rfl ?_ this (fun _ _ _ _ _ _ => ⟨rfl, rfl⟩) (fun _ _ _ _ => ⟨rfl, Iff.rfl⟩)
    rintro S' m' b' n' ps' ⟨h1, h2, h3⟩
    refine ⟨h1, ?_, h3⟩
    rw [List.length_cons]; omega

theorem Win.rat_len {X : Ctx} {T : State → Nat → Rat → Nat → List Word → Prop} {t : Rat}
    (hT : ∀ S m b n ps, T S m b n ps → b = t) :
    ∀ {es : List Entry} {S : State} {m : Nat} {b : Rat} {n : Nat} {ps : List Word}, Win cfg X T es S m b n ps →
    b.length = cfg.nkeys → t.length = cfg.nkeys
  | [], _, _, _, _, _, h, hb => by rw [← hT _ _ _ _ _ h]; exact hb
  | e :: es, _, _, _, n, _, h, hb => Win.rat_len hT h.2.2 h.1.tab.lenw

theorem Win.tables_mem {X : Ctx} {T : State → Nat → Rat → Nat → List Word → Prop} {es : List Entry} {e : Entry} (he : e ∈ es)
    {k : Nat} {p : Nat} (hp : e.wrat[k]? = some p) : p ∈ tables es :=
  List.mem_flatMap.2 ⟨e, he, List.mem_append.2 (Or.inr (List.mem_of_getElem? hp))⟩

theorem recOf_fresh {q : Writes} {m : Nat} (h : WmOK q m) (hle : m ≤ q.cur) {j : Nat} (hj : q.cur < j) : q.recOf j = none := by
  unfold Writes.recOf
  rw [Option.map_eq_none_iff, List.find?_eq_none]
  intro w hw hid
  simp at hid
  by_cases hm : m < w.id
  · have := (h.new w hw hm).2; omega
  · omega

/-- The effect of registering at most one write. -/
def Registered (wm0 wm : Writes) (wids : List Nat) : Option (Option Word) → Prop
  | none => wids = [] ∧ wm.cur = wm0.cur
  | some (some a) => wids = [wm0.cur + 1] ∧ wm.cur = wm0.cur + 1 ∧ wm0.cur + 1 ∉ wm.unspec ∧
      wm.recOf (wm0.cur + 1) = some (a, none, none)
  | some none => wids = [wm0.cur + 1] ∧ wm.cur = wm0.cur + 1 ∧ wm0.cur + 1 ∈ wm.unspec ∧
      wm.recOf (wm0.cur + 1) = none

/-- The write queue after the registration of the writes of an instruction. -/
theorem regStores_ok {wm0 wm : Writes} {wids : List Nat} {m : Nat} {o : Option (Option Word)} (h : WmOK wm0 m) (hle : m ≤ wm0.cur)
    (he : (wm, wids) = o.toList.foldl regStore (wm0, [])) :
    WmOK wm m ∧ wm.outs = wm0.outs ∧ (∀ id, id ≤ wm0.cur → wm.recOf id = wm0.recOf id ∧ (id ∈ wm.unspec ↔ id ∈ wm0.unspec)) ∧
      Registered wm0 wm wids o := by
  match o with
  | none =>
    cases he
    exact ⟨h, rfl, fun _ _ => ⟨rfl, Iff.rfl⟩, rfl, rfl⟩
  | some none =>
    have he' : (wm, wids) = (wm0.registerUnspecified.2, [wm0.cur + 1]) := he
    cases he'
    refine ⟨⟨h.sorted, h.old, ?_, ?_⟩, rfl, ?_, rfl, rfl, ?_, recOf_fresh h hle (Nat.lt_succ_self _)⟩
    · intro w hw hm
      have := h.new w hw hm
      exact ⟨this.1, Nat.le_succ_of_le this.2⟩
    · intro u hu
      rcases List.mem_cons.1 hu with rfl | hu
      · exact ⟨by omega, Nat.le_refl _⟩
      · have := h.unspec u hu
        exact ⟨this.1, Nat.le_succ_of_le this.2⟩
    · intro id hid
      refine ⟨rfl, ?_⟩
      unfold Writes.registerUnspecified
      simp only [List.mem_cons]
      constructor
      · rintro (rfl | h)
        · omega
        · exact h
      · exact Or.inr
    · exact List.mem_cons_self ..
  | some (some a) =>
    have he' : (wm, wids) = ((wm0.registerAt a).2, [wm0.cur + 1]) := he
    cases he'
    have hf := recOf_fresh h hle (Nat.lt_succ_self _)
    have hrec : ∀ j, (wm0.registerAt a).2.recOf j = if j = wm0.cur + 1 then some (a, none, none) else wm0.recOf j :=
      fun j => Writes.add_recOf { wm0 with cur := wm0.cur + 1 } a hf j
    refine ⟨⟨?_, ?_, ?_, ?_⟩, ?_, ?_, rfl, rfl, ?_, ?_⟩
    · exact Writes.add_desc { wm0 with cur := wm0.cur + 1 } a h.sorted hf
    · intro w hw hm
      rcases Writes.mem_add { wm0 with cur := wm0.cur + 1 } hw with ⟨h1, _⟩ | ⟨w', hw', h1, h2⟩
      · omega
      · rw [← h2]; exact h.old w' hw' (by omega)
    · intro w hw hm
      rcases Writes.mem_add { wm0 with cur := wm0.cur + 1 } hw with ⟨h1, h2⟩ | ⟨w', hw', h1, h2⟩
      · exact ⟨h2, by rw [h1]; exact Nat.le_refl _⟩
      · have := h.new w' hw' (by omega)
        exact ⟨by rw [← h2]; exact this.1, by rw [← h1]; exact Nat.le_succ_of_le this.2⟩
    · intro u hu
      have := h.unspec u hu
      exact ⟨this.1, Nat.le_succ_of_le this.2⟩
    · exact Writes.add_outs { wm0 with cur := wm0.cur + 1 } _ a
    · intro id hid
      rw [hrec, if_neg (by omega)]
      exact ⟨rfl, Iff.rfl⟩
    · intro hu
      have := (h.unspec _ hu).2
      omega
    · rw [hrec, if_pos rfl]

/-- Adding the decoded instruction. -/
theorem add_ok {c : Cpu} {S : State} {f : Fetched} (h : Inv cfg c S) (hd : c.decode = some f) (hcap : c.entries.length < cfg.rsMax) :
    ∃ c', Cpu.add cfg c f = .ok c' ∧ Inv cfg { c' with decode := none } S ∧
      c' = { c with regs := c'.regs, rat := c'.rat, wm := c'.wm, entries := c'.entries } ∧
      ∃ e, c'.entries = c.entries ++ [e] ∧ e.instr = f.instr := by
  obtain ⟨own, n, m, b, h⟩ := h
  have hwin := h.win.strengthen h.base.len
  have hle : m ≤ c.wm.cur := Win.cur_ge (fun _ _ _ _ _ hT => Nat.le_of_eq hT.1) h.win
  have hratlen : c.rat.length = cfg.nkeys := Win.rat_len (fun _ _ _ _ _ hT => hT.2.1) h.win h.base.len
  -- the instruction is one of the program
  have hwf : f.instr.wf cfg = true := by
    have key : ∀ {X : Ctx} {T : State → Nat → Rat → Nat → List Word → Prop},
        (∀ S m b n ps, T S m b n ps → ∃ pc, f.instr = fetchAt c.prog pc) →
        ∀ {es : List Entry} {S : State} {m : Nat} {b : Rat} {n : Nat} {ps : List Word}, Win cfg X T es S m b n ps →
        ∃ pc, f.instr = fetchAt c.prog pc := by
      intro X T hT es
      induction es with
      | nil => intro S m b n ps hw; exact hT _ _ _ _ _ hw
      | cons e es ih => intro S m b n ps hw; exact ih hw.2.2
    obtain ⟨pc, hpc⟩ := key (fun S m b n ps hT => by
      obtain ⟨_, _, hF⟩ := hT
      rw [hd] at hF
      exact ⟨_, hF.1⟩) h.win
    rw [hpc]
    exact wf_fetchAt h.wf _
  obtain ⟨prods, hprods, hplen⟩ := wf_products hwf
  obtain ⟨hops, hopsok⟩ := wf_operands hwf
  have hpo : prodsOf f.instr = prods := by unfold prodsOf; rw [hprods]
  -- renaming IP
  have hsubs0 : SubsOK cfg c.regs (c.rat ++ tables c.entries) := by
    have := h.subs; rwa [List.append_nil] at this
  obtain ⟨K, hK1, hK2⟩ := h.cover
  have hnp : cfg.nphys = cfg.nkeys + cfg.rsMax * 7 := by unfold Cfg.nphys Cfg.nkeys; omega
  have hKlt : K.length + 4 < cfg.nphys := by omega
  obtain ⟨p0, hp0, hp1⟩ := exists_not_mem (n := cfg.nphys) (K := K) (by omega)
  obtain ⟨p, r1, a1, a2, a3, a4, a5, a6⟩ := rename_ok hsubs0 hratlen key_pc ⟨p0, hp0, fun hm => hp1 (hK2 p0 hm)⟩
  have hlt : cfg.pcK < c.rat.length := by rw [hratlen]; exact pcK_lt
  generalize hrrat : c.rat.set cfg.pcK p = rrat at a1 a4
  have hrpc : rrat[cfg.pcK]? = some p := by rw [← hrrat]; exact List.getElem?_set_self hlt
  have hrk : ∀ k, k ≠ cfg.pcK → rrat[k]? = c.rat[k]? := by
    intro k hk; rw [← hrrat]; exact List.getElem?_set_ne (fun h => hk h.symm)
  have hrlen : rrat.length = cfg.nkeys := by rw [← hrrat, List.length_set]; exact hratlen
  have htr : Rat.translate cfg rrat (.int .pc) = .ok p := by unfold Rat.translate; rw [key_pc]; simp only [hrpc]
  -- writing IP
  obtain ⟨x, hx⟩ : ∃ x, r1[p]? = some x := ⟨_, List.getElem?_eq_getElem (by rw [a4.len]; exact a2)⟩
  have hwr : r1.write p f.nextPc = .ok (r1.set p { x with value := f.nextPc, ready := true }) := by
    unfold Regs.write; rw [regs_get hx]; rfl
  generalize hr2 : r1.set p { x with value := f.nextPc, ready := true } = r2 at hwr
  have hb4 : SubsOK cfg r2 (rrat ++ tables c.entries) := by
    refine ⟨by rw [← hr2, List.length_set]; exact a4.len, ?_, a4.bound⟩
    intro q y hy
    rw [← hr2, List.getElem?_set] at hy
    split at hy
    · next he =>
      subst he
      split at hy
      · cases hy; exact (show x.subs = _ from a4.subs _ x hx)
      · cases hy
    · exact a4.subs q y hy
  have hb5 : ∀ q, q ≠ p → cellView r2 q = cellView c.regs q := by
    intro q hq
    rw [← a5 q hq, ← hr2]
    unfold cellView
    rw [List.getElem?_set_ne (fun h => hq h.symm)]
  have hb6 : CellVal r2 p f.nextPc := by
    refine ⟨{ x with value := f.nextPc, ready := true }, ?_, rfl, rfl⟩
    rw [← hr2]
    exact List.getElem?_set_self (by rw [a4.len]; exact a2)
  -- the read table
  obtain ⟨r3, b1, b2, b3⟩ := subscribeAll_ok (t := rrat) hb4 (fun q hq => hb4.bound q (List.mem_append.2 (Or.inl hq)))
  let N := n + c.entries.length
  let own1 : Nat → Nat × Nat := fun q => if q = p then (N, cfg.pcK) else own q
  have hinit : AddInv cfg r3 rrat (tables c.entries) c.wm own1 N (K.length + 1) [] ⟨r3, rrat, c.wm, []⟩ own1 := by
    refine ⟨hrlen, b2, fun _ _ => rfl, fun _ _ => rfl, fun _ _ => rfl, (by intro p hp; cases hp), ⟨p :: K, by simp, ?_⟩, rfl⟩
    intro q hq
    rw [← hrrat] at hq
    have : q ∈ p :: (c.rat ++ tables c.entries) := by
      have hset : ∀ q ∈ c.rat.set cfg.pcK p, q = p ∨ q ∈ c.rat := fun q hq => (List.mem_or_eq_of_mem_set hq).symm
      simp only [List.mem_append] at hq
      simp only [List.mem_cons, List.mem_append]
      rcases hq with hq | hq | hq
      · rcases hset q hq with h | h <;> simp [h]
      · rcases hset q hq with h | h <;> simp [h]
      · simp [hq]
    rcases List.mem_cons.1 this with rfl | h
    · exact List.mem_cons_self ..
    · exact List.mem_cons_of_mem _ (hK2 q h)
  have hkeys : ∀ q ∈ prods, ∀ r, q.lreg? = some r → r ∈ regProds f.instr := by
    intro q hq r hr
    unfold regProds
    rw [hpo]
    exact List.mem_filterMap.2 ⟨q, hq, hr⟩
  obtain ⟨s, own2, c1, c2⟩ := addProducts_ok prods hinit (fun q hq r hr => regProds_key hwf (hkeys q hq r hr)) (by simp; omega)
  rw [List.nil_append] at c2
  -- the write table
  obtain ⟨r4, d1, d2, d3⟩ := subscribeAll_ok (t := s.rat) c2.subs
    (fun q hq => c2.subs.bound q (List.mem_append.2 (Or.inl hq)))
  have hwm := c2.wm
  rw [← hpo, wf_stores hwf] at hwm
  obtain ⟨w1, w2, w3, w4⟩ := regStores_ok h.wm hle hwm
  generalize he : Cpu.checkReady (⟨f.instr, opsOf f.instr, rrat, s.rat, s.wids, s.wm.cur, .preparing, f.instr.execLength, false⟩ : Entry) = e
  have hadd : Cpu.add cfg c f = .ok { c with regs := r4, rat := s.rat, wm := s.wm, entries := c.entries ++ [e] } := by
    unfold Cpu.add
    rw [if_pos hcap, a1]
    simp only [ok_bind, htr, hwr, b1, hprods, c1, d1, hops, pure_ok, he]
  have e0 : e.instr = f.instr ∧ e.rrat = rrat ∧ e.wrat = s.rat ∧ e.wids = s.wids ∧ e.maxW = s.wm.cur ∧
      (e.st = .preparing ∨ e.st = .ready) := by
    rw [← he]; unfold Cpu.checkReady; split <;> simp
  obtain ⟨ei, err, ewr, ewi, emx, est⟩ := e0
  have hst : e.st ≠ .retiring := by rcases est with h | h <;> rw [h] <;> simp
  have hopsOK : ∀ S, OpsOK cfg S e := by
    intro S
    rw [← he]
    refine OpsOK.checkReady rfl ?_
    unfold OpsOK
    rw [if_neg (by simp)]
    refine ⟨?_, by simp [faultOf], by simp⟩
    have : ∀ l : List Operand, (∀ op ∈ l, op.ok cfg = true) → List.Forall₂ (OpRel cfg S) l l := by
      intro l
      induction l with
      | nil => intro _; exact .nil
      | cons a l ih =>
        intro hl
        exact .cons ⟨rfl, hl a (List.mem_cons_self ..)⟩ (ih fun op hop => hl op (List.mem_cons_of_mem _ hop))
    exact this _ hopsok
  -- frames
  have hold : ∀ q ∈ c.rat ++ tables c.entries, q ≠ p := by rintro q hq rfl; exact a3 hq
  have hview : ∀ q ∈ rrat ++ tables c.entries, cellView r4 q = cellView r2 q := by
    intro q hq
    rw [d3, c2.view q hq, b3]
  have hT : ∀ q ∈ tables c.entries, cellView r4 q = cellView c.regs q ∧ own2 q = own q := by
    intro q hq
    have hq' := hold q (List.mem_append.2 (Or.inr hq))
    have hm : q ∈ rrat ++ tables c.entries := List.mem_append.2 (Or.inr hq)
    refine ⟨(hview q hm).trans (hb5 q hq'), ?_⟩
    rw [c2.ownv q hm]
    simp only [own1, if_neg hq']
  have hR : ∀ (k : Nat) q, k ≠ cfg.pcK → c.rat[k]? = some q → cellView r4 q = cellView c.regs q ∧ own2 q = own q := by
    intro k q hk hq
    have hq' := hold q (List.mem_append.2 (Or.inl (List.mem_of_getElem? hq)))
    have hm : q ∈ rrat ++ tables c.entries :=
      List.mem_append.2 (Or.inl (List.mem_of_getElem? (by rw [hrk k hk]; exact hq)))
    refine ⟨(hview q hm).trans (hb5 q hq'), ?_⟩
    rw [c2.ownv q hm]
    simp only [own1, if_neg hq']
  have hbase : ∀ (k : Nat) q, k ≠ cfg.pcK → b[k]? = some q → cellView r4 q = cellView c.regs q ∧ own2 q = own q := by
    intro k q hk hq
    cases hes : c.entries with
    | nil =>
      have hw := h.win
      rw [hes] at hw
      rw [hw.2.1] at hq
      exact hR k q hk hq
    | cons e1 es1 =>
      have hw := h.win
      rw [hes] at hw
      apply hT q
      rw [hes, tables_cons]
      have : e1.rrat[k]? = some q := by rw [hw.1.tab.read k hk]; exact hq
      simp [List.mem_of_getElem? this]
  have hpcs : s.rat[cfg.pcK]? = some p := by
    rw [← hrpc]
    apply c2.keep
    intro q hq r hr hk
    have h1 := hkeys q hq r hr
    exact regProds_ne_pc h1 (key_inj hk key_pc)
  have hcells : ∀ r ∈ regProds f.instr, ∀ k, cfg.key r = some k → ∃ q, s.rat[k]? = some q ∧ CellBusy s.regs q ∧ own2 q = (N, k) := by
    intro r hr k hk
    unfold regProds at hr
    rw [hpo] at hr
    obtain ⟨q, hq, hqr⟩ := List.mem_filterMap.1 hr
    exact c2.cells q hq r k hqr hk
  have hownp : own2 p = (N, cfg.pcK) := by
    rw [c2.ownv p (List.mem_append.2 (Or.inl (List.mem_of_getElem? hrpc)))]
    simp [own1]
  refine ⟨_, hadd, ?_, rfl, e, rfl, ei⟩
  refine ⟨own2, n, m, b, h.wf, ?_, ?_, ?_, ?_, w1, ?_, h.out, h.inp, h.halted, ?_, ?_⟩
  · -- the window
    refine Win.append (T := fun S m b n' ps => Tail c S m b n' ps ∧ n' = n + c.entries.length ∧ b.length = cfg.nkeys) ?_ ?_
    · rintro S' m' b' n' ps' ⟨⟨t1, t2, t3⟩, t4, t5⟩
      rw [hd] at t3
      obtain ⟨f1, f2, f3, f4⟩ := t3
      subst t1 t2
      refine ⟨⟨?_, ⟨?_, ?_, ?_, ?_, ?_⟩, ?_, ?_, ?_, ?_, hopsOK _, ?_⟩, ?_, ?_, ?_, ?_⟩
      · rw [ei]; exact f1
      · rw [err]; exact hrlen
      · rw [ewr]; exact c2.len
      · rw [err]; exact hrk
      · rw [err, ewr, hrpc, hpcs]
      · intro k hk
        rw [ei] at hk
        rw [ewr, c2.keep k, hrk k]
        · rintro rfl; exact hk (List.mem_cons_self ..)
        · intro q hq r hr hkk
          exact hk (List.mem_cons_of_mem _ (List.mem_filterMap.2 ⟨r, hkeys q hq r hr, hkk⟩))
      · intro k hk q hq
        rw [ei] at hk
        rw [ewr] at hq
        change own2 q = _
        rw [t4]
        rcases List.mem_cons.1 hk with rfl | hk
        · rw [hpcs] at hq; cases hq; exact hownp
        · obtain ⟨r, hr, hk⟩ := List.mem_filterMap.1 hk
          obtain ⟨q', q1, q2, q3⟩ := hcells r hr k hk
          rw [q1] at hq; cases hq; exact q3
      · intro q hq
        rw [ewr, hpcs] at hq; cases hq
        rw [if_neg hst, ← f2]
        exact hb6.congr (hview p (List.mem_append.2 (Or.inl (List.mem_of_getElem? hrpc))))
      · intro r hr k hk q hq
        rw [if_neg (fun h => hst h.1)]
        rw [ei] at hr
        rw [ewr] at hq
        obtain ⟨q', q1, q2, q3⟩ := hcells r hr k hk
        rw [q1] at hq; cases hq
        exact q2.congr (d3 q)
      · intro h; exact absurd h hst
      · unfold StoreOK
        rw [ei, ewi, emx]
        cases hsp : storeProd f.instr with
        | none => rw [hsp] at w4; exact w4
        | some sp =>
          rw [hsp] at w4
          cases sp with
          | none => simp only [if_neg hst]; exact ⟨w4.1, w4.2.1, w4.2.2⟩
          | some a => simp only [if_neg hst]; exact ⟨w4.1, w4.2.1, w4.2.2⟩
      · rw [ei]; exact f3
      · exact emx
      · exact ewr
      · rw [ei]; exact f4
    · refine Win.frame (X := ⟨c.prog, c.regs, c.wm, own⟩) (X' := ⟨c.prog, r4, s.wm, own2⟩) rfl (fun _ _ _ _ _ h => h) hwin ?_ ?_
      · intro e1 he1 k hk q hq
        exact hT q (List.mem_flatMap.2 ⟨e1, he1, List.mem_append.2 (Or.inr (List.mem_of_getElem? hq))⟩)
      · intro e1 he1 id hid
        refine w3 id ?_
        exact Win.wid_le (M := c.wm.cur) (fun _ _ _ _ _ hT => Nat.le_of_eq hT.1) h.win e1 he1 id hid
  · refine ⟨h.base.len, fun r k hk hr => ?_⟩
    obtain ⟨q, q1, q2, q3, q4⟩ := h.base.cells r k hk hr
    obtain ⟨g1, g2⟩ := hbase k q (key_ne_pcK hk hr) q1
    refine ⟨q, q1, by rw [g2]; exact q2, by rw [g2]; exact q3, q4.congr g1⟩
  · intro h0
    have h0 : c.entries ++ [e] = [] := h0
    simp at h0
  · rw [List.append_nil]
    refine d2.perm ?_
    refine List.Perm.append_left _ ?_
    change (s.rat ++ (rrat ++ tables c.entries)).Perm (tables (c.entries ++ [e]))
    have : tables (c.entries ++ [e]) = tables c.entries ++ (rrat ++ s.rat) := by
      unfold tables
      rw [List.flatMap_append]
      simp [err, ewr]
    rw [this]
    refine List.perm_append_comm.trans ?_
    rw [← List.append_assoc]
    exact List.Perm.append_right _ List.perm_append_comm
  · change RamOK cfg c.ram s.wm.outs S.mem
    rw [w2]; exact h.ram
  · change c.freeAlus + aluUsers (c.entries ++ [e]) = cfg.alus
    rw [← h.alus]
    unfold aluUsers
    rw [List.countP_append]
    rcases est with h | h <;> simp [h]
  · change (c.entries ++ [e]).length ≤ cfg.rsMax
    rw [List.length_append]
    exact hcap

end
end T86
