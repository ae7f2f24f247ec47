import Verif.Lemmas.HazardExec

/-! Undefined behaviour of a tick. -/

set_option linter.unusedSimpArgs false
set_option linter.unusedVariables false

namespace T86
open Isa

section
variable {cfg : Cfg}

theorem Sat.and {α : Type} {x : Res α} {P Q : α → Prop} {E F : Fault → Prop} (h : Sat x P E) (h' : Sat x Q F) :
    Sat x (fun a => P a ∧ Q a) (fun f => E f ∧ F f) := by
  cases x with
  | ok a => exact ⟨h, h'⟩
  | error f => exact ⟨h, h'⟩

/-! ## Positions in the window -/

theorem Win.at {X : Ctx} {T : State → Nat → Rat → Nat → List Word → Prop} :
    ∀ {j : Nat} {es : List Entry} {e : Entry} {S : State} {m : Nat} {b : Rat} {n : Nat} {ps : List Word},
    Win cfg X T es S m b n ps → es[j]? = some e → ∃ m' b' n', EntryOK cfg X (specAt cfg X.prog j S) m' b' n' e
  | _, [], _, _, _, _, _, _, _, h => by simp at h
  | 0, e :: es, _, S, m, b, n, ps, h, he => by
    cases he
    exact ⟨m, b, n, h.1⟩
  | j + 1, e :: es, e', S, m, b, n, ps, h, he => by
    have hi : e.instr = instrAt X.prog S.pc := h.1.instr.trans (fetchAt_eq _ _)
    have := Win.at (j := j) h.2.2 (by simpa using he)
    unfold specAt
    rw [← hi]
    exact this

theorem Win.owner {X : Ctx} {T : State → Nat → Rat → Nat → List Word → Prop} {M id : Nat}
    (hT : ∀ S m b n ps, T S m b n ps → m = M) (hid : id ≤ M) :
    ∀ {es : List Entry} {S : State} {m : Nat} {b : Rat} {n : Nat} {ps : List Word},
    Win cfg X T es S m b n ps → m < id → ∃ (j : Nat) (e : Entry), es[j]? = some e ∧ id ∈ e.wids
  | [], S, m, b, n, ps, h, hm => by
    have := hT _ _ _ _ _ h
    omega
  | e :: es, S, m, b, n, ps, h, hm => by
    have hs := h.1.store
    have hle := h.1.le_maxW
    by_cases he : id ≤ e.maxW
    · refine ⟨0, e, rfl, ?_⟩
      unfold StoreOK at hs
      split at hs
      · omega
      · rw [hs.1]
        have : id = m + 1 := by omega
        rw [this]
        exact List.mem_cons_self ..
    · obtain ⟨j, e', h1, h2⟩ := Win.owner hT hid h.2.2 (by omega)
      exact ⟨j + 1, e', by simpa using h1, h2⟩

theorem storeProd_static {S : State} {i : Instr} {a : Word} (hw : i.wf cfg = true) (h : storeProd i = some (some a)) :
    writeAddr S i = some a := by
  cases i
  case mov dst v =>
    cases dst
    case memImm a' => cases h; rfl
    case val e => cases e <;> first | cases h | (rename_i r; cases r <;> cases h)
    all_goals cases h
  all_goals first | (cases h; done) | skip
  all_goals simp [storeProd, prodsOf, Instr.produces, store?_reg, store?_freg, store?_memReg] at h

theorem EntryOK.rec_addr {X : Ctx} {S : State} {m : Nat} {b : Rat} {n : Nat} {e : Entry} {id : Nat} {a : Word} {v : Option Word}
    {r : Option Nat} (h : EntryOK cfg X S m b n e) (hwf : e.instr.wf cfg = true) (hid : id ∈ e.wids)
    (hr : X.wm.recOf id = some (a, v, r)) : writeAddr S e.instr = some a := by
  have hs := h.store
  have hm := (h.wid_eq hid).1
  subst hm
  unfold StoreOK at hs
  split at hs
  · rw [hs.1] at hid; cases hid
  · next sp hsp =>
    obtain ⟨h1, h2, h3⟩ := hs
    split at h3
    · obtain ⟨_, a', v', h4, h5⟩ := h3
      rw [hr] at h5
      cases h5
      exact storeOf_writeAddr hwf h4
    · cases sp with
      | some a' =>
        rw [h3.2] at hr
        cases hr
        exact storeProd_static hwf hsp
      | none => rw [h3.2] at hr; cases hr

/-- The addresses of the writes of the instructions in flight. -/
def Places (cfg : Cfg) (prog : List Instr) (es : List Entry) (S : State) (id : Nat) (a : Word) : Prop :=
  ∃ j e, es[j]? = some e ∧ id ∈ e.wids ∧ writeAddr (specAt cfg prog j S) e.instr = some a

theorem Inv0.apart {H : Prop} {c : Cpu} {S : State} {x : List Nat} {own : Nat → Nat × Nat} {n m : Nat} {b : Rat}
    (h : Inv0 cfg c S x own n m b) (hm : cfg.mode = .wrap) (hz : Hazard cfg c.prog S → H) :
    Apart H (Places cfg c.prog c.entries S) := by
  have key : ∀ j j' e e' a, j' < j → c.entries[j]? = some e → c.entries[j']? = some e' →
      writeAddr (specAt cfg c.prog j S) e.instr = some a → writeAddr (specAt cfg c.prog j' S) e'.instr = some a → H := by
    intro j j' e e' a hlt he he' ha ha'
    obtain ⟨_, _, _, o⟩ := Win.at h.win he
    obtain ⟨_, _, _, o'⟩ := Win.at h.win he'
    have hl : j < c.entries.length := by
      obtain ⟨h, _⟩ := List.getElem?_eq_some_iff.1 he
      exact h
    rw [show e.instr = instrAt c.prog (specAt cfg c.prog j S).pc from o.instr.trans (fetchAt_eq _ _)] at ha
    rw [show e'.instr = instrAt c.prog (specAt cfg c.prog j' S).pc from o'.instr.trans (fetchAt_eq _ _)] at ha'
    exact hz (hazard_stores hm h.wf (Nat.lt_of_lt_of_le hl h.cap) hlt ha' ha)
  rintro id id' a hne ⟨j, e, h1, h2, h3⟩ ⟨j', e', h1', h2', h3'⟩
  rcases Nat.lt_trichotomy j j' with hlt | rfl | hlt
  · exact key j' j e' e a hlt h1' h1 h3' h3
  · rw [h1] at h1'
    cases h1'
    obtain ⟨_, _, _, o⟩ := Win.at h.win h1
    exact absurd ((o.wid_eq h2).1.trans (o.wid_eq h2').1.symm) hne
  · exact key j j' e e' a hlt h1 h1' h3 h3'

theorem recOf_mem {wm : Writes} {m : Nat} {w : MemWrite} (h : WmOK wm m) (hw : w ∈ wm.ws) :
    wm.recOf w.id = some (w.addr, w.value, w.ramId) := by
  have hs := h.sorted
  unfold Writes.recOf
  generalize wm.ws = l at hw hs
  induction l with
  | nil => cases hw
  | cons y l ih =>
    rw [List.pairwise_cons] at hs
    rw [List.find?_cons]
    rcases List.mem_cons.1 hw with rfl | hw
    · simp
    · have := hs.1 w hw
      rw [show (y.id == w.id) = false by simp; omega]
      exact ih hw hs.2

theorem Inv0.at {c : Cpu} {S : State} {x : List Nat} {own : Nat → Nat × Nat} {n m : Nat} {b : Rat}
    (h : Inv0 cfg c S x own n m b) : c.wm.At (Places cfg c.prog c.entries S) := by
  intro w hw hr
  have hlt : m < w.id := by
    by_contra hc
    have := h.wm.old w hw (by omega)
    rw [hr] at this
    cases this
  obtain ⟨j, e, h1, h2⟩ := Win.owner (M := c.wm.cur) (fun _ _ _ _ _ hT => hT.1) (h.wm.new w hw hlt).2 h.win hlt
  obtain ⟨_, _, _, o⟩ := Win.at h.win h1
  exact ⟨j, e, h1, h2, o.rec_addr (o.wf h.wf) h2 (recOf_mem h.wm hw)⟩

theorem safe_of {H : Prop} {P : Nat → Word → Prop} {X : Ctx} {T : State → Nat → Rat → Nat → List Word → Prop} :
    ∀ {es : List Entry} {S : State} {m : Nat} {b : Rat} {n : Nat} {ps : List Word}, Win cfg X T es S m b n ps →
    (∀ j e, es[j]? = some e → (∀ id ∈ e.wids, ∀ a, writeAddr (specAt cfg X.prog j S) e.instr = some a → P id a) ∧
      (e.instr.exec cfg (valsOf (specAt cfg X.prog j S) e.instr) = .error .ub → H)) → Harmless cfg H P es S
  | [], S, m, b, n, ps, h, hf => trivial
  | e :: es, S, m, b, n, ps, h, hf => by
    refine ⟨hf 0 e rfl, safe_of h.2.2 fun j e' he => ?_⟩
    have hi : e.instr = instrAt X.prog S.pc := h.1.instr.trans (fetchAt_eq _ _)
    have := hf (j + 1) e' (by simpa using he)
    unfold specAt at this
    rw [← hi] at this
    exact this

theorem Inv0.safe {H : Prop} {c : Cpu} {S : State} {x : List Nat} {own : Nat → Nat × Nat} {n m : Nat} {b : Rat}
    (h : Inv0 cfg c S x own n m b) (hm : cfg.mode = .wrap) (hz : Hazard cfg c.prog S → H) :
    Harmless cfg H (Places cfg c.prog c.entries S) c.entries S := by
  refine safe_of h.win fun j e he => ⟨fun id hid a ha => ⟨j, e, he, hid, ha⟩, fun hx => hz ?_⟩
  obtain ⟨_, _, _, o⟩ := Win.at h.win he
  have hl : j < c.entries.length := by
    obtain ⟨h, _⟩ := List.getElem?_eq_some_iff.1 he
    exact h
  rw [show e.instr = instrAt c.prog (specAt cfg c.prog j S).pc from o.instr.trans (fetchAt_eq _ _)] at hx
  exact hazard_exec hm h.wf (Nat.lt_of_lt_of_le hl h.cap) hx

/-- The execution stage. -/
theorem Inv0.exec_good {H : Prop} {c : Cpu} {S : State} {x : List Nat} {own : Nat → Nat × Nat} {n m : Nat} {b : Rat}
    (h : Inv0 cfg c S x own n m b) (hm : cfg.mode = .wrap) (hg : c.wm.Good H) (hz : Hazard cfg c.prog S → H) :
    Sat (Cpu.execLoop cfg (c.regs, c.wm) c.freeAlus c.entries) (fun y => y.2.1.2.Good H) (fun f => f = .ub → H) :=
  execLoop_good (h.apart hm hz) h.wf c.entries h.win h.wm (Nat.le_refl _) hg h.at (h.safe hm hz)

/-! ## Retirement -/

abbrev Fine (H : Prop) (x : Res Cpu) : Prop := Sat x (fun c => c.wm.Good H) (fun f => f = .ub → H)

theorem Fine.of_noub {H : Prop} {α : Type} {x : Res α} {f : α → Res Cpu} (h : NoUb x) (k : ∀ a, Fine H (f a)) : Fine H (x >>= f) :=
  Sat.bind h.good fun a _ => k a

theorem noub_foldlM {α σ : Type} {f : σ → α → Res σ} (hf : ∀ s a, NoUb (f s a)) : ∀ (l : List α) (s : σ), NoUb (l.foldlM f s)
  | [], s => trivial
  | a :: l, s => by
    rw [List.foldlM_cons]
    exact (hf s a).bind fun s' => noub_foldlM hf l s'

theorem subscribeAll_noub {t : Rat} {regs : Regs} : NoUb (regs.subscribeAll t) := by
  unfold Regs.subscribeAll
  refine noub_foldlM (fun s a => ?_) _ _
  unfold Regs.subscribe
  exact get_noub.bind fun _ => trivial

theorem unsubscribeAll_noub {t : Rat} {regs : Regs} : NoUb (regs.unsubscribeAll t) := by
  unfold Regs.unsubscribeAll
  refine noub_foldlM (fun s a => ?_) _ _
  unfold Regs.unsubscribe
  refine get_noub.bind fun _ => ?_
  split
  · exact fun h => by cases h
  · trivial

theorem dropTables_noub {regs : Regs} {e : Entry} : NoUb (Cpu.dropTables regs e) := by
  unfold Cpu.dropTables
  exact unsubscribeAll_noub.bind fun _ => unsubscribeAll_noub

theorem readReg_noub {t : Rat} {regs : Regs} {r : LReg} : NoUb (Cpu.readReg cfg regs t r) := by
  unfold Cpu.readReg
  exact translate_noub.bind fun _ => get_noub.bind fun _ => trivial

theorem good_removePending {H : Prop} (q : Writes) : (q.removePending).Good H := by
  intro w hw hr
  have := (List.mem_filter.1 hw).2
  rw [hr] at this
  cases this

theorem unroll_good {H : Prop} {c : Cpu} {t : Rat} : Fine H (Cpu.unroll cfg c t) := by
  unfold Cpu.unroll Cpu.flushPipeline Cpu.clearStation Cpu.assignRat
  refine Fine.of_noub (NoUb.bind (NoUb.bind (noub_foldlM (fun _ _ => dropTables_noub) _ _) fun _ => (trivial : NoUb (.ok _))) fun _ => (trivial : NoUb (.ok _))) fun c1 => ?_
  refine Fine.of_noub (unsubscribeAll_noub.bind fun _ => subscribeAll_noub.bind fun _ => trivial) fun c2 => ?_
  refine Fine.of_noub readReg_noub fun p => ?_
  exact good_removePending _

theorem processJump_good {H : Prop} {c : Cpu} {e : Entry} (hg : c.wm.Good H) : Fine H (Cpu.processJump cfg c e) := by
  unfold Cpu.processJump
  refine Fine.of_noub readReg_noub fun d => Fine.of_noub translate_noub fun p => Fine.of_noub get_noub fun x => ?_
  split
  · exact fun h => by cases h
  · split
    · exact fun h => by cases h
    · split
      · exact hg
      · exact unroll_good

theorem ramWrite_noub {ram : Ram} {a v : Word} : NoUb (ram.write a v) := by
  unfold Ram.write
  repeat' split
  all_goals first | trivial | exact fun h => by cases h

theorem retireStore_good {H : Prop} {c : Cpu} {e : Entry} {X : Ctx} {S : State} {m : Nat} {b : Rat} {n : Nat}
    (he : EntryOK cfg X S m b n e) (hX : X.wm = c.wm) (hst : e.st = .retiring) (hg : c.wm.Good H) : Fine H (Cpu.retireStore c e) := by
  have hs := he.store
  unfold StoreOK at hs
  unfold Cpu.retireStore
  split at hs
  · rw [hs.1]; exact fun h => by cases h
  · obtain ⟨h1, h2, h3⟩ := hs
    rw [if_pos hst] at h3
    obtain ⟨_, a, v, _, hr⟩ := h3
    rw [hX] at hr
    rw [h1]
    dsimp only
    unfold Cpu.writeMemory
    refine Sat.bind (getWrite_good hg hr) fun w _ => ?_
    refine Sat.bind (P := fun x => x.1.Good H) ?_ fun x hx => hx
    unfold Writes.startWriting
    refine Sat.bind (getWrite_good hg hr) fun w _ => ?_
    split
    · refine Sat.bind ramWrite_noub.good fun x _ => ?_
      exact good_modify hg (fun _ h => by cases h) fun _ => rfl
    · exact fun h => by cases h

theorem retireInstr_good {H : Prop} {c : Cpu} {S : State} {x : List Nat} {own : Nat → Nat × Nat} {n m : Nat} {b : Rat} {e : Entry}
    {es : List Entry} (h : Inv0 cfg c S x own n m b) (hes : c.entries = e :: es) (hst : e.st = .retiring)
    (hg : c.wm.Good H) (hz : Hazard cfg c.prog S → H) : Fine H (Cpu.retireInstr cfg { c with entries := es } e) := by
  have hw := h.win
  rw [hes] at hw
  have he := hw.1
  have hstore : Fine H (Cpu.retireStore { c with entries := es } e) := retireStore_good he rfl hst hg
  have hi : e.instr = instrAt c.prog S.pc := he.instr.trans (fetchAt_eq _ _)
  unfold Cpu.retireInstr
  split
  · exact hg
  · exact hg
  · exact hstore
  · exact Fine.of_noub setReg_noub fun _ => hg
  · exact processJump_good hg
  · exact processJump_good hg
  · exact processJump_good hg
  · exact Sat.bind hstore fun c1 h1 => processJump_good h1
  · exact processJump_good hg
  · exact hstore
  · exact hstore
  · exact Sat.bind unroll_good fun c1 h1 => h1
  · exact unroll_good
  · exact Sat.bind unroll_good fun c1 h1 => h1
  · refine Fine.of_noub ?_ fun _ => hg
    unfold Cpu.opValue
    repeat' split
    all_goals first | trivial | exact fun h => by cases h
  · refine Fine.of_noub ?_ fun _ => hg
    unfold Cpu.opValue
    repeat' split
    all_goals first | trivial | exact fun h => by cases h
  · next r hr =>
    have hinp : ({ c with entries := es } : Cpu).inp = S.inp := h.inp
    rw [hinp, readChar_eq]
    cases hk : skipSpace S.inp with
    | nil =>
      refine fun _ => hz (.undefined 0 ?_ ?_ (Or.inl rfl))
      · have := h.cap
        rw [hes] at this
        exact Nat.lt_of_lt_of_le (Nat.succ_pos _) this
      · intro t ht
        have hwn : wanted cfg c.prog S 0 = .getchar r := by rw [← hr, hi]; rfl
        rw [hwn] at ht
        change (match skipSpace S.inp with | [] => _ | b :: rest => _) = _ at ht
        rw [hk] at ht
        cases ht
    | cons a l => exact Fine.of_noub setReg_noub fun _ => hg
  · exact hg

theorem retirePass_good {H : Prop} {c : Cpu} {S : State} {e : Entry} {es : List Entry} (h : Inv cfg c S)
    (hes : c.entries = e :: es) (hst : e.st = .retiring) (hg : c.wm.Good H) (hz : Hazard cfg c.prog S → H) :
    Fine H (Cpu.retirePass cfg c e es) := by
  obtain ⟨own, n, m, b, h⟩ := h
  unfold Cpu.retirePass Cpu.retireEntry
  refine Sat.bind (P := fun c => c.wm.Good H) ?_ fun c1 h1 => Fine.of_noub dropTables_noub fun _ => h1
  refine Sat.bind (retireInstr_good h hes hst hg hz) fun c1 h1 => ?_
  split
  · exact fun h => by cases h
  · split
    · exact Sat.bind unroll_good fun c2 h2 => h2
    · split
      · exact Sat.bind unroll_good fun c2 h2 => h2
      · exact h1

/-- Hazards on the way from `S`. -/
def Ahead (cfg : Cfg) (prog : List Instr) (H : Prop) (S : State) : Prop :=
  ∀ k S', Isa.runs cfg prog k S S' → S'.halted = false → Hazard cfg prog S' → H

theorem Ahead.go {prog : List Instr} {H : Prop} {S S' : State} {k : Nat} (h : Ahead cfg prog H S) (hr : Isa.runs cfg prog k S S') :
    Ahead cfg prog H S' := fun l S'' h1 h2 h3 => h _ S'' (runs_append hr h1) h2 h3

theorem retireLoop_good {H : Prop} : ∀ (fuel : Nat) {c : Cpu} {S : State}, Inv cfg c S → S.halted = false →
    c.wm.Good H → Ahead cfg c.prog H S → Fine H (Cpu.retireLoop cfg fuel c)
  | 0, c, S, h, hh, hg, hz => hg
  | fuel + 1, c, S, h, hh, hg, hz => by
    unfold Cpu.retireLoop
    split
    · exact hg
    · next e es hes =>
      split
      case isFalse hst => exact hg
      case isTrue hst =>
        have hp := retirePass_sat h hes hst
        have hq := retirePass_good h hes hst hg (hz 0 S rfl hh)
        have heq : (do
            let c ← Cpu.retireEntry cfg { c with entries := es } e
            let regs ← Cpu.dropTables c.regs e
            Cpu.retireLoop cfg fuel { c with regs := regs }) = (Cpu.retirePass cfg c e es >>= Cpu.retireLoop cfg fuel) := by
          unfold Cpu.retirePass
          rw [bind_assoc]
          congr 1
          funext c1
          rw [bind_assoc]
          rfl
        rw [heq]
        revert hp hq
        cases hpe : Cpu.retirePass cfg c e es with
        | error f => exact fun _ h => h
        | ok c1 =>
          rintro ⟨S1, P⟩ hq
          rw [ok_bind]
          by_cases hi : instrAt c.prog S.pc = .halt
          · rw [retireLoop_quiet (P.quiet (Or.inr (Or.inr hi))).entries]
            exact hq
          · have hnh : S1.halted = false := by
              rw [exec_halted (i := instrAt c.prog S.pc) P.step hi]; exact hh
            refine retireLoop_good fuel P.inv hnh hq ?_
            rw [P.prog]
            exact hz.go (runs_one hh P.step)

/-! ## The tick -/

theorem good_removeFinished {H : Prop} {q : Writes} {ram : Ram} (h : q.Good H) : (q.removeFinished ram).Good H :=
  fun w hw => h w (List.mem_filter.1 hw).1

theorem tickRetire_good {H : Prop} {c : Cpu} {S : State} (hm : cfg.mode = .wrap) (h : Inv cfg c S) (hh : S.halted = false)
    (hg : c.wm.Good H) (hz : Ahead cfg c.prog H S) : Fine H (Cpu.tickRetire cfg c) := by
  obtain ⟨own, n, m, b, h⟩ := h
  unfold Cpu.tickRetire Cpu.executeAndRetire
  have e1 := h.tickStart.exec
  have e2 := h.tickStart.exec_good hm (good_removeFinished hg) (hz 0 S rfl hh)
  refine Sat.bind ((e1.and e2).mono (fun _ h => h) fun _ h => h.2) ?_
  rintro x ⟨⟨h1, h2⟩, e2⟩
  exact retireLoop_good _ ⟨own, n, m, b, h1⟩ hh e2 hz

/-- Every dangling reference is explained by `H` or by another write to the same address. -/
def Explained (H : Prop) (q : Writes) : Prop :=
  (∀ w ∈ q.ws, w.id ≤ q.cur) ∧ ∀ w ∈ q.ws, w.ramId = none → w.refValid = false →
    H ∨ ∃ w0 ∈ q.ws, w0.ramId = none ∧ w0.addr = w.addr ∧ w0.id ≠ w.id

theorem explained_registerAt {H : Prop} {q : Writes} (a : Word) (h : Explained H q) : Explained H (q.registerAt a).2 := by
  have hws : (q.registerAt a).2.ws = insertDesc ⟨q.cur + 1, a, none, none, true⟩ (q.ws.map (Writes.inval a)) := rfl
  have hcur : (q.registerAt a).2.cur = q.cur + 1 := rfl
  refine ⟨?_, ?_⟩
  · intro w hw
    rw [hws, mem_insertDesc] at hw
    rw [hcur]
    rcases hw with rfl | hw
    · exact Nat.le_refl _
    · obtain ⟨w', hw', rfl⟩ := List.mem_map.1 hw
      rw [Writes.inval_id]
      have := h.1 w' hw'
      omega
  · intro w hw hr hv
    rw [hws, mem_insertDesc] at hw
    rcases hw with rfl | hw
    · cases hv
    · obtain ⟨w', hw', rfl⟩ := List.mem_map.1 hw
      rw [Writes.inval_ramId] at hr
      rw [Writes.inval_addr, Writes.inval_id]
      unfold Writes.inval at hv
      split at hv
      · next he =>
        refine Or.inr ⟨⟨q.cur + 1, a, none, none, true⟩, ?_, rfl, he.symm, ?_⟩
        · rw [hws, mem_insertDesc]; exact Or.inl rfl
        · have := h.1 w' hw'
          simp only
          omega
      · rcases h.2 w' hw' hr hv with h1 | ⟨w0, g1, g2, g3, g4⟩
        · exact Or.inl h1
        · refine Or.inr ⟨Writes.inval a w0, ?_, ?_, ?_, ?_⟩
          · rw [hws, mem_insertDesc]; exact Or.inr (List.mem_map.2 ⟨w0, g1, rfl⟩)
          · rw [Writes.inval_ramId]; exact g2
          · rw [Writes.inval_addr]; exact g3
          · rw [Writes.inval_id]; exact g4

theorem explained_add {H : Prop} {c c' : Cpu} {f : Fetched} (h : Explained H c.wm) (hc : Cpu.add cfg c f = .ok c') :
    Explained H c'.wm := by
  have key : Sat (Cpu.add cfg c f) (fun c' => Explained H c'.wm) (fun _ => True) := by
    have tr : ∀ {α : Type} (x : Res α), Sat x (fun _ => True) (fun _ => True) := by
      intro α x; cases x <;> trivial
    unfold Cpu.add
    split
    · refine Sat.bind (tr _) fun x _ => Sat.bind (tr _) fun p _ => Sat.bind (tr _) fun r1 _ => Sat.bind (tr _) fun r2 _ =>
        Sat.bind (tr _) fun prods _ => ?_
      refine Sat.bind (P := fun s : Cpu.AddState => Explained H s.wm)
        (Sat.foldlM (fun (_ : List Product) (s : Cpu.AddState) => Explained H s.wm) _ _ h ?_) fun s hs =>
        Sat.bind (tr _) fun r3 _ => Sat.bind (tr _) fun ops _ => (show Explained H s.wm from hs)
      intro p ps s hs
      unfold Cpu.addProduct
      split
      · exact hs
      · exact Sat.bind (tr _) fun _ _ => hs
      · exact Sat.bind (tr _) fun _ _ => hs
      · exact explained_registerAt _ hs
      · exact ⟨fun w hw => Nat.le_succ_of_le (hs.1 w hw), hs.2⟩
    · trivial
  rw [hc] at key
  exact key

theorem Inv.explained {H : Prop} {c : Cpu} {S : State} (h : Inv cfg c S) (hg : c.wm.Good H) : Explained H c.wm := by
  obtain ⟨own, n, m, b, h⟩ := h
  have hle : m ≤ c.wm.cur := Win.cur_ge (M := c.wm.cur) (fun _ _ _ _ _ hT => Nat.le_of_eq hT.1) h.win
  refine ⟨fun w hw => ?_, fun w hw hr hv => Or.inl (hg w hw hr hv)⟩
  by_cases hm : w.id ≤ m
  · omega
  · exact (h.wm.new w hw (by omega)).2

theorem Inv.good {H : Prop} {c : Cpu} {S : State} (h : Inv cfg c S) (hm : cfg.mode = .wrap) (hz : Hazard cfg c.prog S → H)
    (he : Explained H c.wm) : c.wm.Good H := by
  obtain ⟨own, n, m, b, h⟩ := h
  intro w hw hr hv
  rcases he.2 w hw hr hv with h1 | ⟨w0, h1, h2, h3, h4⟩
  · exact h1
  · exact h.apart hm hz w0.id w.id w.addr h4 (h3 ▸ h.at w0 h1 h2) (h.at w hw hr)

theorem tickFront_good {H : Prop} {c : Cpu} {S : State} (hm : cfg.mode = .wrap) (h : Inv cfg c S) (hg : c.wm.Good H)
    (hz : Hazard cfg c.prog S → H) : Fine H (Cpu.tickFront cfg c) := by
  unfold Cpu.tickFront
  refine Sat.bind (((fetchAndStart_sat h).with_eq).mono (fun _ h => h) fun f hf _ => by
    have := hf.2; rw [hm] at this; cases this) ?_
  rintro c1 ⟨e1, h1, s1⟩
  have hw1 : c1.wm = c.wm := by
    unfold Cpu.fetchAndStart at e1
    rw [bind_ok_iff] at e1
    obtain ⟨x, _, e1⟩ := e1
    cases e1
    rfl
  obtain ⟨c2, e2, h2, s2⟩ := decodeStage_ok h1
  rw [e2, ok_bind]
  have g2 : c2.wm.Good H := by
    refine h2.good hm (by rw [s2.prog, s1.prog]; exact hz) ?_
    have hx : Explained H c1.wm := h1.explained (by rw [hw1]; exact hg)
    unfold Cpu.decodeStage at e2
    split at e2
    · cases e2; exact hx
    · split at e2
      · rw [bind_ok_iff] at e2
        obtain ⟨c3, e3, e4⟩ := e2
        cases e4
        exact (explained_add hx e3 : Explained H c3.wm)
      · cases e2; exact hx
  change (Cpu.fetchStage (Cpu.shiftStage c2)).wm.Good H
  have hf : ∀ c : Cpu, (Cpu.fetchStage c).wm = c.wm := by
    intro c
    unfold Cpu.fetchStage
    split
    · rfl
    · dsimp only
      split <;> rfl
  have hs : (Cpu.shiftStage c2).wm = c2.wm := by
    unfold Cpu.shiftStage
    split <;> rfl
  rw [hf, hs]
  exact g2

theorem tick_good {H : Prop} {c : Cpu} {S : State} (hm : cfg.mode = .wrap) (h : Inv cfg c S) (hh : S.halted = false)
    (hg : c.wm.Good H) (hz : Ahead cfg c.prog H S) : Fine H (Cpu.tick cfg c) := by
  unfold Cpu.tick
  refine Sat.bind (((tickRetire_sat h hh).and (tickRetire_good hm h hh hg hz)).mono (fun _ h => h) fun _ h => h.2) ?_
  rintro c1 ⟨⟨S', h1, hp, ht, hl, hk⟩, g1⟩
  have hr : ∃ k, Isa.runs cfg c.prog k S S' := by
    rcases hk with ⟨k, g⟩ | ⟨k, S1, g⟩
    · exact ⟨k, passes_runs g.passes⟩
    · exact ⟨_, runs_append (passes_runs g.passes) (runs_one g.run g.step)⟩
  obtain ⟨k, hr⟩ := hr
  have hhal := h1.halted
  dsimp only
  split
  · exact g1
  · next hc =>
    have hsi : (Cpu.stepInterrupt c1).wm = c1.wm := by
      unfold Cpu.stepInterrupt
      repeat' split
      all_goals rfl
    split
    · change (Cpu.stepInterrupt c1).wm.Good H
      rw [hsi]; exact g1
    · have hS : S'.halted = false := by rw [← hhal]; simpa using hc
      refine tickFront_good (S := S') hm ?_ (by rw [hsi]; exact g1) ?_
      · unfold Cpu.stepInterrupt
        split
        · split
          · exact h1.setIntr _ _
          · exact h1.setIntr _ c1.intr
        · exact h1
      · have : (Cpu.stepInterrupt c1).prog = c1.prog := by
          unfold Cpu.stepInterrupt
          repeat' split
          all_goals rfl
        rw [this, hp]
        exact hz k S' hr hS

theorem run_good {H : Prop} (hm : cfg.mode = .wrap) : ∀ (n : Nat) {c : Cpu} {S : State}, Inv cfg c S →
    (S.halted = false → c.stepped = false) → c.wm.Good H → Ahead cfg c.prog H S → Fine H (Cpu.run cfg n c)
  | 0, c, S, h, hs, hg, hz => hg
  | n + 1, c, S, h, hs, hg, hz => by
    unfold Cpu.run
    rw [h.halted]
    by_cases hh : S.halted = true
    · rw [if_pos hh]; exact hg
    · rw [if_neg hh]
      simp only [Bool.not_eq_true] at hh
      refine Sat.bind (((tick_sat h hh (hs hh)).and (tick_good hm h hh hg hz)).mono (fun _ h => h) fun _ h => h.2) ?_
      rintro c1 ⟨h1, g1⟩
      obtain ⟨S1, r1⟩ := tick_run h1
      obtain ⟨k, rk, rr⟩ := r1.runs
      refine run_good hm n r1.inv r1.run g1 ?_
      rw [r1.prog]
      exact hz.go rr

end
end T86
