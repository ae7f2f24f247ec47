import Verif.Lemmas.Run

/-! The pipeline moves on: what a tick preserves besides `Inv`, and how the oldest entry proceeds. -/

set_option linter.unusedSimpArgs false
set_option linter.unusedVariables false

namespace T86
open Isa

section
variable {cfg : Cfg}

/-- Whatever succeeds has the property. -/
abbrev IfOk {α : Type} (x : Res α) (P : α → Prop) : Prop := Sat x P (fun _ => True)

theorem IfOk.get {α : Type} {x : Res α} {P : α → Prop} {a : α} (h : IfOk x P) (hx : x = .ok a) : P a := by
  subst hx; exact h

theorem ifOk_true {α : Type} (x : Res α) : IfOk x (fun _ => True) := by
  cases x <;> trivial

theorem ifOk_of {α : Type} {x : Res α} {P : α → Prop} (h : ∀ a, x = .ok a → P a) : IfOk x P := by
  cases x with
  | ok a => exact h a rfl
  | error f => trivial

/-- Operands that are read from memory. -/
def Operand.readsMem : Operand → Bool
  | .memImm _ => true
  | .mem _ => true
  | _ => false

def memCount (ops : List Operand) : Nat := ops.countP Operand.readsMem

theorem memCount_cons (op : Operand) (ops : List Operand) :
    memCount (op :: ops) = memCount ops + (if op.readsMem then 1 else 0) := List.countP_cons

/-! ## Reads of the RAM -/

/-- `r'` comes from `r` by starting reads. -/
structure Grow (r r' : Ram) : Prop where
  gates : r'.gates = r.gates
  find : ∀ a x, r.reads.find? (·.addr == a) = some x → r'.reads.find? (·.addr == a) = some x
  sub : ∀ x ∈ r.reads, x ∈ r'.reads
  busy : r.isBusy = true → r' = r
  room : r.reads.length ≤ r.gates → r'.reads.length ≤ r'.gates

theorem Grow.refl (r : Ram) : Grow r r := ⟨rfl, fun _ _ h => h, fun _ h => h, fun _ => rfl, fun h => h⟩

theorem Grow.trans {a b c : Ram} (h : Grow a b) (h' : Grow b c) : Grow a c where
  gates := h'.gates.trans h.gates
  find := fun x y hy => h'.find x y (h.find x y hy)
  sub := fun x hx => h'.sub x (h.sub x hx)
  busy := fun hb => by
    have e := h.busy hb
    subst e
    exact h'.busy hb
  room := fun hr => h'.room (h.room hr)

theorem grow_read {r : Ram} {a : Word} : IfOk (r.read a) (fun y => Grow r y.2) := by
  unfold Ram.read
  split
  · exact Grow.refl r
  · next hf =>
    split
    · exact Grow.refl r
    · next hb =>
      split
      · trivial
      · split
        · trivial
        · next v hv =>
          refine ⟨rfl, ?_, ?_, ?_, ?_⟩
          · intro a' x hx
            change List.find? _ (_ :: _) = _
            rw [List.find?_cons]
            split
            · next he =>
              simp only [beq_iff_eq] at he
              subst he
              rw [hf] at hx; cases hx
            · exact hx
          · intro x hx; exact List.mem_cons_of_mem _ hx
          · intro h; exact absurd h hb
          · intro h
            simp only [Ram.isBusy, beq_iff_eq] at hb
            simp only [List.length_cons]
            omega

theorem grow_entryRead {wm : Writes} {r : Ram} {a : Word} {m : Nat} :
    IfOk (Cpu.entryReadMemory wm r a m) (fun y => Grow r y.2.1) := by
  unfold Cpu.entryReadMemory
  have key : IfOk (Cpu.readMemory wm r a m) (fun y => Grow r y.2) := by
    unfold Cpu.readMemory
    split
    · exact Grow.refl r
    · split
      · exact Grow.refl r
      · exact grow_read
  split
  · next h => exact key.get h
  · exact Grow.refl r
  · trivial

theorem grow_fetchStep {regs : Regs} {wm : Writes} {rrat : Rat} {maxW : Nat} {r : Ram} {op : Operand} :
    IfOk (Cpu.fetchStep cfg regs wm rrat maxW r op)
      (fun y => Grow r y.2.1 ∧ ∀ op', y.1 = some op' → op'.readsMem = true → op.readsMem = true) := by
  have none : ∀ (r' : Ram) (b : Bool), Grow r r' → Grow r ((none : Option Operand), r', b).2.1 ∧
      ∀ op', ((none : Option Operand), r', b).1 = some op' → op'.readsMem = true → op.readsMem = true :=
    fun _ _ h => ⟨h, fun _ h => by cases h⟩
  have supply : ∀ (v : Word), IfOk (op.supply cfg.mode v) (fun op' => op'.readsMem = true → op.readsMem = true) := by
    intro v
    cases op with
    | imm w => trivial
    | fimm w => trivial
    | freg i => trivial
    | memImm a => intro h; cases h
    | val e =>
      refine Sat.bind (ifOk_true _) ?_
      rintro (w | e') _
      · intro h; cases h
      · intro h; cases h
    | mem e =>
      refine Sat.bind (ifOk_true _) ?_
      rintro (w | e') _
      · intro h; rfl
      · intro h; rfl
  unfold Cpu.fetchStep
  refine Sat.bind (ifOk_true _) ?_
  rintro q -
  cases q with
  | reg x =>
    refine Sat.bind (ifOk_true _) fun p _ => Sat.bind (ifOk_true _) fun c _ => ?_
    split
    · refine Sat.bind (supply _) fun op' h => ?_
      exact ⟨Grow.refl r, fun _ he hm => by cases he; exact h hm⟩
    · exact Sat.bind (ifOk_true _) fun _ _ => none r false (Grow.refl r)
  | freg i =>
    refine Sat.bind (ifOk_true _) fun p _ => Sat.bind (ifOk_true _) fun c _ => ?_
    split
    · refine Sat.bind (P := fun op' => op'.readsMem = false) ?_ fun op' h => ?_
      · cases op <;> trivial
      · exact ⟨Grow.refl r, fun _ he hm => by cases he; rw [h] at hm; cases hm⟩
    · exact none r false (Grow.refl r)
  | mem a =>
    refine Sat.bind grow_entryRead ?_
    rintro ⟨ov, r', ex⟩ hg
    cases ov with
    | none => exact none r' ex hg
    | some v =>
      refine Sat.bind (supply v) fun op' h => ?_
      exact ⟨hg, fun _ he hm => by cases he; exact h hm⟩

theorem grow_fetchOperand {regs : Regs} {wm : Writes} {rrat : Rat} {maxW : Nat} : ∀ {fuel : Nat} {r : Ram} {exc : Bool} {op : Operand},
    IfOk (Cpu.fetchOperand cfg regs wm rrat maxW fuel r exc op)
      (fun y => Grow r y.2.1 ∧ (y.1.readsMem = true → op.readsMem = true))
  | 0, r, exc, op => ⟨Grow.refl r, id⟩
  | fuel + 1, r, exc, op => by
    unfold Cpu.fetchOperand
    split
    · exact ⟨Grow.refl r, id⟩
    · refine Sat.bind grow_fetchStep ?_
      rintro ⟨oop, r', ex⟩ ⟨h1, h2⟩
      cases oop with
      | none => exact ⟨h1, id⟩
      | some op' =>
        refine grow_fetchOperand.imp ?_
        rintro y ⟨g1, g2⟩
        exact ⟨h1.trans g1, fun h => h2 op' rfl (g2 h)⟩

theorem grow_fetchOperands {regs : Regs} {wm : Writes} {rrat : Rat} {maxW : Nat} : ∀ {ops : List Operand} {r : Ram} {exc : Bool},
    IfOk (Cpu.fetchOperands cfg regs wm rrat maxW r exc ops) (fun y => Grow r y.2.1 ∧ memCount y.1 ≤ memCount ops)
  | [], r, exc => ⟨Grow.refl r, Nat.le_refl _⟩
  | op :: ops, r, exc => by
    unfold Cpu.fetchOperands
    refine Sat.bind grow_fetchOperand ?_
    rintro ⟨op', r', exc'⟩ ⟨h1, h2⟩
    refine Sat.bind grow_fetchOperands ?_
    rintro ⟨ops', r'', exc''⟩ ⟨g1, g2⟩
    refine ⟨h1.trans g1, ?_⟩
    simp only at h2 g2
    change memCount (op' :: ops') ≤ _
    rw [memCount_cons, memCount_cons]
    by_cases hm : op'.readsMem = true
    · rw [if_pos hm, if_pos (h2 hm)]; omega
    · rw [if_neg hm]; omega

/-! ## The extra invariant -/

/-- An entry has bounded work left. -/
structure EntryLive (e : Entry) : Prop where
  rem : e.rem ≤ 3
  mems : e.st ≠ .retiring → memCount e.ops ≤ memCount (opsOf e.instr)

/-- A write handed over to the RAM has a value. -/
def WmLive (wm : Writes) : Prop := ∀ w ∈ wm.ws, w.ramId.isSome = true → w.value.isSome = true

/-- What `Inv` does not say and progress needs. -/
structure Live (cfg : Cfg) (c : Cpu) : Prop where
  gates : c.ram.gates = cfg.gates
  room : c.ram.reads.length ≤ c.ram.gates
  wm : WmLive c.wm
  entries : ∀ e ∈ c.entries, EntryLive e

theorem live_init {prog : List Instr} {data : List Word} {inp : List (BitVec 8)} : Live cfg (Cpu.init cfg prog data inp) :=
  ⟨rfl, Nat.zero_le _, (by intro w hw; cases hw), (by intro e he; cases he)⟩

/-- What retiring does to the parts that matter here. -/
structure KeptLive (c c' : Cpu) : Prop where
  retired : c'.retired = c.retired
  gates : c'.ram.gates = c.ram.gates
  reads : c'.ram.reads = c.ram.reads
  wm : Desc c.wm.ws → WmLive c.wm → Desc c'.wm.ws ∧ WmLive c'.wm
  entries : c'.entries = c.entries ∨ c'.entries = []

theorem KeptLive.refl (c : Cpu) : KeptLive c c := ⟨rfl, rfl, rfl, And.intro, Or.inl rfl⟩

theorem KeptLive.trans {a b c : Cpu} (h : KeptLive a b) (h' : KeptLive b c) : KeptLive a c where
  retired := h'.retired.trans h.retired
  gates := h'.gates.trans h.gates
  reads := h'.reads.trans h.reads
  wm := fun x y => h'.wm (h.wm x y).1 (h.wm x y).2
  entries := by
    rcases h'.entries with e | e
    · rw [e]; exact h.entries
    · exact Or.inr e

theorem WmLive.removePending {wm : Writes} (h : WmLive wm) : WmLive wm.removePending := by
  intro w hw
  exact h w (List.mem_filter.1 hw).1

theorem WmLive.removeFinished {wm : Writes} {ram : Ram} (h : WmLive wm) : WmLive (wm.removeFinished ram) := by
  intro w hw
  exact h w (List.mem_filter.1 hw).1

theorem kept_unroll {c : Cpu} {t : Rat} : IfOk (Cpu.unroll cfg c t) (KeptLive c) := by
  unfold Cpu.unroll Cpu.flushPipeline
  refine Sat.bind (P := fun c1 => KeptLive c c1) ?_ ?_
  · refine Sat.bind (P := fun c1 => KeptLive c c1) ?_ ?_
    · unfold Cpu.clearStation
      refine Sat.bind (ifOk_true _) ?_
      rintro regs -
      exact ⟨rfl, rfl, rfl, And.intro, Or.inr rfl⟩
    · rintro c1 h1
      exact h1.trans ⟨rfl, rfl, rfl, And.intro, Or.inl rfl⟩
  · rintro c1 h1
    unfold Cpu.assignRat
    refine Sat.bind (P := fun c2 => KeptLive c c2) ?_ ?_
    · refine Sat.bind (ifOk_true _) fun _ _ => Sat.bind (ifOk_true _) fun _ _ => ?_
      exact h1.trans ⟨rfl, rfl, rfl, And.intro, Or.inl rfl⟩
    · rintro c2 h2
      refine Sat.bind (ifOk_true _) fun pc _ => ?_
      exact h2.trans ⟨rfl, rfl, rfl, fun d h => ⟨List.Pairwise.filter _ d, WmLive.removePending h⟩, Or.inl rfl⟩

theorem wmLive_startWriting {q : Writes} {id : Nat} {ram : Ram} :
    IfOk (q.startWriting id ram) (fun x => (x.2.gates = ram.gates ∧ x.2.reads = ram.reads) ∧ (Desc q.ws → WmLive q → Desc x.1.ws ∧ WmLive x.1)) := by
  unfold Writes.startWriting
  refine Sat.bind (P := fun w => q.ws.find? (·.id == id) = some w) ?_ ?_
  · unfold Writes.getWrite
    split
    · trivial
    · next w hw =>
      split
      · exact hw
      · trivial
  · intro w hw
    split
    · next v hr hv =>
      refine Sat.bind (P := fun y => y.2.gates = ram.gates ∧ y.2.reads = ram.reads) ?_ ?_
      · unfold Ram.write
        split
        · exact ⟨rfl, rfl⟩
        · trivial
      · intro y hy
        refine ⟨hy, ?_⟩
        intro hs h
        refine ⟨?_, ?_⟩
        · change Desc (q.ws.map _)
          refine List.Pairwise.map _ ?_ hs
          intro a b hab
          by_cases ha : a.id = id <;> by_cases hb : b.id = id <;> simp_all
        intro w' hw' hr'
        change w' ∈ q.ws.map _ at hw'
        rw [List.mem_map] at hw'
        obtain ⟨w0, h0, rfl⟩ := hw'
        by_cases hid : w0.id = id
        · rw [if_pos hid]
          have h1 := List.mem_of_find?_eq_some hw
          have h2 : w.id = id := by simpa using List.find?_some hw
          have := Desc.unique hs h0 h1 (hid.trans h2.symm)
          subst this
          exact Option.isSome_iff_exists.2 ⟨v, hv⟩
        · rw [if_neg hid] at hr' ⊢
          exact h w0 h0 hr'
    · trivial

theorem kept_retireStore {c : Cpu} {e : Entry} : IfOk (Cpu.retireStore c e) (KeptLive c) := by
  unfold Cpu.retireStore
  split
  · unfold Cpu.writeMemory
    refine Sat.bind (ifOk_true _) fun w _ => Sat.bind wmLive_startWriting fun x h => ?_
    exact ⟨rfl, h.1.1, h.1.2, h.2, Or.inl rfl⟩
  · trivial

theorem kept_processJump {c : Cpu} {e : Entry} : IfOk (Cpu.processJump cfg c e) (KeptLive c) := by
  unfold Cpu.processJump
  refine Sat.bind (ifOk_true _) fun w _ => Sat.bind (ifOk_true _) fun p _ => Sat.bind (ifOk_true _) fun x _ => ?_
  split
  · trivial
  · split
    · trivial
    · next q qs _ =>
      have k : KeptLive c { c with preds := qs } := ⟨rfl, rfl, rfl, And.intro, Or.inl rfl⟩
      split
      · exact k
      · exact kept_unroll.imp fun c' h => k.trans h

theorem kept_retireInstr {c : Cpu} {e : Entry} : IfOk (Cpu.retireInstr cfg c e) (KeptLive c) := by
  unfold Cpu.retireInstr
  split
  · exact KeptLive.refl c
  · exact KeptLive.refl c
  · exact kept_retireStore
  · exact Sat.bind (ifOk_true _) fun _ _ => ⟨rfl, rfl, rfl, And.intro, Or.inl rfl⟩
  · exact kept_processJump
  · exact kept_processJump
  · exact kept_processJump
  · exact Sat.bind kept_retireStore fun c1 h1 => kept_processJump.imp fun c2 h2 => h1.trans h2
  · exact kept_processJump
  · exact kept_retireStore
  · exact kept_retireStore
  · exact Sat.bind kept_unroll fun c1 h1 => h1.trans ⟨rfl, rfl, rfl, And.intro, Or.inl rfl⟩
  · exact kept_unroll
  · exact Sat.bind kept_unroll fun c1 h1 => h1.trans ⟨rfl, rfl, rfl, And.intro, Or.inl rfl⟩
  · exact Sat.bind (ifOk_true _) fun _ _ => ⟨rfl, rfl, rfl, And.intro, Or.inl rfl⟩
  · exact Sat.bind (ifOk_true _) fun _ _ => ⟨rfl, rfl, rfl, And.intro, Or.inl rfl⟩
  · split
    · trivial
    · exact Sat.bind (ifOk_true _) fun _ _ => ⟨rfl, rfl, rfl, And.intro, Or.inl rfl⟩
  · exact KeptLive.refl c

/-- What retiring an entry does. -/
theorem retireEntry_kept {c : Cpu} {e : Entry} :
    IfOk (Cpu.retireEntry cfg c e) (fun c' => ∃ c1, KeptLive c c1 ∧ c'.retired = c1.retired + 1 ∧ c'.ram = c1.ram ∧ c'.wm = c1.wm ∧
      c'.entries = c1.entries) := by
  unfold Cpu.retireEntry
  refine Sat.bind kept_retireInstr fun c1 h1 => ?_
  split
  · trivial
  · split
    · exact Sat.bind kept_unroll fun c2 h2 => ⟨c2, h1.trans h2, rfl, rfl, rfl, rfl⟩
    · split
      · exact Sat.bind kept_unroll fun c2 h2 => ⟨c2, h1.trans h2, rfl, rfl, rfl, rfl⟩
      · exact ⟨c1, h1, rfl, rfl, rfl, rfl⟩

/-- The retiring loop. -/
theorem retireLoop_live : ∀ (n : Nat) {c : Cpu}, Desc c.wm.ws → Live cfg c →
    IfOk (Cpu.retireLoop cfg n c) (fun c' => Live cfg c' ∧ c.retired ≤ c'.retired ∧
      (c'.retired = c.retired → c' = c ∧ (n ≠ 0 → ∀ e, c.entries.head? = some e → e.st ≠ .retiring)))
  | 0, c, hd, h => ⟨h, Nat.le_refl _, fun _ => ⟨rfl, fun h => absurd rfl h⟩⟩
  | n + 1, c, hd, h => by
    unfold Cpu.retireLoop
    split
    · next he => exact ⟨h, Nat.le_refl _, fun _ => ⟨rfl, fun _ e hh => by rw [he] at hh; cases hh⟩⟩
    · next e es he =>
      split
      · refine Sat.bind retireEntry_kept ?_
        rintro c2 ⟨c1, k, r1, r2, r3, r4⟩
        refine Sat.bind (ifOk_true _) fun regs _ => ?_
        have hw := k.wm hd h.wm
        refine (retireLoop_live n (c := { c2 with regs := regs }) ?_ ?_).imp ?_
        · change Desc c2.wm.ws; rw [r3]; exact hw.1
        · refine ⟨?_, ?_, ?_, ?_⟩
          · change c2.ram.gates = _; rw [r2, k.gates]; exact h.gates
          · change c2.ram.reads.length ≤ c2.ram.gates; rw [r2, k.gates, k.reads]; exact h.room
          · change WmLive c2.wm; rw [r3]; exact hw.2
          · intro x hx
            change x ∈ c2.entries at hx
            rw [r4] at hx
            rcases k.entries with g | g
            · rw [g] at hx
              exact h.entries x (by rw [he]; exact List.mem_cons_of_mem _ hx)
            · rw [g] at hx; cases hx
        · rintro c' ⟨g1, g2, _⟩
          have hr := k.retired
          change c2.retired ≤ _ at g2
          change c1.retired = c.retired at hr
          exact ⟨g1, by omega, fun h => by omega⟩
      · next hst =>
        refine ⟨h, Nat.le_refl _, fun _ => ⟨rfl, fun _ x hx => ?_⟩⟩
        rw [he] at hx
        cases hx
        exact hst

/-! ## Execution -/

theorem WmLive.add {q : Writes} (h : WmLive q) (id : Nat) (a : Word) : WmLive (q.add id a) := by
  intro w hw hr
  rcases mem_insertDesc.1 hw with rfl | hw
  · cases hr
  · rw [List.mem_map] at hw
    obtain ⟨w0, h0, rfl⟩ := hw
    split at hr
    · next hn => rw [if_pos hn]; exact h w0 h0 hr
    · next hn => rw [if_neg hn]; exact h w0 h0 hr

theorem WmLive.congr {q q' : Writes} (h : WmLive q) (he : q'.ws = q.ws) : WmLive q' := by
  unfold WmLive; rw [he]; exact h

theorem wmLive_applyAct {wrat : Rat} {wids : List Nat} {s : Regs × Writes} {a : Act} (h : WmLive s.2) :
    IfOk (Cpu.applyAct cfg wrat wids s a) (fun s' => WmLive s'.2) := by
  cases a with
  | set r v => exact Sat.bind (ifOk_true _) fun _ _ => h
  | specifyAddress x =>
    change IfOk (match wids with
      | [id] => (s.2.specifyAddress id x >>= fun q => pure (s.1, q) : Res (Regs × Writes))
      | _ => .error .abort) _
    split
    · refine Sat.bind (P := fun q => WmLive q) ?_ fun q hq => hq
      unfold Writes.specifyAddress
      split
      · exact WmLive.add (WmLive.congr h rfl) _ _
      · trivial
    · trivial
  | setValue v =>
    change IfOk (match wids with
      | [id] => (s.2.setValue id v >>= fun q => pure (s.1, q) : Res (Regs × Writes))
      | _ => .error .abort) _
    split
    · refine Sat.bind (P := fun q => WmLive q) ?_ fun q hq => hq
      unfold Writes.setValue
      refine Sat.bind (ifOk_true _) fun w _ => ?_
      split
      · trivial
      · intro w' hw' hr'
        change w' ∈ s.2.ws.map _ at hw'
        rw [List.mem_map] at hw'
        obtain ⟨w0, h0, rfl⟩ := hw'
        split
        · rfl
        · next hn => rw [if_neg hn] at hr'; exact h w0 h0 hr'
    · trivial

/-- One entry in the execution stage. -/
inductive ExecOne : Entry → Entry → Prop
  | done {e e' : Entry} (h : e.st = .executing) (h1 : e.rem ≤ 1) (h2 : e'.st = .retiring) (h3 : e'.rem = e.rem - 1) : ExecOne e e'
  | more {e : Entry} (h : e.st = .executing) (h1 : 1 < e.rem) : ExecOne e { e with rem := e.rem - 1 }
  | same {e : Entry} (h : e.st ≠ .executing) : ExecOne e e

theorem ExecOne.live {e e' : Entry} (h : ExecOne e e') (hl : EntryLive e) : EntryLive e' := by
  cases h with
  | done h h1 h2 h3 => exact ⟨by have := hl.rem; omega, fun h => absurd h2 h⟩
  | more h h1 => exact ⟨by have := hl.rem; simp only; omega, hl.mems⟩
  | same h => exact hl

theorem execEntry_live {s : Regs × Writes} {fa : Nat} {e : Entry} (h : WmLive s.2) :
    IfOk (Cpu.execEntry cfg s fa e) (fun x => ExecOne e x.1 ∧ WmLive x.2.1.2 ∧ fa ≤ x.2.2 ∧
      (e.st = .executing → e.instr.needsAlu = true → e.rem ≤ 1 → 0 < x.2.2)) := by
  unfold Cpu.execEntry
  split
  · next hst =>
    split
    · next hr =>
      refine Sat.bind (P := fun x => x.1.rem = e.rem - 1 ∧ WmLive x.2.2) ?_ ?_
      · unfold Cpu.execute
        split
        · trivial
        · refine Sat.bind (ifOk_true _) fun x _ => Sat.bind (P := fun s' : Regs × Writes => WmLive s'.2) ?_ fun s' hs' => ⟨rfl, hs'⟩
          refine Sat.foldlM (fun _ (s' : Regs × Writes) => WmLive s'.2) _ _ h ?_
          intro a as s' hs'
          exact wmLive_applyAct hs'
      · rintro x ⟨h1, h2⟩
        refine ⟨.done hst (by omega) rfl h1, h2, ?_, ?_⟩
        · dsimp only; split <;> omega
        · intro _ ha _
          dsimp only
          rw [if_pos ha]; omega
    · next hr =>
      exact ⟨.more hst (by omega), h, Nat.le_refl _, fun _ _ h => by omega⟩
  · next hst => exact ⟨.same (by rw [hst]; decide), h, Nat.le_refl _, fun h => by rw [hst] at h; cases h⟩
  · next hst => exact ⟨.same (by rw [hst]; decide), h, Nat.le_refl _, fun h => by rw [hst] at h; cases h⟩
  · next hst => exact ⟨.same (by rw [hst]; decide), h, Nat.le_refl _, fun h => by rw [hst] at h; cases h⟩

theorem execLoop_live : ∀ (es : List Entry) {s : Regs × Writes} {fa : Nat}, WmLive s.2 →
    IfOk (Cpu.execLoop cfg s fa es) (fun x => List.Forall₂ ExecOne es x.1 ∧ WmLive x.2.1.2 ∧ fa ≤ x.2.2 ∧
      ∀ e ∈ es, e.st = .executing → e.instr.needsAlu = true → e.rem ≤ 1 → 0 < x.2.2)
  | [], s, fa, h => ⟨.nil, h, Nat.le_refl _, fun e he => by cases he⟩
  | e :: es, s, fa, h => by
    unfold Cpu.execLoop
    refine Sat.bind (execEntry_live h) ?_
    rintro x ⟨h1, h2, h3, h4⟩
    refine Sat.bind (execLoop_live es h2) ?_
    rintro y ⟨g1, g2, g3, g4⟩
    refine ⟨.cons h1 g1, g2, Nat.le_trans h3 g3, ?_⟩
    intro e' he' a1 a2 a3
    rcases List.mem_cons.1 he' with rfl | he'
    · exact Nat.lt_of_lt_of_le (h4 a1 a2 a3) g3
    · exact g4 e' he' a1 a2 a3

theorem ram_tick_length (r : Ram) : r.tick.reads.length ≤ r.reads.length := by
  change (r.reads.filterMap _).length ≤ _
  exact List.length_filterMap_le _ _

/-- The state between execution and retirement. -/
structure MidTick (cfg : Cfg) (c c1 : Cpu) : Prop where
  live : Live cfg c1
  ram : c1.ram = c.ram.tick
  ents : List.Forall₂ ExecOne c.entries c1.entries
  fa : c.freeAlus ≤ c1.freeAlus
  free : ∀ e ∈ c.entries, e.st = .executing → e.instr.needsAlu = true → e.rem ≤ 1 → 0 < c1.freeAlus
  intr : c1.intr = 0
  retired : c1.retired = c.retired
  halted : c1.halted = c.halted
  stepped : c1.stepped = c.stepped
  decode : c1.decode = c.decode
  fetch : c1.fetch = c.fetch
  prog : c1.prog = c.prog

theorem forall2_mem {α β : Type} {R : α → β → Prop} {l : List α} {l' : List β} (h : List.Forall₂ R l l') :
    ∀ y ∈ l', ∃ x ∈ l, R x y := by
  induction h with
  | nil => intro y hy; cases hy
  | cons h _ ih =>
    intro y hy
    rcases List.mem_cons.1 hy with rfl | hy
    · exact ⟨_, List.mem_cons_self .., h⟩
    · obtain ⟨x, hx, hr⟩ := ih y hy
      exact ⟨x, List.mem_cons_of_mem _ hx, hr⟩

theorem forall2_mem' {α β : Type} {R : α → β → Prop} {l : List α} {l' : List β} (h : List.Forall₂ R l l') :
    ∀ x ∈ l, ∃ y ∈ l', R x y := by
  induction h with
  | nil => intro y hy; cases hy
  | cons h _ ih =>
    intro y hy
    rcases List.mem_cons.1 hy with rfl | hy
    · exact ⟨_, List.mem_cons_self .., h⟩
    · obtain ⟨x, hx, hr⟩ := ih y hy
      exact ⟨x, List.mem_cons_of_mem _ hx, hr⟩

/-- The start of a tick, up to the retirement: `c1` is the state in between. -/
theorem tickRetire_live {c : Cpu} {S : State} {own : Nat → Nat × Nat} {n m : Nat} {b : Rat} (hi : Inv0 cfg c S [] own n m b)
    (h : Live cfg c) :
    IfOk (Cpu.tickRetire cfg c) (fun c2 => ∃ c1, Inv0 cfg c1 S [] own n m b ∧ MidTick cfg c c1 ∧ Live cfg c2 ∧
      c.retired ≤ c2.retired ∧
      (c2.retired = c.retired → c2 = c1 ∧ ∀ e, c1.entries.head? = some e → e.st ≠ .retiring)) := by
  unfold Cpu.tickRetire Cpu.executeAndRetire
  have hx := hi.tickStart.exec
  have hl := execLoop_live (cfg := cfg) c.entries (s := (c.regs, c.wm.removeFinished c.ram.tick)) (fa := c.freeAlus) h.wm.removeFinished
  refine ifOk_of fun c2 h2 => ?_
  rw [bind_ok_iff] at h2
  obtain ⟨x, hx1, hx2⟩ := h2
  dsimp only at hx1
  dsimp only at hx
  rw [hx1] at hx hl
  obtain ⟨hx3, hx4⟩ := hx
  obtain ⟨l1, l2, l3, l4⟩ := hl
  have live1 : Live cfg { c with intr := 0, ram := c.ram.tick, wm := x.2.1.2, entries := x.1, regs := x.2.1.1, freeAlus := x.2.2 } := by
    refine ⟨h.gates, ?_, l2, ?_⟩
    · exact Nat.le_trans (ram_tick_length _) h.room
    · intro e he
      obtain ⟨e0, h0, h1⟩ := forall2_mem l1 e he
      exact h1.live (h.entries e0 h0)
  have hr := retireLoop_live (cfg := cfg) x.1.length (c := { c with intr := 0, ram := c.ram.tick, wm := x.2.1.2, entries := x.1, regs := x.2.1.1, freeAlus := x.2.2 })
    hx3.wm.sorted live1
  dsimp only at hx2 hr
  rw [hx2] at hr
  obtain ⟨g1, g2, g3⟩ := hr
  refine ⟨_, hx3, ⟨live1, rfl, l1, l3, l4, rfl, rfl, rfl, rfl, rfl, rfl, rfl⟩, g1, g2, ?_⟩
  intro he
  obtain ⟨k1, k2⟩ := g3 he
  refine ⟨k1, fun e hh => ?_⟩
  cases hxe : x.1 with
  | nil => rw [hxe] at hh; cases hh
  | cons y ys => exact k2 (by rw [hxe]; simp) e hh

/-! ## Operands of the oldest entry -/

/-- All registers of the table are ready. -/
def RegsReady (cfg : Cfg) (regs : Regs) (rrat : Rat) : Prop :=
  ∀ r k, cfg.key r = some k → ∃ p x, rrat.translate cfg r = .ok p ∧ regs[p]? = some x ∧ x.ready = true

/-- No write up to `m` is unfinished. -/
def MemReady (wm : Writes) (m : Nat) : Prop :=
  wm.hasUnspecified m = false ∧ ∀ a w, wm.previousWrite a m = some w → w.value.isSome = true

/-- Why a read of `a` is not finished, and what became of the RAM. -/
inductive Polled (r r' : Ram) (a : Word) : Prop
  | own {x : ReadEntry} (h : r.reads.find? (·.addr == a) = some x) (h1 : x.rem ≠ 0) (h2 : r' = r)
  | busy (h : r.reads.find? (·.addr == a) = none) (h1 : r.isBusy = true) (h2 : r' = r)
  | new {v : Word} (h : r.reads.find? (·.addr == a) = none) (h2 : r' = { r with reads := ⟨a, readLatency, v⟩ :: r.reads })

theorem poll_read {wm : Writes} {r : Ram} {a : Word} {m : Nat} (h : MemReady wm m) :
    IfOk (Cpu.entryReadMemory wm r a m) (fun y => y.1 = none → Polled r y.2.1 a) := by
  have key : IfOk (Cpu.readMemory wm r a m) (fun y => y.1 = none → Polled r y.2 a) := by
    unfold Cpu.readMemory
    rw [h.1, if_neg (by simp)]
    split
    · next w hw =>
      intro hn
      have := h.2 a w hw
      simp only at hn
      rw [hn] at this
      cases this
    · unfold Ram.read
      split
      · next x hx =>
        intro hn
        simp only at hn
        split at hn
        · cases hn
        · next hx0 => exact .own hx hx0 rfl
      · next hx =>
        split
        · next hb => exact fun _ => .busy hx hb rfl
        · split
          · trivial
          · split
            · trivial
            · exact fun _ => .new hx rfl
  unfold Cpu.entryReadMemory
  split
  · next hk => exact key.get hk
  · intro h; cases h
  · trivial

theorem fetchOperand_done {regs : Regs} {wm : Writes} {rrat : Rat} {m : Nat} {fuel : Nat} {r : Ram} {exc : Bool} {op : Operand}
    (h : op.isFetched = true) : Cpu.fetchOperand cfg regs wm rrat m fuel r exc op = .ok (op, r, exc) := by
  cases fuel with
  | zero => rfl
  | succ n => unfold Cpu.fetchOperand; rw [if_pos h]

/-- What polling an operand of the oldest entry gives. -/
def PollOp (r : Ram) (op op' : Operand) (r' : Ram) : Prop :=
  (op'.isFetched = true ∧ (op.readsMem = false → r' = r)) ∨
  (op.readsMem = true ∧ ∃ a, op' = .memImm a ∧ Polled r r' a ∧ ∀ a0, op = .memImm a0 → a0 = a)

theorem poll_operand {regs : Regs} {wm : Writes} {rrat : Rat} {m : Nat} (hr : RegsReady cfg regs rrat) :
    ∀ (fuel : Nat) {r : Ram} {exc : Bool} {op : Operand}, op.ok cfg = true → op.steps ≤ fuel → (op.readsMem = true → MemReady wm m) →
    IfOk (Cpu.fetchOperand cfg regs wm rrat m fuel r exc op) (fun y => PollOp r op y.1 y.2.1)
  | 0, r, exc, op, hok, hf, hm => by
    have : op.isFetched = true := by
      cases op with
      | imm w => rfl
      | fimm w => rfl
      | val e => have := steps_pos e; simp only [Operand.steps] at hf; omega
      | freg i => simp only [Operand.steps] at hf; omega
      | memImm a => simp only [Operand.steps] at hf; omega
      | mem e => simp only [Operand.steps] at hf; omega
    exact Or.inl ⟨this, fun _ => rfl⟩
  | fuel + 1, r, exc, op, hok, hf, hm => by
    unfold Cpu.fetchOperand
    by_cases hfe : op.isFetched = true
    · rw [if_pos hfe]; exact Or.inl ⟨hfe, fun _ => rfl⟩
    · rw [if_neg hfe]
      cases op with
      | imm w => exact absurd rfl hfe
      | fimm w => exact absurd rfl hfe
      | freg i =>
        have hk : cfg.key (.flt i) = some (cfg.nreg + i) := by
          simp [Operand.ok] at hok
          simp [Cfg.key, hok]
        obtain ⟨p, x, h1, h2, h3⟩ := hr _ _ hk
        simp only [Cpu.fetchStep, Operand.requirement, ok_bind, h1, regs_get h2, if_pos h3, Operand.supplyFloat, pure_ok]
        rw [fetchOperand_done rfl]
        exact Or.inl ⟨rfl, fun _ => rfl⟩
      | memImm a =>
        simp only [Cpu.fetchStep, Operand.requirement, ok_bind]
        refine Sat.bind (P := fun z => (∃ v, z.1 = some (.imm v)) ∨ (z.1 = none ∧ Polled r z.2.1 a)) ?_ ?_
        · refine Sat.bind (poll_read (hm rfl)) ?_
          rintro ⟨ov, r', ex⟩ hp
          cases ov with
          | none => exact Or.inr ⟨rfl, hp rfl⟩
          | some v => exact Or.inl ⟨v, rfl⟩
        · rintro ⟨ov, r', ex⟩ (⟨v, hv⟩ | ⟨h1, h2⟩)
          · simp only at hv
            subst hv
            simp only
            rw [fetchOperand_done rfl]
            exact Or.inl ⟨rfl, fun h => by cases h⟩
          · simp only at h1
            subst h1
            exact Or.inr ⟨rfl, a, rfl, h2, fun a0 h => by cases h; rfl⟩
      | val e =>
        obtain ⟨k, hk⟩ := RegExpr.ok_req (e := e) hok
        obtain ⟨p, x, h1, h2, h3⟩ := hr _ _ hk
        simp only [Cpu.fetchStep, Operand.requirement, ok_bind, h1, regs_get h2, if_pos h3, Operand.supply]
        refine Sat.bind (P := fun z => z.2.1 = r ∧ ∃ op', z.1 = some op' ∧ op'.ok cfg = true ∧ op'.steps ≤ fuel ∧ op'.readsMem = false) ?_ ?_
        · refine Sat.bind (P := fun op' => op'.ok cfg = true ∧ op'.steps ≤ fuel ∧ op'.readsMem = false) ?_ (fun op' h => ⟨rfl, op', rfl, h⟩)
          refine Sat.bind ((supply_sat cfg.mode (fun _ => x.value) e).mono (fun _ h => h) (fun _ _ => trivial)) ?_
          simp only [Operand.steps] at hf
          rintro (w | e') ⟨_, g⟩
          · exact ⟨rfl, Nat.zero_le _, rfl⟩
          · simp only at g
            exact ⟨RegExpr.ok_tail hok g.2, by simp only [Operand.steps]; omega, rfl⟩
        · rintro ⟨ov, r', ex⟩ ⟨g1, op', g2, g3, g4, g5⟩
          simp only at g1 g2
          subst g1 g2
          refine (poll_operand hr fuel g3 g4 (fun h => by rw [g5] at h; cases h)).imp ?_
          rintro y (⟨k1, k2⟩ | ⟨k1, _⟩)
          · exact Or.inl ⟨k1, fun _ => k2 g5⟩
          · rw [g5] at k1; cases k1
      | mem e =>
        obtain ⟨k, hk⟩ := RegExpr.ok_req (e := e) hok
        obtain ⟨p, x, h1, h2, h3⟩ := hr _ _ hk
        simp only [Cpu.fetchStep, Operand.requirement, ok_bind, h1, regs_get h2, if_pos h3, Operand.supply]
        refine Sat.bind (P := fun z => z.2.1 = r ∧ ∃ op', z.1 = some op' ∧ op'.ok cfg = true ∧ op'.steps ≤ fuel) ?_ ?_
        · refine Sat.bind (P := fun op' => op'.ok cfg = true ∧ op'.steps ≤ fuel) ?_ (fun op' h => ⟨rfl, op', rfl, h⟩)
          refine Sat.bind ((supply_sat cfg.mode (fun _ => x.value) e).mono (fun _ h => h) (fun _ _ => trivial)) ?_
          simp only [Operand.steps] at hf
          rintro (w | e') ⟨_, g⟩
          · simp only at g
            exact ⟨rfl, by simp only [pure_ok, Operand.steps]; omega⟩
          · simp only at g
            exact ⟨RegExpr.ok_tail hok g.2, by simp only [Operand.steps]; omega⟩
        · rintro ⟨ov, r', ex⟩ ⟨g1, op', g2, g3, g4⟩
          simp only at g1 g2
          subst g1 g2
          refine (poll_operand hr fuel g3 g4 (fun _ => hm rfl)).imp ?_
          rintro y (⟨k1, k2⟩ | ⟨k1, a, k2, k3, k4⟩)
          · exact Or.inl ⟨k1, fun h => by cases h⟩
          · exact Or.inr ⟨rfl, a, k2, k3, fun a0 h => by cases h⟩

theorem memCount_zero {ops : List Operand} (h : memCount ops = 0) {op : Operand} (ho : op ∈ ops) : op.readsMem = false := by
  unfold memCount at h
  rw [List.countP_eq_zero] at h
  simpa using h op ho

theorem poll_operands {regs : Regs} {wm : Writes} {rrat : Rat} {m : Nat} (hr : RegsReady cfg regs rrat) :
    ∀ (ops : List Operand) {r : Ram} {exc : Bool}, (∀ op ∈ ops, op.ok cfg = true) → memCount ops ≤ 1 → (memCount ops = 1 → MemReady wm m) →
    IfOk (Cpu.fetchOperands cfg regs wm rrat m r exc ops) (fun y => (y.1.all Operand.isFetched = true ∧ (memCount ops = 0 → y.2.1 = r)) ∨
      (memCount ops = 1 ∧ ∃ a, .memImm a ∈ y.1 ∧ Polled r y.2.1 a ∧ ∀ a0, .memImm a0 ∈ ops → a0 = a))
  | [], r, exc, hok, hc, hm => Or.inl ⟨rfl, fun _ => rfl⟩
  | op :: ops, r, exc, hok, hc, hm => by
    unfold Cpu.fetchOperands
    rw [memCount_cons] at hc hm ⊢
    have hok' : ∀ o ∈ ops, o.ok cfg = true := fun o ho => hok o (List.mem_cons_of_mem _ ho)
    by_cases hmem : op.readsMem = true
    · rw [if_pos hmem] at hc hm ⊢
      have h0 : memCount ops = 0 := by omega
      refine Sat.bind (poll_operand hr op.steps (hok op (List.mem_cons_self ..)) (Nat.le_refl _) (fun _ => hm (by omega))) ?_
      rintro ⟨op', r', exc'⟩ hp
      refine Sat.bind (poll_operands hr ops (r := r') (exc := exc') hok' (by omega) (fun h => by omega)) ?_
      rintro ⟨ops', r'', exc''⟩ (⟨g1, g2⟩ | ⟨g1, _⟩)
      · have g2 := g2 h0
        simp only at g1 g2
        subst g2
        rcases hp with ⟨k1, k2⟩ | ⟨_, a, k1, k2, k3⟩
        · refine Or.inl ⟨?_, fun h => by omega⟩
          change (op' :: ops').all _ = true
          rw [List.all_cons, g1, Bool.and_true]; exact k1
        · simp only at k1
          subst k1
          refine Or.inr ⟨by omega, a, List.mem_cons_self .., k2, ?_⟩
          intro a0 ha
          rcases List.mem_cons.1 ha with ha | ha
          · exact k3 a0 ha.symm
          · have := memCount_zero h0 ha; cases this
      · omega
    · rw [if_neg hmem] at hc hm ⊢
      refine Sat.bind (poll_operand hr op.steps (hok op (List.mem_cons_self ..)) (Nat.le_refl _) (fun h => absurd h hmem)) ?_
      rintro ⟨op', r', exc'⟩ (⟨k1, k2⟩ | ⟨k1, _⟩)
      · have k2 := k2 (by simpa using hmem)
        simp only at k1 k2
        subst k2
        refine Sat.bind (poll_operands hr ops (r := r') (exc := exc') hok' (by omega) hm) ?_
        rintro ⟨ops', r'', exc''⟩ (⟨g1, g2⟩ | ⟨g1, a, g2, g3, g4⟩)
        · refine Or.inl ⟨?_, g2⟩
          change (op' :: ops').all _ = true
          simp only at g1
          rw [List.all_cons, g1, Bool.and_true]; exact k1
        · refine Or.inr ⟨g1, a, List.mem_cons_of_mem _ g2, g3, ?_⟩
          intro a0 ha
          rcases List.mem_cons.1 ha with ha | ha
          · subst ha; exact absurd rfl hmem
          · exact g4 a0 ha
      · exact absurd k1 hmem

/-! ## The front end -/

theorem checkReady_eq (e : Entry) : (Cpu.checkReady e).rem = e.rem ∧ (Cpu.checkReady e).ops = e.ops ∧ (Cpu.checkReady e).instr = e.instr ∧
    ((Cpu.checkReady e).st = e.st ∨ (Cpu.checkReady e).st = .ready) := by
  unfold Cpu.checkReady
  split
  · exact ⟨rfl, rfl, rfl, Or.inr rfl⟩
  · exact ⟨rfl, rfl, rfl, Or.inl rfl⟩

theorem fetchStartEntry_live {regs : Regs} {wm : Writes} {r : Ram} {fa : Nat} {e : Entry} (h : EntryLive e) :
    IfOk (Cpu.fetchStartEntry cfg regs wm r fa e) (fun x => EntryLive x.1 ∧ Grow r x.2.1 ∧ (e.st = .executing → x.1 = e)) := by
  unfold Cpu.fetchStartEntry
  split
  · next hst =>
    refine Sat.bind grow_fetchOperands ?_
    rintro y ⟨h1, h2⟩
    obtain ⟨c1, c2, c3, c4⟩ := checkReady_eq { e with ops := y.1, exc := y.2.2 }
    refine ⟨⟨?_, ?_⟩, h1, fun h => by rw [hst] at h; cases h⟩
    · rw [c1]; exact h.rem
    · intro _
      rw [c2, c3]
      exact Nat.le_trans h2 (h.mems (by rw [hst]; decide))
  · next hst =>
    have hn : e.st ≠ .retiring := by rw [hst]; decide
    have hx : e.st = .executing → ∀ {P : Prop}, P := fun h => by rw [hst] at h; cases h
    split
    · split
      · exact ⟨h, Grow.refl r, fun h => hx h⟩
      · exact ⟨⟨h.rem, fun _ => h.mems hn⟩, Grow.refl r, fun h => hx h⟩
    · exact ⟨⟨h.rem, fun _ => h.mems hn⟩, Grow.refl r, fun h => hx h⟩
  · exact ⟨h, Grow.refl r, fun _ => rfl⟩
  · exact ⟨h, Grow.refl r, fun _ => rfl⟩

theorem fetchStartLoop_live {regs : Regs} {wm : Writes} : ∀ (es : List Entry) {r : Ram} {fa : Nat}, (∀ e ∈ es, EntryLive e) →
    IfOk (Cpu.fetchStartLoop cfg regs wm r fa es) (fun x => (∀ e ∈ x.1, EntryLive e) ∧ Grow r x.2.1 ∧
      (∀ e ∈ es, e.st = .executing → e ∈ x.1) ∧
      ∀ e es', es = e :: es' → ∃ e' r' fa' es'', Cpu.fetchStartEntry cfg regs wm r fa e = .ok (e', r', fa') ∧ x.1 = e' :: es'' ∧ Grow r' x.2.1)
  | [], r, fa, h => ⟨h, Grow.refl r, fun e he => (by cases he), fun e es' he => (by cases he)⟩
  | e :: es, r, fa, h => by
    unfold Cpu.fetchStartLoop
    refine Sat.bind ((fetchStartEntry_live (h e (List.mem_cons_self ..))).with_eq) ?_
    rintro ⟨e', r', fa'⟩ ⟨h0, h1, h2, h3⟩
    refine Sat.bind (fetchStartLoop_live es (fun x hx => h x (List.mem_cons_of_mem _ hx))) ?_
    rintro ⟨es', r'', fa''⟩ ⟨g1, g2, g3, _⟩
    refine ⟨?_, h2.trans g2, ?_, ?_⟩
    · intro x hx
      rcases List.mem_cons.1 hx with rfl | hx
      · exact h1
      · exact g1 x hx
    · intro x hx hst
      rcases List.mem_cons.1 hx with rfl | hx
      · have := h3 hst
        simp only at this
        exact this ▸ List.mem_cons_self ..
      · exact List.mem_cons_of_mem _ (g3 x hx hst)
    · rintro x xs hx
      cases hx
      exact ⟨e', r', fa', es', h0, rfl, g2⟩

theorem wmLive_addProduct {s : Cpu.AddState} {p : Product} (h : WmLive s.wm) :
    IfOk (Cpu.addProduct cfg s p) (fun s' => WmLive s'.wm) := by
  unfold Cpu.addProduct
  split
  · exact h
  · exact Sat.bind (ifOk_true _) fun _ _ => h
  · exact Sat.bind (ifOk_true _) fun _ _ => h
  · exact WmLive.add (WmLive.congr h rfl) _ _
  · exact WmLive.congr h rfl

theorem decodeStage_live {c : Cpu} (h : Live cfg c) :
    IfOk (Cpu.decodeStage cfg c) (fun c' => Live cfg c' ∧ c'.ram = c.ram ∧ (∃ l, c'.entries = c.entries ++ l) ∧ c'.retired = c.retired ∧
      c'.fetch = c.fetch ∧ (c.decode = none → c' = c) ∧
      (c.decode ≠ none → c.entries = [] → 0 < cfg.rsMax → c'.entries ≠ [])) := by
  unfold Cpu.decodeStage
  split
  · next hd => exact ⟨h, rfl, ⟨[], (List.append_nil _).symm⟩, rfl, rfl, fun _ => rfl, fun hn => absurd hd hn⟩
  · next f hd =>
    split
    · next hcap =>
      unfold Cpu.add
      rw [if_pos hcap]
      refine Sat.bind (P := fun c1 => Live cfg c1 ∧ c1.ram = c.ram ∧ (∃ e, c1.entries = c.entries ++ [e]) ∧ c1.retired = c.retired ∧ c1.fetch = c.fetch) ?_ ?_
      · refine Sat.bind (ifOk_true _) fun x _ => Sat.bind (ifOk_true _) fun p _ => Sat.bind (ifOk_true _) fun r1 _ =>
          Sat.bind (ifOk_true _) fun r2 _ => Sat.bind (ifOk_true _) fun prods _ => ?_
        refine Sat.bind (P := fun s : Cpu.AddState => WmLive s.wm) ?_ ?_
        · exact Sat.foldlM (fun _ (s : Cpu.AddState) => WmLive s.wm) _ _ h.wm fun a as s hs => wmLive_addProduct hs
        · intro s hs
          refine Sat.bind (ifOk_true _) fun r3 _ => ?_
          refine ifOk_of fun c1 hc1 => ?_
          rw [bind_ok_iff] at hc1
          obtain ⟨ops, ho, hc1⟩ := hc1
          cases hc1
          refine ⟨⟨h.gates, h.room, hs, ?_⟩, rfl, ⟨_, rfl⟩, rfl, rfl⟩
          intro e he
          rcases List.mem_append.1 he with he | he
          · exact h.entries e he
          · rw [List.mem_singleton] at he
            subst he
            obtain ⟨c1, c2, c3, c4⟩ := checkReady_eq { instr := f.instr, ops := ops, rrat := x.2, wrat := s.rat, wids := s.wids, maxW := s.wm.cur, st := .preparing, rem := f.instr.execLength, exc := false }
            refine ⟨?_, ?_⟩
            · rw [c1]
              change f.instr.execLength ≤ 3
              unfold Instr.execLength
              split <;> omega
            · intro _
              rw [c2, c3]
              change memCount ops ≤ memCount (opsOf f.instr)
              unfold opsOf
              rw [ho]
              exact Nat.le_refl _
      · rintro c1 ⟨h1, h2, ⟨e, h3⟩, h4, h5⟩
        refine ⟨⟨h1.gates, h1.room, h1.wm, h1.entries⟩, h2, ⟨[e], h3⟩, h4, h5, (fun hn => by rw [hd] at hn; cases hn), ?_⟩
        intro _ _ _ he
        change c1.entries = [] at he
        rw [h3] at he
        simp at he
    · next hcap =>
      refine ⟨h, rfl, ⟨[], (List.append_nil _).symm⟩, rfl, rfl, fun _ => rfl, ?_⟩
      intro _ he hr
      rw [he] at hcap
      exact absurd hr hcap

/-- The rest of a tick. -/
structure Fronted (cfg : Cfg) (c c' : Cpu) : Prop where
  live : Live cfg c'
  retired : c'.retired = c.retired
  exec : ∀ e ∈ c.entries, e.st = .executing → e ∈ c'.entries
  head : ∀ e es, c.entries = e :: es → ∃ e' r' fa' es', Cpu.fetchStartEntry cfg c.regs c.wm c.ram c.freeAlus e = .ok (e', r', fa') ∧
    c'.entries = e' :: es' ∧ Grow r' c'.ram
  fill : c.entries = [] → (c.decode ≠ none → 0 < cfg.rsMax → c'.entries ≠ []) ∧
    (c.decode = none → c.fetch ≠ none → c'.decode ≠ none) ∧ c'.fetch ≠ none

theorem shiftStage_eq (c : Cpu) : (Cpu.shiftStage c).ram = c.ram ∧ (Cpu.shiftStage c).wm = c.wm ∧ (Cpu.shiftStage c).entries = c.entries ∧
    (Cpu.shiftStage c).retired = c.retired ∧ (c.decode = none → (Cpu.shiftStage c).decode = c.fetch) := by
  unfold Cpu.shiftStage
  split
  · exact ⟨rfl, rfl, rfl, rfl, fun _ => rfl⟩
  · next hd => exact ⟨rfl, rfl, rfl, rfl, fun h => by rw [hd] at h; cases h⟩

theorem fetchStage_eq (c : Cpu) : (Cpu.fetchStage c).ram = c.ram ∧ (Cpu.fetchStage c).wm = c.wm ∧ (Cpu.fetchStage c).entries = c.entries ∧
    (Cpu.fetchStage c).retired = c.retired ∧ (Cpu.fetchStage c).decode = c.decode ∧ (Cpu.fetchStage c).fetch ≠ none := by
  unfold Cpu.fetchStage
  split
  · next hd => exact ⟨rfl, rfl, rfl, rfl, rfl, by rw [hd]; simp⟩
  · dsimp only
    split <;> exact ⟨rfl, rfl, rfl, rfl, rfl, by simp⟩

theorem tickFront_live {c : Cpu} (h : Live cfg c) : IfOk (Cpu.tickFront cfg c) (Fronted cfg c) := by
  unfold Cpu.tickFront Cpu.fetchAndStart
  refine ifOk_of fun c' hc' => ?_
  rw [bind_ok_iff] at hc'
  obtain ⟨c1, h1, hc'⟩ := hc'
  rw [bind_ok_iff] at h1
  obtain ⟨⟨es, r, fa⟩, h1, h2⟩ := h1
  have g := (fetchStartLoop_live (cfg := cfg) c.entries h.entries).get h1
  obtain ⟨g1, g2, g3, g4⟩ := g
  cases h2
  rw [bind_ok_iff] at hc'
  obtain ⟨c2, h2, hc'⟩ := hc'
  cases hc'
  have k := (decodeStage_live (cfg := cfg) (c := { c with entries := es, ram := r, freeAlus := fa })
    ⟨g2.gates.trans h.gates, g2.room h.room, h.wm, g1⟩).get h2
  obtain ⟨k1, k2, ⟨l, k3⟩, k4, k5, k6, k7⟩ := k
  obtain ⟨s1, s2, s3, s4, s5⟩ := shiftStage_eq c2
  obtain ⟨f1, f2, f3, f4, f5, f6⟩ := fetchStage_eq (Cpu.shiftStage c2)
  simp only at k2 k3 k4 k5 k6 k7 g2 g3 g4
  refine ⟨⟨?_, ?_, ?_, ?_⟩, ?_, ?_, ?_, ?_⟩
  · rw [f1, s1]; exact k1.gates
  · rw [f1, s1]; exact k1.room
  · rw [f2, s2]; exact k1.wm
  · rw [f3, s3]; exact k1.entries
  · rw [f4, s4, k4]
  · intro e he hst
    rw [f3, s3, k3]
    exact List.mem_append_left _ (g3 e he hst)
  · intro e es' he
    obtain ⟨e', r', fa', es'', a1, a2, a3⟩ := g4 e es' he
    refine ⟨e', r', fa', es'' ++ l, a1, ?_, ?_⟩
    · rw [f3, s3, k3, a2, List.cons_append]
    · rw [f1, s1, k2]; exact a3
  · intro he
    have hes : es = [] := by
      rw [he] at h1
      cases h1; rfl
    refine ⟨?_, ?_, f6⟩
    · intro hd hr
      rw [f3, s3]
      exact k7 hd hes hr
    · intro hd hf
      have := k6 hd
      rw [f5, s5 (by rw [this]; exact hd), k5]
      exact hf

/-! ## Progress -/

/-- How far the oldest instruction is from retiring. -/
inductive Stage (c : Cpu) : Nat → Prop
  | retiring {e : Entry} {es : List Entry} (he : c.entries = e :: es) (hst : e.st = .retiring) : Stage c 0
  | exec {e : Entry} {es : List Entry} (he : c.entries = e :: es) (hst : e.st = .executing) : Stage c e.rem
  | ready {e : Entry} {es : List Entry} (he : c.entries = e :: es) (hst : e.st = .ready)
      (ha : e.instr.needsAlu = true → 0 < c.freeAlus) : Stage c 4
  | wait {e : Entry} {es : List Entry} {x : Entry} (he : c.entries = e :: es) (hst : e.st = .ready) (hx : x ∈ c.entries)
      (hxs : x.st = .executing) (hxa : x.instr.needsAlu = true) : Stage c (5 + x.rem)
  | own {e : Entry} {es : List Entry} {a : Word} {x : ReadEntry} (he : c.entries = e :: es) (hst : e.st = .preparing)
      (ha : .memImm a ∈ e.ops) (hf : c.ram.reads.find? (·.addr == a) = some x) (hx : x.rem ≠ 0) : Stage c (8 + x.rem)
  | busy {e : Entry} {es : List Entry} {a : Word} {x : ReadEntry} (he : c.entries = e :: es) (hst : e.st = .preparing)
      (ha : .memImm a ∈ e.ops) (hx : x ∈ c.ram.reads) : Stage c (14 + x.rem)
  | prep {e : Entry} {es : List Entry} (he : c.entries = e :: es) (hst : e.st = .preparing) : Stage c 20
  | decode (he : c.entries = []) (hd : c.decode ≠ none) : Stage c 21
  | fetch (he : c.entries = []) (hd : c.fetch ≠ none) : Stage c 22
  | empty (he : c.entries = []) : Stage c 23

theorem stage_ready {c : Cpu} {S : State} (hi : Inv cfg c S) (hl : Live cfg c) (halu : 0 < cfg.alus) {e : Entry} {es : List Entry}
    (he : c.entries = e :: es) (hst : e.st = .ready) : ∃ j, j ≤ 8 ∧ Stage c j := by
  obtain ⟨own, n, m, b, hi⟩ := hi
  by_cases hf : 0 < c.freeAlus
  · exact ⟨4, by omega, .ready he hst fun _ => hf⟩
  · have ha := hi.alus
    have hpos : 0 < aluUsers c.entries := by omega
    unfold aluUsers at hpos
    rw [List.countP_pos_iff] at hpos
    obtain ⟨x, hx, hp⟩ := hpos
    simp only [decide_eq_true_eq] at hp
    have := (hl.entries x hx).rem
    exact ⟨5 + x.rem, by omega, .wait he hst hx hp.1 hp.2⟩

/-- Every state has a stage. -/
theorem stage_any {c : Cpu} {S : State} (hi : Inv cfg c S) (hl : Live cfg c) (halu : 0 < cfg.alus) :
    ∃ j, j ≤ 23 ∧ Stage c j ∧ (c.entries ≠ [] → j ≤ 20) := by
  cases he : c.entries with
  | nil => exact ⟨23, Nat.le_refl _, .empty he, fun h => absurd rfl h⟩
  | cons e es =>
    cases hst : e.st with
    | preparing => exact ⟨20, by omega, .prep he hst, fun _ => by omega⟩
    | ready =>
      obtain ⟨j, h1, h2⟩ := stage_ready hi hl halu he hst
      exact ⟨j, by omega, h2, fun _ => by omega⟩
    | executing =>
      have := (hl.entries e (by rw [he]; exact List.mem_cons_self ..)).rem
      exact ⟨e.rem, by omega, .exec he hst, fun _ => by omega⟩
    | retiring => exact ⟨0, by omega, .retiring he hst, fun _ => by omega⟩

/-- The instructions that cannot wait for their own write: an instruction reads at most one operand from memory, and none
if it writes to memory. -/
def Unblocked (i : Instr) : Prop := memCount (opsOf i) ≤ 1 ∧ (storeProd i ≠ none → memCount (opsOf i) = 0)

theorem head_regs {c : Cpu} {S : State} {own : Nat → Nat × Nat} {n m : Nat} {b : Rat} (h : Inv0 cfg c S [] own n m b)
    {e : Entry} {es : List Entry} (he : c.entries = e :: es) (hst : e.st ≠ .retiring) : RegsReady cfg c.regs e.rrat := by
  have hw := h.win
  rw [he] at hw
  have hE := hw.1
  intro r k hk
  by_cases hr : r = .int .pc
  · subst hr
    rw [key_pc] at hk; cases hk
    have hlt : cfg.pcK < e.wrat.length := by rw [hE.tab.lenw]; exact pcK_lt
    have hp : e.wrat[cfg.pcK]? = some e.wrat[cfg.pcK] := List.getElem?_eq_getElem hlt
    obtain ⟨x, h1, h2, h3⟩ := hE.pcCell _ hp
    refine ⟨_, x, ?_, h1, h2⟩
    unfold Rat.translate
    rw [key_pc]
    simp only [hE.tab.pc, hp]
  · obtain ⟨p, h1, _, _, x, h2, h3, h4⟩ := h.base.cells r k hk hr
    refine ⟨p, x, ?_, h2, h3⟩
    unfold Rat.translate
    rw [hk]
    simp only [hE.tab.read k (key_ne_pcK hk hr), h1]

theorem head_mem {c : Cpu} {S : State} {own : Nat → Nat × Nat} {n m : Nat} {b : Rat} (h : Inv0 cfg c S [] own n m b)
    (hl : Live cfg c) {e : Entry} {es : List Entry} (he : c.entries = e :: es) (hs : storeProd e.instr = none) :
    MemReady c.wm e.maxW := by
  have hw := h.win
  rw [he] at hw
  have hst := hw.1.store
  unfold StoreOK at hst
  rw [hs] at hst
  rw [hst.2]
  refine ⟨?_, ?_⟩
  · unfold Writes.hasUnspecified
    rw [List.any_eq_false]
    intro u hu
    have := (h.wm.unspec u hu).1
    simp only [decide_eq_true_eq]
    omega
  · intro a w hw
    unfold Writes.previousWrite at hw
    have h1 := List.mem_of_find?_eq_some hw
    have h2 := List.find?_some hw
    simp only [Bool.and_eq_true, decide_eq_true_eq] at h2
    exact hl.wm w h1 (h.wm.old w h1 h2.2)

/-- Polling the oldest entry while it is preparing. -/
theorem head_poll {c c' : Cpu} {S S' : State} {own : Nat → Nat × Nat} {n m : Nat} {b : Rat} (h : Inv0 cfg c S [] own n m b)
    (hl : Live cfg c) (hf : Fronted cfg c c') (hi' : Inv cfg c' S') (halu : 0 < cfg.alus)
    {e : Entry} {es : List Entry} (he : c.entries = e :: es) (hst : e.st = .preparing) (hu : Unblocked e.instr) :
    (∃ j, j ≤ 8 ∧ Stage c' j) ∨
    ∃ e' es' a r', c'.entries = e' :: es' ∧ e'.st = .preparing ∧ .memImm a ∈ e'.ops ∧ Polled c.ram r' a ∧ Grow r' c'.ram ∧
      ∀ a0, .memImm a0 ∈ e.ops → a0 = a := by
  obtain ⟨e', r', fa', es', h1, h2, h3⟩ := hf.head e es he
  unfold Cpu.fetchStartEntry at h1
  rw [hst] at h1
  simp only at h1
  rw [bind_ok_iff] at h1
  obtain ⟨y, h4, h5⟩ := h1
  have hE := h.win
  rw [he] at hE
  have hops := hE.1.ops
  unfold OpsOK at hops
  rw [if_neg (by rw [hst]; decide)] at hops
  have hcnt := (hl.entries e (by rw [he]; exact List.mem_cons_self ..)).mems (by rw [hst]; decide)
  have hp := (poll_operands (cfg := cfg) (head_regs h he (by rw [hst]; decide)) e.ops (wm := c.wm) (m := e.maxW) (r := c.ram) (exc := e.exc)
    (forall2_ok hops.1) (by have := hu.1; omega) (fun h1 => head_mem h hl he (by
      by_contra hne
      have := hu.2 hne
      omega))).get h4
  cases h5
  rcases hp with ⟨p1, p2⟩ | ⟨p1, a, p2, p3, p4⟩
  · left
    refine stage_ready hi' hf.live halu h2 ?_
    unfold Cpu.checkReady
    rw [if_pos p1]
  · right
    refine ⟨_, _, a, _, h2, ?_, ?_, p3, h3, p4⟩
    · unfold Cpu.checkReady
      rw [if_neg]
      intro hall
      rw [List.all_eq_true] at hall
      have := hall _ p2
      cases this
    · rw [(checkReady_eq _).2.1]; exact p2

theorem tick_find {r : Ram} {a : Word} {x : ReadEntry} (h : r.reads.find? (·.addr == a) = some x) (hx : x.rem ≠ 0) :
    r.tick.reads.find? (·.addr == a) = some { x with rem := x.rem - 1 } := by
  change (r.reads.filterMap _).find? _ = _
  generalize r.reads = l at h
  induction l with
  | nil => cases h
  | cons z l ih =>
    rw [List.find?_cons] at h
    split at h
    · next hz =>
      cases h
      rw [List.filterMap_cons, if_neg hx]
      simp only
      rw [List.find?_cons]
      simp only [hz]
    · next hz =>
      rw [List.filterMap_cons]
      split
      · exact ih h
      · next w hw =>
        split at hw
        · cases hw
        · cases hw
          rw [List.find?_cons]
          simp only [hz]
          exact ih h

theorem tick_full {r : Ram} (h : r.reads.length ≤ r.tick.reads.length) {x : ReadEntry} (hx : x ∈ r.reads) :
    x.rem ≠ 0 ∧ { x with rem := x.rem - 1 } ∈ r.tick.reads := by
  have key : ∀ l : List ReadEntry, l.length ≤ (l.filterMap fun x => if x.rem = 0 then none else some { x with rem := x.rem - 1 }).length →
      ∀ y ∈ l, y.rem ≠ 0 := by
    intro l
    induction l with
    | nil => intro _ y hy; cases hy
    | cons z l ih =>
      intro hle y hy
      rw [List.filterMap_cons] at hle
      have hlen := List.length_filterMap_le (fun x : ReadEntry => if x.rem = 0 then none else some { x with rem := x.rem - 1 }) l
      by_cases hz : z.rem = 0
      · simp only [hz, if_true, List.length_cons] at hle
        omega
      · simp only [hz, if_false, List.length_cons] at hle
        rcases List.mem_cons.1 hy with rfl | hy
        · exact hz
        · exact ih (by omega) y hy
  have hne := key r.reads h x hx
  refine ⟨hne, ?_⟩
  change _ ∈ r.reads.filterMap _
  rw [List.mem_filterMap]
  exact ⟨x, hx, by rw [if_neg hne]⟩

/-- What becomes of the oldest entry when it has to wait for memory. -/
theorem polled_stage {c' : Cpu} {S : State} (hi' : Inv cfg c' S) (hl : Live cfg c') (hgate : 0 < cfg.gates)
    {e : Entry} {es : List Entry} {a : Word} {r r' : Ram} (he : c'.entries = e :: es) (hst : e.st = .preparing) (ha : .memImm a ∈ e.ops)
    (hp : Polled r r' a) (hg : Grow r' c'.ram) :
    (∃ x : ReadEntry, r.reads.find? (·.addr == a) = some x ∧ x.rem ≠ 0 ∧ x.rem ≤ 5 ∧ Stage c' (8 + x.rem)) ∨
    (r.reads.find? (·.addr == a) = none ∧ r.isBusy = true ∧ c'.ram = r) ∨
    (r.reads.find? (·.addr == a) = none ∧ Stage c' 13) := by
  obtain ⟨_, _, _, _, hi'⟩ := hi'
  cases hp with
  | own h h1 h2 =>
    subst h2
    have := hg.find a _ h
    have hb := (hi'.ram.reads _ (List.mem_of_find?_eq_some this)).1
    exact Or.inl ⟨_, h, h1, hb, .own he hst ha this h1⟩
  | busy h h1 h2 =>
    subst h2
    exact Or.inr (Or.inl ⟨h, h1, hg.busy h1⟩)
  | @new v h h2 =>
    right; right
    refine ⟨h, .own (x := ⟨a, readLatency, v⟩) he hst ha (hg.find a _ ?_) (by change readLatency ≠ 0; decide)⟩
    rw [h2]
    simp only [List.find?_cons, beq_self_eq_true]

/-- A tick in which nothing retires brings the oldest instruction closer to retirement. -/
theorem tick_stage {c c' : Cpu} {S : State} (hi : Inv cfg c S) (hl : Live cfg c) (hh : S.halted = false) (hs : c.stepped = false)
    (hu : ∀ i ∈ c.prog, Unblocked i) (halu : 0 < cfg.alus) (hgate : 0 < cfg.gates) (hrs : 0 < cfg.rsMax)
    (ht : Cpu.tick cfg c = .ok c') :
    Live cfg c' ∧ c.retired ≤ c'.retired ∧ (c'.retired = c.retired → ∀ j, Stage c j → ∃ j', j' < j ∧ Stage c' j') := by
  have hI' : ∃ S', Inv cfg c' S' := by
    have := tick_sat hi hh hs
    rw [ht] at this
    obtain ⟨_, _, S', k, h, _⟩ := this
    exact ⟨S', h⟩
  obtain ⟨S', hI'⟩ := hI'
  obtain ⟨own, n, m, b, hi⟩ := hi
  unfold Cpu.tick at ht
  rw [bind_ok_iff] at ht
  obtain ⟨c2, h2, ht⟩ := ht
  obtain ⟨c1, hi1, mt, hl2, hr2, heq⟩ := (tickRetire_live hi hl).get h2
  have stopped : c2.halted = true ∨ (Cpu.stepInterrupt c2).intr ≠ 0 → c2.retired ≠ c.retired := by
    intro h he
    obtain ⟨rfl, _⟩ := heq he
    rcases h with h | h
    · rw [mt.halted, hi.halted, hh] at h; cases h
    · apply h
      unfold Cpu.stepInterrupt
      rw [mt.stepped, hs]
      exact mt.intr
  have hret : (Cpu.stepInterrupt c2).retired = c2.retired := by unfold Cpu.stepInterrupt; split <;> rfl
  have hlive : Live cfg (Cpu.stepInterrupt c2) := by
    unfold Cpu.stepInterrupt
    split
    · exact ⟨hl2.gates, hl2.room, hl2.wm, hl2.entries⟩
    · exact hl2
  split at ht
  · next hc =>
    cases ht
    exact ⟨hl2, hr2, fun h => absurd h (stopped (Or.inl hc))⟩
  · dsimp only at ht
    split at ht
    · next hc =>
      cases ht
      exact ⟨hlive, by rw [hret]; exact hr2, fun h => absurd (hret ▸ h) (stopped (Or.inr hc))⟩
    · have hF := (tickFront_live hlive).get ht
      refine ⟨hF.live, by rw [hF.retired, hret]; exact hr2, ?_⟩
      intro he j hj
      rw [hF.retired, hret] at he
      obtain ⟨h21, hnr⟩ := heq he
      subst h21
      have hc1 : Cpu.stepInterrupt c2 = c2 := by
        unfold Cpu.stepInterrupt
        rw [mt.stepped, hs]; rfl
      rw [hc1] at hF
      clear heq stopped hret hlive ht hc1
      have hents := mt.ents
      have headcase : ∀ e es, c.entries = e :: es → ∃ e1 es1, c2.entries = e1 :: es1 ∧ ExecOne e e1 := by
        intro e es he
        rw [he] at hents
        generalize c2.entries = l at hents
        cases hents with
        | cons h t => exact ⟨_, _, rfl, h⟩
      have hub : ∀ e es, c2.entries = e :: es → Unblocked e.instr := by
        intro e es he
        have hw := hi1.win
        rw [he] at hw
        rw [hw.1.instr]
        unfold fetchAt
        rw [List.getD_eq_getElem?_getD]
        cases hg : c2.prog[S.pc.toNat]? with
        | none => exact ⟨Nat.zero_le _, fun _ => rfl⟩
        | some i =>
          refine hu i ?_
          rw [← mt.prog]
          exact List.mem_of_getElem? hg
      -- the oldest entry is preparing
      have prep : ∀ e es, c.entries = e :: es → e.st = .preparing →
          (∃ j', j' ≤ 8 ∧ Stage c' j') ∨
          ∃ e' es' a r', c'.entries = e' :: es' ∧ e'.st = .preparing ∧ .memImm a ∈ e'.ops ∧ Polled c.ram.tick r' a ∧ Grow r' c'.ram ∧
            ∀ a0, .memImm a0 ∈ e.ops → a0 = a := by
        intro e es hce hst
        obtain ⟨e1, es1, he1, hx⟩ := headcase e es hce
        cases hx with
        | done h => rw [hst] at h; cases h
        | more h => rw [hst] at h; cases h
        | same _ =>
          rw [← mt.ram]
          exact head_poll hi1 mt.live hF hI' halu he1 hst (hub _ _ he1)
      cases hj with
      | retiring hce hst =>
        exfalso
        obtain ⟨e1, es1, he1, hx⟩ := headcase _ _ hce
        cases hx with
        | done h => rw [hst] at h; cases h
        | more h => rw [hst] at h; cases h
        | same _ => exact hnr _ (by rw [he1]; rfl) hst
      | exec hce hst =>
        obtain ⟨e1, es1, he1, hx⟩ := headcase _ _ hce
        cases hx with
        | done h h1 h2 h3 => exact absurd h2 (hnr _ (by rw [he1]; rfl))
        | more h h1 =>
          obtain ⟨e', r', fa', es', g1, g2, g3⟩ := hF.head _ _ he1
          unfold Cpu.fetchStartEntry at g1
          simp only [hst] at g1
          cases g1
          exact ⟨_, by simp only; omega, .exec g2 rfl⟩
        | same h => exact absurd hst h
      | ready hce hst ha =>
        obtain ⟨e1, es1, he1, hx⟩ := headcase _ _ hce
        cases hx with
        | done h => rw [hst] at h; cases h
        | more h => rw [hst] at h; cases h
        | same _ =>
          obtain ⟨e', r', fa', es', g1, g2, g3⟩ := hF.head _ _ he1
          unfold Cpu.fetchStartEntry at g1
          simp only [hst] at g1
          have hrem := (hF.live.entries e' (by rw [g2]; exact List.mem_cons_self ..)).rem
          have : e'.st = .executing := by
            split at g1
            · next hn =>
              have := ha hn
              have := mt.fa
              rw [if_neg (by omega)] at g1
              cases g1; rfl
            · cases g1; rfl
          exact ⟨_, by omega, .exec g2 this⟩
      | @wait e es x hce hst hx hxs hxa =>
        obtain ⟨e1, es1, he1, hxo⟩ := headcase _ _ hce
        cases hxo with
        | done h => rw [hst] at h; cases h
        | more h => rw [hst] at h; cases h
        | same _ =>
          obtain ⟨e', r', fa', es', g1, g2, g3⟩ := hF.head _ _ he1
          unfold Cpu.fetchStartEntry at g1
          simp only [hst] at g1
          have hrem := (hF.live.entries e' (by rw [g2]; exact List.mem_cons_self ..)).rem
          by_cases hex : e'.st = .executing
          · exact ⟨_, by omega, .exec g2 hex⟩
          · have hfa : c2.freeAlus = 0 ∧ e' = e := by
              split at g1
              · split at g1
                · next h0 => cases g1; exact ⟨h0, rfl⟩
                · cases g1; exact absurd rfl hex
              · cases g1; exact absurd rfl hex
            obtain ⟨y, hy, hxy⟩ := forall2_mem' mt.ents x hx
            cases hxy with
            | done h h1 h2 h3 =>
              have := mt.free x hx hxs hxa h1
              omega
            | more h h1 =>
              refine ⟨5 + (x.rem - 1), by omega, .wait g2 (by rw [hfa.2]; exact hst) (hF.exec _ hy h) h hxa⟩
            | same h => exact absurd hxs h
      | @own e es a x hce hst ha hf hx =>
        rcases prep _ _ hce hst with ⟨j', h1, h2⟩ | ⟨e', es', a', r', q1, q2, q3, q4, q5, q6⟩
        · exact ⟨j', by omega, h2⟩
        · obtain rfl := q6 a ha
          have htf := tick_find hf hx
          rcases polled_stage hI' hF.live hgate q1 q2 q3 q4 q5 with ⟨y, y1, y2, y3, y4⟩ | ⟨y1, _⟩ | hstage
          · rw [htf] at y1
            cases y1
            exact ⟨_, by simp only; omega, y4⟩
          · rw [htf] at y1; cases y1
          · rw [htf] at hstage; cases hstage.1
      | @busy e es a x hce hst ha hx =>
        rcases prep _ _ hce hst with ⟨j', h1, h2⟩ | ⟨e', es', a', r', q1, q2, q3, q4, q5, q6⟩
        · exact ⟨j', by omega, h2⟩
        · rcases polled_stage hI' hF.live hgate q1 q2 q3 q4 q5 with ⟨y, y1, y2, y3, y4⟩ | ⟨y1, y2, y3⟩ | ⟨_, hstage⟩
          · exact ⟨_, by omega, y4⟩
          · have hlen : c.ram.reads.length ≤ c.ram.tick.reads.length := by
              simp only [Ram.isBusy, beq_iff_eq] at y2
              rw [y2]
              exact hl.room
            obtain ⟨x1, x2⟩ := tick_full hlen hx
            rw [← y3] at x2
            exact ⟨_, by simp only; omega, .busy q1 q2 q3 x2⟩
          · exact ⟨13, by omega, hstage⟩
      | @prep e es hce hst =>
        rcases prep _ _ hce hst with ⟨j', h1, h2⟩ | ⟨e', es', a', r', q1, q2, q3, q4, q5, q6⟩
        · exact ⟨j', by omega, h2⟩
        · rcases polled_stage hI' hF.live hgate q1 q2 q3 q4 q5 with ⟨y, y1, y2, y3, y4⟩ | ⟨y1, y2, y3⟩ | ⟨_, hstage⟩
          · exact ⟨_, by omega, y4⟩
          · simp only [Ram.isBusy, beq_iff_eq] at y2
            rw [← y3, hF.live.gates] at y2
            obtain ⟨x, hx⟩ := List.exists_mem_of_length_pos (l := c'.ram.reads) (by omega)
            obtain ⟨_, _, _, _, hI'⟩ := hI'
            have := (hI'.ram.reads x hx).1
            have hlat : readLatency = 5 := rfl
            exact ⟨_, by omega, .busy q1 q2 q3 hx⟩
          · exact ⟨13, by omega, hstage⟩
      | decode hce hd =>
        have h0 : c2.entries = [] := by
          rw [hce] at hents
          generalize c2.entries = l at hents
          cases hents; rfl
        have hne := (hF.fill h0).1 (by rw [mt.decode]; exact hd) hrs
        obtain ⟨j', _, h2, h1⟩ := stage_any hI' hF.live halu
        exact ⟨j', by have := h1 hne; omega, h2⟩
      | fetch hce hd =>
        have h0 : c2.entries = [] := by
          rw [hce] at hents
          generalize c2.entries = l at hents
          cases hents; rfl
        by_cases hne : c'.entries = []
        · have hd' : c2.decode = none := by
            by_contra hd'
            exact (hF.fill h0).1 hd' hrs hne
          exact ⟨21, by omega, .decode hne ((hF.fill h0).2.1 hd' (by rw [mt.fetch]; exact hd))⟩
        · obtain ⟨j', _, h2, h1⟩ := stage_any hI' hF.live halu
          exact ⟨j', by have := h1 hne; omega, h2⟩
      | empty hce =>
        have h0 : c2.entries = [] := by
          rw [hce] at hents
          generalize c2.entries = l at hents
          cases hents; rfl
        by_cases hne : c'.entries = []
        · exact ⟨22, by omega, .fetch hne (hF.fill h0).2.2⟩
        · obtain ⟨j', _, h2, h1⟩ := stage_any hI' hF.live halu
          exact ⟨j', by have := h1 hne; omega, h2⟩

/-- In at most `j + 1` ticks an instruction retires. -/
theorem ticks_stage (halu : 0 < cfg.alus) (hgate : 0 < cfg.gates) (hrs : 0 < cfg.rsMax) : ∀ (j : Nat) {c : Cpu} {S : State}, Inv cfg c S → Live cfg c →
    S.halted = false → c.stepped = false → (∀ i ∈ c.prog, Unblocked i) → Stage c j →
    ∃ t, t ≤ j + 1 ∧ ((∃ f, Cpu.run cfg t c = .error f) ∨ ∃ c', Cpu.run cfg t c = .ok c' ∧ c.retired < c'.retired)
  | j, c, S, hi, hl, hh, hs, hu, hj => by
    have hrun : ∀ t, Cpu.run cfg (t + 1) c = (Cpu.tick cfg c >>= Cpu.run cfg t) := by
      intro t
      conv_lhs => unfold Cpu.run
      rw [hi.halted, hh, if_neg (by simp)]
    cases ht : Cpu.tick cfg c with
    | error f => exact ⟨1, by omega, Or.inl ⟨f, by rw [hrun, ht]; rfl⟩⟩
    | ok c1 =>
      obtain ⟨h1, h2, h3⟩ := tick_stage hi hl hh hs hu halu hgate hrs ht
      by_cases hr : c1.retired = c.retired
      · obtain ⟨j', hlt, hj'⟩ := h3 hr j hj
        have tk := tick_sat hi hh hs
        rw [ht] at tk
        obtain ⟨p1, p2, S', k, i', rk, te⟩ := tk
        have hk : k = 0 := by omega
        subst hk
        have hS : S'.halted = false ∧ c1.stepped = false := by
          cases te with
          | go g1 g2 g3 g4 g5 g6 => exact ⟨g2, g6⟩
          | halt g1 g2 => exact absurd rfl (passes_halted g1 hh g2)
        obtain ⟨t, a1, a2⟩ := ticks_stage halu hgate hrs j' i' h1 hS.1 hS.2 (by rw [p1]; exact hu) hj'
        refine ⟨t + 1, by omega, ?_⟩
        rw [hrun, ht, ok_bind]
        rw [hr] at a2
        exact a2
      · refine ⟨1, by omega, Or.inr ⟨c1, by rw [hrun, ht]; rfl, by omega⟩⟩
  termination_by j => j

end
end T86
