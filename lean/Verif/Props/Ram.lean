import Verif.Model.Ram

/-! # Memory latency and gates (C15) -/

set_option linter.unusedSimpArgs false
set_option linter.unusedVariables false

namespace T86

/-- What can be done with the memory. -/
inductive RamOp
  | read (a : Word)
  | write (a v : Word)
  | set (a v : Word)
  | tick
  deriving DecidableEq

/-- One operation; operations that throw change nothing. -/
def RamOp.run (r : Ram) : RamOp → Ram
  | .read a => match r.read a with
    | .ok x => x.2
    | .error _ => r
  | .write a v => match r.write a v with
    | .ok x => x.2
    | .error _ => r
  | .set a v => match r.set a v with
    | .ok x => x
    | .error _ => r
  | .tick => r.tick

/-- A sequence of operations. -/
def RamOp.runs (r : Ram) (ops : List RamOp) : Ram := ops.foldl RamOp.run r

/-- The number of ticks in a sequence. -/
def RamOp.ticks (ops : List RamOp) : Nat := ops.countP (· = .tick)

theorem runs_cons (r : Ram) (op : RamOp) (ops : List RamOp) : RamOp.runs r (op :: ops) = RamOp.runs (op.run r) ops := rfl

theorem ticks_cons (op : RamOp) (ops : List RamOp) : RamOp.ticks (op :: ops) = RamOp.ticks ops + if op = .tick then 1 else 0 := by
  unfold RamOp.ticks
  rw [List.countP_cons]
  by_cases h : op = .tick <;> simp [h]

theorem read_run (r : Ram) (a : Word) : RamOp.run r (.read a) = r ∨
    ∃ v, RamOp.run r (.read a) = { r with reads := ⟨a, readLatency, v⟩ :: r.reads } ∧
      r.reads.find? (·.addr == a) = none ∧ r.reads.length ≠ r.gates := by
  change (match r.read a with | .ok x => x.2 | .error _ => r) = r ∨
    ∃ v, (match r.read a with | .ok x => x.2 | .error _ => r) = _ ∧ _
  cases h : r.read a with
  | error f => exact Or.inl rfl
  | ok x =>
    dsimp only
    unfold Ram.read at h
    cases hf : r.reads.find? (·.addr == a) with
    | some e => rw [hf] at h; cases h; exact Or.inl rfl
    | none =>
      rw [hf] at h
      dsimp only at h
      split at h
      · cases h; exact Or.inl rfl
      · rename_i hb
        split at h
        · cases h
        · split at h
          · cases h
          · rename_i v hv
            cases h
            refine Or.inr ⟨v, rfl, rfl, ?_⟩
            intro hc
            apply hb
            unfold Ram.isBusy
            rw [hc]
            exact beq_self_eq_true _

theorem write_run (r : Ram) (a v : Word) : RamOp.run r (.write a v) = r ∨
    RamOp.run r (.write a v) = { r with
        mem := r.mem.set a.toNat v
        writes := ⟨a, r.nextId, writeLatency⟩ :: r.writes.filter (·.addr != a)
        nextId := r.nextId + 1 } := by
  change (match r.write a v with | .ok x => x.2 | .error _ => r) = r ∨ (match r.write a v with | .ok x => x.2 | .error _ => r) = _
  unfold Ram.write
  by_cases h : a.toNat < r.mem.length
  · rw [if_pos h]; exact Or.inr rfl
  · rw [if_neg h]; exact Or.inl rfl

theorem set_run (r : Ram) (a v : Word) : RamOp.run r (.set a v) = r ∨
    RamOp.run r (.set a v) = { r with mem := r.mem.set a.toNat v } := by
  change (match r.set a v with | .ok x => x | .error _ => r) = r ∨ (match r.set a v with | .ok x => x | .error _ => r) = _
  unfold Ram.set
  by_cases h : a.toNat < r.mem.length
  · rw [if_pos h]; exact Or.inr rfl
  · rw [if_neg h]; exact Or.inl rfl

/-- What an operation does to the reads in flight. -/
theorem run_reads (r : Ram) (op : RamOp) :
    (op.run r).gates = r.gates ∧
    (op = .tick ∧ (op.run r).reads = r.reads.filterMap (fun x => if x.rem = 0 then none else some { x with rem := x.rem - 1 }) ∨
     op ≠ .tick ∧ ((op.run r).reads = r.reads ∨
      ∃ a v, (op.run r).reads = ⟨a, readLatency, v⟩ :: r.reads ∧ r.reads.find? (·.addr == a) = none ∧ r.reads.length ≠ r.gates)) := by
  cases op with
  | tick => exact ⟨rfl, Or.inl ⟨rfl, rfl⟩⟩
  | read a =>
    rcases read_run r a with h | ⟨v, h, h1, h2⟩
    · rw [h]; exact ⟨rfl, Or.inr ⟨by simp, Or.inl rfl⟩⟩
    · rw [h]; exact ⟨rfl, Or.inr ⟨by simp, Or.inr ⟨a, v, rfl, h1, h2⟩⟩⟩
  | write a v =>
    rcases write_run r a v with h | h <;> rw [h] <;> exact ⟨rfl, Or.inr ⟨by simp, Or.inl rfl⟩⟩
  | set a v =>
    rcases set_run r a v with h | h <;> rw [h] <;> exact ⟨rfl, Or.inr ⟨by simp, Or.inl rfl⟩⟩

theorem find_tick (l : List ReadEntry) (a : Word) (k : Nat) (v : Word) (h : l.find? (·.addr == a) = some ⟨a, k + 1, v⟩) :
    (l.filterMap (fun x => if x.rem = 0 then none else some { x with rem := x.rem - 1 })).find? (·.addr == a) = some ⟨a, k, v⟩ := by
  induction l with
  | nil => cases h
  | cons x l ih =>
    rw [List.find?_cons] at h
    rw [List.filterMap_cons]
    split at h
    · rename_i hx
      cases h
      simp
    · rename_i hx
      split
      · exact ih h
      · rename_i y hy
        split at hy
        · cases hy
        · cases hy
          rw [List.find?_cons]
          have hx' : (x.addr == a) = false := by simpa using hx
          rw [show (({ x with rem := x.rem - 1 } : ReadEntry).addr == a) = false from hx']
          exact ih h

/-- C15, reads. Once a read is accepted, it becomes available after exactly `readLatency` ticks, whatever else is read and
written meanwhile, and returns the content the cell had when the read was accepted: asking again before gives no value, at
that time it gives this value. -/
theorem C15_read_latency (r r1 : Ram) (a : Word) (h : r.read a = .ok (none, r1)) (hacc : r1 ≠ r) (ops : List RamOp) :
    ∃ v, r.get a = .ok v ∧
    (RamOp.ticks ops < readLatency → (RamOp.runs r1 ops).read a = .ok (none, RamOp.runs r1 ops)) ∧
    (RamOp.ticks ops = readLatency → (RamOp.runs r1 ops).read a = .ok (some v, RamOp.runs r1 ops)) := by
  have key : ∀ (ops : List RamOp) (r : Ram) (k : Nat) (v : Word), r.reads.find? (·.addr == a) = some ⟨a, k, v⟩ →
      RamOp.ticks ops ≤ k → (RamOp.runs r ops).reads.find? (·.addr == a) = some ⟨a, k - RamOp.ticks ops, v⟩ := by
    intro ops
    induction ops with
    | nil => intro r k v h1 _; exact h1
    | cons op ops ih =>
      intro r k v h1 h2
      rw [ticks_cons] at h2 ⊢
      rw [runs_cons]
      obtain ⟨_, ⟨h3, h4⟩ | ⟨h3, h4⟩⟩ := run_reads r op
      · rw [if_pos h3] at h2 ⊢
        obtain ⟨k', rfl⟩ : ∃ k', k = k' + 1 := ⟨k - 1, by omega⟩
        rw [ih (op.run r) k' v (by rw [h4]; exact find_tick _ _ _ _ h1) (by omega)]
        congr 2
        omega
      · rw [if_neg h3] at h2 ⊢
        apply ih _ _ _ _ h2
        rcases h4 with h4 | ⟨b, w, h4, h5, h6⟩
        · rw [h4]; exact h1
        · rw [h4, List.find?_cons]
          by_cases hb : b = a
          · subst hb; rw [h5] at h1; cases h1
          · rw [show (b == a) = false by simpa using hb]
            exact h1
  have hacc' : r.reads.find? (·.addr == a) = none ∧ ∃ v, r.mem[a.toNat]? = some v ∧ r1 = { r with reads := ⟨a, readLatency, v⟩ :: r.reads } := by
    unfold Ram.read at h
    cases hf : r.reads.find? (·.addr == a) with
    | some e =>
      rw [hf] at h
      injection h with h
      exact absurd (congrArg Prod.snd h).symm hacc
    | none =>
      rw [hf] at h
      dsimp only at h
      split at h
      · cases h; exact absurd rfl hacc
      · split at h
        · cases h
        · split at h
          · cases h
          · rename_i v hv
            cases h
            exact ⟨rfl, v, hv, rfl⟩
  obtain ⟨_, v, hv, rfl⟩ := hacc'
  refine ⟨v, by unfold Ram.get; rw [hv], ?_, ?_⟩
  · intro hl
    have := key ops { r with reads := ⟨a, readLatency, v⟩ :: r.reads } readLatency v (by simp) (by omega)
    unfold Ram.read
    rw [this]
    dsimp only
    rw [if_neg (by omega)]
  · intro hl
    have := key ops { r with reads := ⟨a, readLatency, v⟩ :: r.reads } readLatency v (by simp) (by omega)
    unfold Ram.read
    rw [this]
    dsimp only
    rw [if_pos (by omega)]

/-- C15, gates: the number of reads in flight never exceeds the number of gates. -/
theorem C15_gates (size gates : Nat) (ops : List RamOp) : (RamOp.runs (Ram.init size gates) ops).reads.length ≤ gates := by
  have key : ∀ (ops : List RamOp) (r : Ram), r.reads.length ≤ r.gates →
      (RamOp.runs r ops).reads.length ≤ r.gates := by
    intro ops
    induction ops with
    | nil => intro r h; exact h
    | cons op ops ih =>
      intro r h
      rw [runs_cons]
      obtain ⟨hg, h1⟩ := run_reads r op
      have : (op.run r).reads.length ≤ (op.run r).gates := by
        rw [hg]
        rcases h1 with ⟨_, h1⟩ | ⟨_, h1 | ⟨b, w, h1, _, h2⟩⟩
        · rw [h1]; exact Nat.le_trans (List.length_filterMap_le _ _) h
        · rw [h1]; exact h
        · rw [h1, List.length_cons]; omega
      rw [← hg]
      exact ih _ this
  exact key ops (Ram.init size gates) (Nat.zero_le _)

/-- C15, a read of a free cell is accepted exactly if there is a free gate. -/
theorem C15_accepted (r : Ram) (a : Word) (hlen : r.reads.length ≤ r.gates) (hn : ∀ x ∈ r.reads, x.addr ≠ a)
    (hw : ∀ x ∈ r.writes, x.addr ≠ a) (ha : a.toNat < r.mem.length) :
    ∃ r1, r.read a = .ok (none, r1) ∧ (r1 ≠ r ↔ r.reads.length < r.gates) := by
  have hf : r.reads.find? (·.addr == a) = none := by
    rw [List.find?_eq_none]
    intro x hx
    simpa using hn x hx
  unfold Ram.read
  rw [hf]
  dsimp only
  by_cases hb : r.isBusy = true
  · rw [if_pos hb]
    refine ⟨r, rfl, ?_⟩
    unfold Ram.isBusy at hb
    rw [beq_iff_eq] at hb
    constructor
    · intro h; exact absurd rfl h
    · intro h; omega
  · rw [if_neg hb]
    have hany : ¬ r.writes.any (·.addr == a) = true := by
      rw [List.any_eq_true]
      rintro ⟨x, h1, h2⟩
      exact hw x h1 (by simpa using h2)
    rw [if_neg hany, List.getElem?_eq_getElem ha]
    refine ⟨_, rfl, ?_⟩
    unfold Ram.isBusy at hb
    rw [beq_iff_eq] at hb
    constructor
    · intro _; omega
    · intro _ hc
      have := congrArg (fun r : Ram => r.reads.length) hc
      simp at this

/-- What an operation does to the pending write with a given id. -/
theorem run_writes (r : Ram) (op : RamOp) (a : Word) (id : Nat) (hid : id < r.nextId) (hop : ∀ v, op ≠ .write a v) :
    id < (op.run r).nextId ∧
    (∀ k, op ≠ .tick → (⟨a, id, k⟩ ∈ (op.run r).writes ↔ ⟨a, id, k⟩ ∈ r.writes)) ∧
    (∀ k, op = .tick → (⟨a, id, k⟩ ∈ (op.run r).writes ↔ ⟨a, id, k + 1⟩ ∈ r.writes)) := by
  cases op with
  | tick =>
    refine ⟨hid, fun _ h => absurd rfl h, fun k _ => ?_⟩
    change _ ∈ (r.writes.filterMap _) ↔ _
    rw [List.mem_filterMap]
    constructor
    · rintro ⟨⟨b, i, j⟩, h1, h2⟩
      split at h2
      · cases h2
      · rename_i hj
        cases h2
        simp only at hj
        rwa [show j - 1 + 1 = j by omega]
    · intro h
      exact ⟨_, h, by simp⟩
  | read b =>
    refine ⟨?_, fun _ _ => ?_, fun _ h => by cases h⟩
    · rcases read_run r b with h | ⟨v, h, _⟩ <;> rw [h] <;> exact hid
    · rcases read_run r b with h | ⟨v, h, _⟩ <;> rw [h]
  | write b v =>
    have hba : b ≠ a := fun h => hop v (by rw [h])
    refine ⟨?_, fun k _ => ?_, fun _ h => by cases h⟩
    · rcases write_run r b v with h | h <;> rw [h]
      · exact hid
      · exact Nat.lt_succ_of_lt hid
    · rcases write_run r b v with h | h <;> rw [h]
      rw [List.mem_cons, List.mem_filter]
      constructor
      · rintro (h | h)
        · exact absurd (congrArg WriteEntry.addr h).symm hba
        · exact h.1
      · intro h
        exact Or.inr ⟨h, by simpa using Ne.symm hba⟩
  | set b v =>
    refine ⟨?_, fun _ _ => ?_, fun _ h => by cases h⟩
    · rcases set_run r b v with h | h <;> rw [h] <;> exact hid
    · rcases set_run r b v with h | h <;> rw [h]

/-- Ids of pending writes are used once. -/
def RamIds (r : Ram) : Prop := (r.writes.map (·.id)).Nodup ∧ ∀ w ∈ r.writes, w.id < r.nextId

theorem nodup_inj : ∀ {l : List WriteEntry}, (l.map (·.id)).Nodup → ∀ {x y : WriteEntry}, x ∈ l → y ∈ l → x.id = y.id → x = y
  | [], _, _, _, hx, _, _ => by cases hx
  | z :: l, h, x, y, hx, hy, he => by
    rw [List.map_cons, List.nodup_cons] at h
    rw [List.mem_cons] at hx hy
    rcases hx with rfl | hx <;> rcases hy with rfl | hy
    · rfl
    · exact absurd (List.mem_map.2 ⟨y, hy, he.symm⟩) h.1
    · exact absurd (List.mem_map.2 ⟨x, hx, he⟩) h.1
    · exact nodup_inj h.2 hx hy he

theorem ids_run (r : Ram) (op : RamOp) (h : RamIds r) : RamIds (op.run r) := by
  obtain ⟨h1, h2⟩ := h
  cases op with
  | tick =>
    constructor
    · change ((r.writes.filterMap _).map _).Nodup
      have : ∀ l : List WriteEntry, (l.map (·.id)).Nodup →
          ((l.filterMap fun w => if w.rem = 0 then none else some { w with rem := w.rem - 1 }).map (·.id)).Nodup := by
        intro l
        induction l with
        | nil => intro _; exact List.nodup_nil
        | cons w l ih =>
          intro hl
          rw [List.map_cons, List.nodup_cons] at hl
          rw [List.filterMap_cons]
          split
          · exact ih hl.2
          · rename_i w' hw'
            rw [List.map_cons, List.nodup_cons]
            refine ⟨?_, ih hl.2⟩
            have hid : w'.id = w.id := by split at hw' <;> cases hw'; rfl
            rw [hid]
            intro hc
            apply hl.1
            obtain ⟨x, hx, hxi⟩ := List.mem_map.1 hc
            obtain ⟨y, hy, hyx⟩ := List.mem_filterMap.1 hx
            split at hyx <;> cases hyx
            exact List.mem_map.2 ⟨y, hy, hxi⟩
      exact this _ h1
    · intro w hw
      obtain ⟨y, hy, hyx⟩ := List.mem_filterMap.1 hw
      split at hyx <;> cases hyx
      exact h2 y hy
  | read b => rcases read_run r b with h | ⟨v, h, _⟩ <;> rw [h] <;> exact ⟨h1, h2⟩
  | write b v =>
    rcases write_run r b v with h | h <;> rw [h]
    · exact ⟨h1, h2⟩
    · constructor
      · rw [List.map_cons, List.nodup_cons]
        constructor
        · intro hc
          obtain ⟨x, hx, hxi⟩ := List.mem_map.1 hc
          have := h2 x (List.mem_filter.1 hx).1
          simp only at hxi
          omega
        · exact h1.sublist (List.filter_sublist.map _)
      · intro w hw
        rw [List.mem_cons] at hw
        rcases hw with rfl | hw
        · exact Nat.lt_succ_self _
        · exact Nat.lt_succ_of_lt (h2 w (List.mem_filter.1 hw).1)
  | set b v => rcases set_run r b v with h | h <;> rw [h] <;> exact ⟨h1, h2⟩

/-- C15, writes. In any state that operations can lead to: a write to an existing cell is visible to direct inspection
immediately, and is reported as pending for `writeLatency` further ticks (so until the tick after them), unless the same
cell is written again, whatever else is done. -/
theorem C15_write (size gates : Nat) (before : List RamOp) (r r1 : Ram) (hr : r = RamOp.runs (Ram.init size gates) before)
    (a v : Word) (id : Nat) (h : r.write a v = .ok (id, r1)) :
    r1.get a = .ok v ∧ (∀ b, b ≠ a → r1.get b = r.get b) ∧
    ∀ ops, (∀ w, .write a w ∉ ops) → ((RamOp.runs r1 ops).pending id = true ↔ RamOp.ticks ops ≤ writeLatency) := by
  have hids : RamIds r := by
    rw [hr]
    have : ∀ (ops : List RamOp) (r : Ram), RamIds r → RamIds (RamOp.runs r ops) := by
      intro ops
      induction ops with
      | nil => intro r h; exact h
      | cons op ops ih => intro r h; exact ih _ (ids_run r op h)
    exact this _ _ ⟨List.nodup_nil, fun _ h => by cases h⟩
  unfold Ram.write at h
  split at h <;> cases h
  rename_i ha
  refine ⟨?_, ?_, ?_⟩
  · unfold Ram.get
    dsimp only
    rw [List.getElem?_set_self ha]
  · intro b hb
    unfold Ram.get
    dsimp only
    rw [List.getElem?_set_ne (fun h => hb (BitVec.eq_of_toNat_eq h.symm))]
  · have key : ∀ (ops : List RamOp) (q : Ram) (k : Nat), (∀ w, .write a w ∉ ops) → r.nextId < q.nextId → RamIds q →
        (∀ w ∈ q.writes, w.id = r.nextId → w = ⟨a, r.nextId, k⟩) →
        (⟨a, r.nextId, k⟩ ∈ q.writes) → ((RamOp.runs q ops).pending r.nextId = true ↔ RamOp.ticks ops ≤ k) := by
      have gone : ∀ (ops : List RamOp) (q : Ram), r.nextId < q.nextId → (∀ w ∈ q.writes, w.id ≠ r.nextId) →
          ¬ (RamOp.runs q ops).pending r.nextId = true := by
        intro ops
        induction ops with
        | nil =>
          intro q _ h hc
          unfold RamOp.runs Ram.pending at hc
          rw [List.foldl_nil, List.any_eq_true] at hc
          obtain ⟨w, h1, h2⟩ := hc
          exact h w h1 (by simpa using h2)
        | cons op ops ih =>
          intro q hq h
          rw [runs_cons]
          have hsub : r.nextId < (op.run q).nextId ∧ ∀ w ∈ (op.run q).writes, w.id ≠ r.nextId := by
            cases op with
            | tick =>
              refine ⟨hq, fun w hw => ?_⟩
              obtain ⟨y, hy, hyx⟩ := List.mem_filterMap.1 hw
              split at hyx <;> cases hyx
              exact h y hy
            | read b => rcases read_run q b with h' | ⟨v, h', _⟩ <;> rw [h'] <;> exact ⟨hq, h⟩
            | write b w =>
              rcases write_run q b w with h' | h' <;> rw [h']
              · exact ⟨hq, h⟩
              · refine ⟨Nat.lt_succ_of_lt hq, fun x hx => ?_⟩
                rw [List.mem_cons] at hx
                rcases hx with rfl | hx
                · exact Nat.ne_of_gt hq
                · exact h x (List.mem_filter.1 hx).1
            | set b w => rcases set_run q b w with h' | h' <;> rw [h'] <;> exact ⟨hq, h⟩
          exact ih _ hsub.1 hsub.2
      intro ops
      induction ops with
      | nil =>
        intro q k _ _ _ _ h
        constructor
        · intro _; exact Nat.zero_le _
        · intro _
          unfold RamOp.runs Ram.pending
          rw [List.foldl_nil, List.any_eq_true]
          exact ⟨_, h, by simp⟩
      | cons op ops ih =>
        intro q k hno hq hids huniq hmem
        rw [runs_cons, ticks_cons]
        have hop : ∀ w, op ≠ .write a w := fun w h => hno w (by rw [h]; exact List.mem_cons_self ..)
        have hno' : ∀ w, .write a w ∉ ops := fun w h => hno w (List.mem_cons_of_mem _ h)
        obtain ⟨g1, g2, g3⟩ := run_writes q op a r.nextId hq hop
        have hids' := ids_run q op hids
        -- the only pending write with this id is ours
        have uniq : ∀ k', (⟨a, r.nextId, k'⟩ : WriteEntry) ∈ (op.run q).writes →
            ∀ w ∈ (op.run q).writes, w.id = r.nextId → w = ⟨a, r.nextId, k'⟩ := by
          intro k' hk' w hw hwid
          exact nodup_inj hids'.1 hw hk' hwid
        by_cases ht : op = .tick
        · rw [if_pos ht]
          cases k with
          | zero =>
            have : ∀ w ∈ (op.run q).writes, w.id ≠ r.nextId := by
              intro w hw hwid
              subst ht
              obtain ⟨y, hy, hyx⟩ := List.mem_filterMap.1 hw
              split at hyx
              · cases hyx
              · rename_i hne
                cases hyx
                have := huniq y hy hwid
                rw [this] at hne
                exact hne rfl
            have := gone ops (op.run q) g1 this
            constructor
            · intro h; exact absurd h this
            · intro h; omega
          | succ k =>
            have hm := (g3 k ht).2 hmem
            rw [ih (op.run q) k hno' g1 hids' (uniq k hm) hm]
            omega
        · rw [if_neg ht]
          have hm := (g2 k ht).2 hmem
          rw [ih (op.run q) k hno' g1 hids' (uniq k hm) hm]
          omega
    intro ops hno
    have hw := ids_run r (.write a v) hids
    have hwr : RamOp.run r (.write a v) = { r with
        mem := r.mem.set a.toNat v
        writes := ⟨a, r.nextId, writeLatency⟩ :: r.writes.filter (·.addr != a)
        nextId := r.nextId + 1 } := by
      change (match r.write a v with | .ok x => x.2 | .error _ => r) = _
      unfold Ram.write
      rw [if_pos ha]
    rw [hwr] at hw
    refine key ops _ writeLatency hno (Nat.lt_succ_self _) hw ?_ (List.mem_cons_self ..)
    intro w hw hwid
    rw [List.mem_cons] at hw
    rcases hw with rfl | hw
    · rfl
    · have := hids.2 w (List.mem_filter.1 hw).1
      omega

/-- Non-vacuity of C15: a read of cell 3 accepted by a memory of 8 cells and one gate, and a write to cell 4 while it is
in flight; a second read has to wait. -/
example :
    (RamOp.runs (Ram.init 8 1) [.set 3 7, .read 3, .write 4 9, .tick, .tick, .read 5, .tick, .tick]).reads = [⟨3, 1, 7⟩] ∧
    (RamOp.runs (Ram.init 8 1) [.set 3 7, .read 3, .write 4 9, .tick, .tick, .read 5, .tick, .tick]).pending 0 = true ∧
    ((RamOp.runs (Ram.init 8 1) [.set 3 7, .read 3, .write 4 9, .tick, .tick, .read 5, .tick, .tick, .tick]).read 3).toOption.map (·.1) = some (some 7) ∧
    (RamOp.runs (Ram.init 8 1) [.write 4 9, .tick, .tick, .tick, .tick, .tick]).pending 0 = true ∧
    (RamOp.runs (Ram.init 8 1) [.write 4 9, .tick, .tick, .tick, .tick, .tick, .tick]).pending 0 = false := by decide

end T86
