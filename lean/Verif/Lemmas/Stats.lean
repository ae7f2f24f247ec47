import Verif.Spec.Stats
import Verif.Lemmas.Tick

/-! Lemmas about the statistics: marks of an instruction in the ticks, and what the stages do to entries. -/

namespace T86
namespace Stats
open Isa

/-- Where an instruction is. -/
inductive Phase
  | fetch | decode | preparing | noAlu | executing | waiting | retired
  deriving DecidableEq

/-- The places of an instruction in one tick. -/
def Tick.marks (t : Tick) (id : Nat) : List Phase :=
  (if t.fetch = some id then [.fetch] else []) ++ (if t.decode = some id then [.decode] else []) ++
  (if id ∈ t.preparing then [.preparing] else []) ++ (if id ∈ t.noAlu then [.noAlu] else []) ++
  (if id ∈ t.executing then [.executing] else []) ++ (if id ∈ t.waiting then [.waiting] else []) ++
  (if id ∈ t.retired then [.retired] else [])

def LifeTime.phases (l : LifeTime) : List Phase :=
  List.replicate l.fetch .fetch ++ (List.replicate l.decode .decode ++ (List.replicate l.preparing .preparing ++
  (List.replicate l.noAlu .noAlu ++ (List.replicate l.executing .executing ++ (List.replicate l.waiting .waiting ++
  List.replicate l.retirement .retired)))))

def hist (ticks : List Tick) (id : Nat) : List (List Phase) := ticks.map (·.marks id)

theorem hist_append (T : List Tick) (t : Tick) (id : Nat) : hist (T ++ [t]) id = hist T id ++ [t.marks id] := by
  simp [hist]

theorem mem_fetch {t : Tick} {id : Nat} : Phase.fetch ∈ t.marks id ↔ t.fetch = some id := by
  unfold Tick.marks; split_ifs <;> simp_all
theorem mem_decode {t : Tick} {id : Nat} : Phase.decode ∈ t.marks id ↔ t.decode = some id := by
  unfold Tick.marks; split_ifs <;> simp_all
theorem mem_preparing {t : Tick} {id : Nat} : Phase.preparing ∈ t.marks id ↔ id ∈ t.preparing := by
  unfold Tick.marks; split_ifs <;> simp_all
theorem mem_noAlu {t : Tick} {id : Nat} : Phase.noAlu ∈ t.marks id ↔ id ∈ t.noAlu := by
  unfold Tick.marks; split_ifs <;> simp_all
theorem mem_executing {t : Tick} {id : Nat} : Phase.executing ∈ t.marks id ↔ id ∈ t.executing := by
  unfold Tick.marks; split_ifs <;> simp_all
theorem mem_waiting {t : Tick} {id : Nat} : Phase.waiting ∈ t.marks id ↔ id ∈ t.waiting := by
  unfold Tick.marks; split_ifs <;> simp_all
theorem mem_retired {t : Tick} {id : Nat} : Phase.retired ∈ t.marks id ↔ id ∈ t.retired := by
  unfold Tick.marks; split_ifs <;> simp_all

theorem mentions_iff {t : Tick} {id : Nat} : t.Mentions id ↔ t.marks id ≠ [] := by
  unfold Tick.Mentions Tick.marks; split_ifs <;> simp_all

theorem marks_nil {t : Tick} {id : Nat} : t.marks id = [] ↔ t.fetch ≠ some id ∧ t.decode ≠ some id ∧ id ∉ t.preparing ∧
    id ∉ t.noAlu ∧ id ∉ t.executing ∧ id ∉ t.waiting ∧ id ∉ t.retired := by
  have := @mentions_iff t id
  unfold Tick.Mentions at this
  tauto

/-! ## The history of an instruction and its life time -/

/-- The history of an instruction in flight. -/
def Life (T : List Tick) (id : Nat) (l : LifeTime) : Prop :=
  ∃ a, hist T id = List.replicate a [] ++ l.phases.map ([·])

/-- The history of a retired instruction. -/
def Done (T : List Tick) (id : Nat) (l : LifeTime) : Prop :=
  ∃ a b, hist T id = List.replicate a [] ++ l.phases.map ([·]) ++ List.replicate b []

theorem hist_split {T : List Tick} {id : Nat} {xs ys : List (List Phase)} (h : hist T id = xs ++ ys) :
    ∃ A B, T = A ++ B ∧ hist A id = xs ∧ hist B id = ys := by
  unfold hist at h
  obtain ⟨A, B, h1, h2, h3⟩ := List.map_eq_append_iff.1 h
  exact ⟨A, B, h1, h2, h3⟩

theorem hist_replicate {T : List Tick} {id n : Nat} {p : List Phase} (h : hist T id = List.replicate n p) :
    T.length = n ∧ ∀ t ∈ T, t.marks id = p := by
  unfold hist at h
  refine ⟨by simpa using congrArg List.length h, ?_⟩
  intro t ht
  have : t.marks id ∈ List.replicate n p := h ▸ List.mem_map.2 ⟨t, ht, rfl⟩
  exact (List.mem_replicate.1 this).2

theorem hist_none {T : List Tick} {id : Nat} (h : ∀ t ∈ T, t.marks id = []) : hist T id = List.replicate T.length [] := by
  unfold hist
  exact List.map_eq_replicate_iff.2 h

theorem count_append {p : Tick → Bool} {xs ys : List Tick} (h1 : ∀ t ∈ xs, p t = true) (h2 : ∀ t ∈ ys, p t = false) :
    count p (xs ++ ys) = (xs.length, ys) := by
  unfold count
  rw [List.takeWhile_append_of_pos h1, List.dropWhile_append_of_pos h1]
  cases ys with
  | nil => simp
  | cons y ys => simp [h2 y (by simp)]

/-- The parts of a history. -/
theorem done_parts {T : List Tick} {id : Nat} {l : LifeTime} {a b : Nat}
    (h : hist T id = List.replicate a [] ++ l.phases.map ([·]) ++ List.replicate b []) :
    ∃ A F D P N X W R B, T = A ++ (F ++ (D ++ (P ++ (N ++ (X ++ (W ++ (R ++ B))))))) ∧
      A.length = a ∧ F.length = l.fetch ∧ D.length = l.decode ∧ P.length = l.preparing ∧ N.length = l.noAlu ∧
      X.length = l.executing ∧ W.length = l.waiting ∧ R.length = l.retirement ∧ B.length = b ∧
      (∀ t ∈ A, t.marks id = []) ∧ (∀ t ∈ F, t.marks id = [.fetch]) ∧ (∀ t ∈ D, t.marks id = [.decode]) ∧
      (∀ t ∈ P, t.marks id = [.preparing]) ∧ (∀ t ∈ N, t.marks id = [.noAlu]) ∧ (∀ t ∈ X, t.marks id = [.executing]) ∧
      (∀ t ∈ W, t.marks id = [.waiting]) ∧ (∀ t ∈ R, t.marks id = [.retired]) ∧ (∀ t ∈ B, t.marks id = []) := by
  unfold LifeTime.phases at h
  simp only [List.map_append, List.map_replicate, List.append_assoc] at h
  obtain ⟨A, T1, rfl, hA, h⟩ := hist_split h
  obtain ⟨F, T2, rfl, hF, h⟩ := hist_split h
  obtain ⟨D, T3, rfl, hD, h⟩ := hist_split h
  obtain ⟨P, T4, rfl, hP, h⟩ := hist_split h
  obtain ⟨N, T5, rfl, hN, h⟩ := hist_split h
  obtain ⟨X, T6, rfl, hX, h⟩ := hist_split h
  obtain ⟨W, T7, rfl, hW, h⟩ := hist_split h
  obtain ⟨R, B, rfl, hR, hB⟩ := hist_split h
  have k1 := hist_replicate hA
  have k2 := hist_replicate hF
  have k3 := hist_replicate hD
  have k4 := hist_replicate hP
  have k5 := hist_replicate hN
  have k6 := hist_replicate hX
  have k7 := hist_replicate hW
  have k8 := hist_replicate hR
  have k9 := hist_replicate hB
  exact ⟨A, F, D, P, N, X, W, R, B, rfl, k1.1, k2.1, k3.1, k4.1, k5.1, k6.1, k7.1, k8.1, k9.1, k1.2, k2.2, k3.2, k4.2, k5.2,
    k6.2, k7.2, k8.2, k9.2⟩

theorem lifeTime_parts {T : List Tick} {id : Nat} {l : LifeTime} {a b : Nat}
    (h : hist T id = List.replicate a [] ++ l.phases.map ([·]) ++ List.replicate b []) (hf : 1 ≤ l.fetch) :
    ∃ R B : List Tick, R.length = l.retirement ∧ B.length = b ∧ (∀ t ∈ R, t.marks id = [.retired]) ∧ lifeTime T id = match R ++ B with
      | [] => none
      | t :: _ => if t.retired.contains id then some { l with retirement := 1 } else none := by
  obtain ⟨A, F, D, P, N, X, W, R, B, rfl, lA, lF, lD, lP, lN, lX, lW, lR, lB, hA, hF, hD, hP, hN, hX, hW, hR, hB⟩ := done_parts h
  refine ⟨R, B, lR, lB, hR, ?_⟩
  have hfe : ∀ t : Tick, (t.fetch == some id) = decide (Phase.fetch ∈ t.marks id) := fun t => by
    rw [Bool.eq_iff_iff]; simp [mem_fetch]
  have hde : ∀ t : Tick, (t.decode == some id) = decide (Phase.decode ∈ t.marks id) := fun t => by
    rw [Bool.eq_iff_iff]; simp [mem_decode]
  have hpe : ∀ t : Tick, t.preparing.contains id = decide (Phase.preparing ∈ t.marks id) := fun t => by
    rw [Bool.eq_iff_iff]; simp [mem_preparing]
  have hne : ∀ t : Tick, t.noAlu.contains id = decide (Phase.noAlu ∈ t.marks id) := fun t => by
    rw [Bool.eq_iff_iff]; simp [mem_noAlu]
  have hxe : ∀ t : Tick, t.executing.contains id = decide (Phase.executing ∈ t.marks id) := fun t => by
    rw [Bool.eq_iff_iff]; simp [mem_executing]
  have hwe : ∀ t : Tick, t.waiting.contains id = decide (Phase.waiting ∈ t.marks id) := fun t => by
    rw [Bool.eq_iff_iff]; simp [mem_waiting]
  have e0 : (A ++ (F ++ (D ++ (P ++ (N ++ (X ++ (W ++ (R ++ B)))))))).dropWhile (fun t => t.fetch != some id) =
      F ++ (D ++ (P ++ (N ++ (X ++ (W ++ (R ++ B)))))) := by
    rw [List.dropWhile_append_of_pos (by intro t ht; simp [bne, hfe, hA t ht])]
    cases F with
    | nil => simp at lF; omega
    | cons f F => simp only [List.cons_append, List.dropWhile]; simp [bne, hfe, hF f (by simp)]
  have e1 := @count_append (fun t => t.fetch == some id) F (D ++ (P ++ (N ++ (X ++ (W ++ (R ++ B))))))
    (by intro t ht; simp only [hfe, hF t ht]; decide)
    (by intro t ht; simp only [List.mem_append] at ht
        rcases ht with ht | ht | ht | ht | ht | ht | ht
        · simp only [hfe, hD t ht]; decide
        · simp only [hfe, hP t ht]; decide
        · simp only [hfe, hN t ht]; decide
        · simp only [hfe, hX t ht]; decide
        · simp only [hfe, hW t ht]; decide
        · simp only [hfe, hR t ht]; decide
        · simp only [hfe, hB t ht]; decide)
  have e2 := @count_append (fun t => t.decode == some id) D (P ++ (N ++ (X ++ (W ++ (R ++ B)))))
    (by intro t ht; simp only [hde, hD t ht]; decide)
    (by intro t ht; simp only [List.mem_append] at ht
        rcases ht with ht | ht | ht | ht | ht | ht
        · simp only [hde, hP t ht]; decide
        · simp only [hde, hN t ht]; decide
        · simp only [hde, hX t ht]; decide
        · simp only [hde, hW t ht]; decide
        · simp only [hde, hR t ht]; decide
        · simp only [hde, hB t ht]; decide)
  have e3 := @count_append (fun t => t.preparing.contains id) P (N ++ (X ++ (W ++ (R ++ B))))
    (by intro t ht; simp only [hpe, hP t ht]; decide)
    (by intro t ht; simp only [List.mem_append] at ht
        rcases ht with ht | ht | ht | ht | ht
        · simp only [hpe, hN t ht]; decide
        · simp only [hpe, hX t ht]; decide
        · simp only [hpe, hW t ht]; decide
        · simp only [hpe, hR t ht]; decide
        · simp only [hpe, hB t ht]; decide)
  have e4 := @count_append (fun t => t.noAlu.contains id) N (X ++ (W ++ (R ++ B)))
    (by intro t ht; simp only [hne, hN t ht]; decide)
    (by intro t ht; simp only [List.mem_append] at ht
        rcases ht with ht | ht | ht | ht
        · simp only [hne, hX t ht]; decide
        · simp only [hne, hW t ht]; decide
        · simp only [hne, hR t ht]; decide
        · simp only [hne, hB t ht]; decide)
  have e5 := @count_append (fun t => t.executing.contains id) X (W ++ (R ++ B))
    (by intro t ht; simp only [hxe, hX t ht]; decide)
    (by intro t ht; simp only [List.mem_append] at ht
        rcases ht with ht | ht | ht
        · simp only [hxe, hW t ht]; decide
        · simp only [hxe, hR t ht]; decide
        · simp only [hxe, hB t ht]; decide)
  have e6 := @count_append (fun t => t.waiting.contains id) W (R ++ B)
    (by intro t ht; simp only [hwe, hW t ht]; decide)
    (by intro t ht; simp only [List.mem_append] at ht
        rcases ht with ht | ht
        · simp only [hwe, hR t ht]; decide
        · simp only [hwe, hB t ht]; decide)
  unfold lifeTime
  rw [e0]
  obtain ⟨f, F', rfl⟩ : ∃ f F', F = f :: F' := by
    cases F with
    | nil => simp at lF; omega
    | cons f F => exact ⟨f, F, rfl⟩
  simp only [List.cons_append] at e1 ⊢
  simp only [e1, e2, e3, e4, e5, e6]
  rw [lF, lD, lP, lN, lX, lW]
  cases R ++ B <;> rfl

theorem lifeTime_done {T : List Tick} {id : Nat} {l : LifeTime} (h : Done T id l) (hf : 1 ≤ l.fetch) (hr : l.retirement = 1) :
    lifeTime T id = some l := by
  obtain ⟨a, b, h⟩ := h
  obtain ⟨R, B, lR, lB, hR, e⟩ := lifeTime_parts h hf
  obtain ⟨r, rfl⟩ : ∃ r, R = [r] := by
    rw [hr] at lR
    exact List.length_eq_one_iff.1 lR
  have hre : r.retired.contains id = true := by
    have : Phase.retired ∈ r.marks id := by rw [hR r (by simp)]; simp
    simpa using mem_retired.1 this
  rw [e, List.singleton_append]
  simp only [hre, if_true]
  cases l; simp only at hr; subst hr; rfl

theorem lifeTime_life {T : List Tick} {id : Nat} {l : LifeTime} (h : Life T id l) (hf : 1 ≤ l.fetch) (hr : l.retirement = 0) :
    lifeTime T id = none := by
  obtain ⟨a, h⟩ := h
  obtain ⟨R, B, lR, lB, hR, e⟩ := lifeTime_parts (b := 0) (by simpa using h) hf
  rw [hr] at lR
  rw [e, List.length_eq_zero_iff.1 lR, List.length_eq_zero_iff.1 lB]; rfl

/-! ## The stages of the processor -/

variable {cfg : Cfg}

theorem onLast_append {α : Type} (f : α → α) (xs : List α) (x : α) : onLast f (xs ++ [x]) = xs ++ [f x] := by
  induction xs with
  | nil => rfl
  | cons y ys ih =>
    cases ys with
    | nil => rfl
    | cons z zs => simp only [List.cons_append] at ih ⊢; rw [onLast, ih]

/-- What the first loop of `executeAndRetire` does to an entry. -/
def Execd (b a : Entry) : Prop :=
  a.instr = b.instr ∧
    ((b.st = .executing ∧ b.rem - 1 = 0 ∧ a.st = .retiring) ∨
     (b.st = .executing ∧ b.rem - 1 ≠ 0 ∧ a.st = .executing ∧ a.rem = b.rem - 1) ∨
     (b.st ≠ .executing ∧ a = b))

theorem execEntry_shape {s : Regs × Writes} {fa : Nat} {e : Entry} {x} (h : Cpu.execEntry cfg s fa e = .ok x) : Execd e x.1 := by
  unfold Cpu.execEntry at h
  split at h
  · next hst =>
    split at h
    · next hr =>
      obtain ⟨y, hy, h⟩ := bind_ok_iff.1 h
      cases h
      unfold Cpu.execute at hy
      split at hy
      · cases hy
      · obtain ⟨z, hz, hy⟩ := bind_ok_iff.1 hy
        obtain ⟨w, hw, hy⟩ := bind_ok_iff.1 hy
        cases hy
        exact ⟨rfl, Or.inl ⟨hst, hr, rfl⟩⟩
    · next hr => cases h; exact ⟨rfl, Or.inr (Or.inl ⟨hst, hr, hst, rfl⟩)⟩
  all_goals
    next hst => cases h; exact ⟨rfl, Or.inr (Or.inr ⟨by rw [hst]; decide, rfl⟩)⟩

theorem execLoop_shape : ∀ {es : List Entry} {s : Regs × Writes} {fa : Nat} {x}, Cpu.execLoop cfg s fa es = .ok x →
    List.Forall₂ Execd es x.1
  | [], s, fa, x, h => by cases h; exact .nil
  | e :: es, s, fa, x, h => by
    unfold Cpu.execLoop at h
    obtain ⟨y, hy, h⟩ := bind_ok_iff.1 h
    obtain ⟨z, hz, h⟩ := bind_ok_iff.1 h
    cases h
    exact .cons (execEntry_shape hy) (execLoop_shape hz)

/-- What a pass of `fetchAndStartExecution` does to an entry. -/
def Started (b a : Entry) : Prop :=
  a.instr = b.instr ∧ a.rem = b.rem ∧
    ((b.st = .preparing ∧ (a.st = .preparing ∨ a.st = .ready)) ∨ (b.st = .ready ∧ (a.st = .ready ∨ a.st = .executing)) ∨
     (b.st = .executing ∧ a.st = .executing) ∨ (b.st = .retiring ∧ a.st = .retiring))

theorem checkReady_shape (e : Entry) (h : e.st = .preparing) : (Cpu.checkReady e).instr = e.instr ∧ (Cpu.checkReady e).rem = e.rem ∧
    ((Cpu.checkReady e).st = .preparing ∨ (Cpu.checkReady e).st = .ready) := by
  unfold Cpu.checkReady; split
  · exact ⟨rfl, rfl, Or.inr rfl⟩
  · exact ⟨rfl, rfl, Or.inl h⟩

theorem fetchStartEntry_shape {regs wm ram fa} {e : Entry} {x} (h : Cpu.fetchStartEntry cfg regs wm ram fa e = .ok x) :
    Started e x.1 := by
  unfold Cpu.fetchStartEntry at h
  split at h
  · next hst =>
    obtain ⟨y, hy, h⟩ := bind_ok_iff.1 h
    cases h
    obtain ⟨k1, k2, k3⟩ := checkReady_shape { e with ops := y.1, exc := y.2.2 } hst
    exact ⟨k1, k2, Or.inl ⟨hst, k3⟩⟩
  · next hst =>
    split at h
    · split at h
      · cases h; exact ⟨rfl, rfl, Or.inr (Or.inl ⟨hst, Or.inl hst⟩)⟩
      · cases h; exact ⟨rfl, rfl, Or.inr (Or.inl ⟨hst, Or.inr rfl⟩)⟩
    · cases h; exact ⟨rfl, rfl, Or.inr (Or.inl ⟨hst, Or.inr rfl⟩)⟩
  · next hst => cases h; exact ⟨rfl, rfl, Or.inr (Or.inr (Or.inl ⟨hst, hst⟩))⟩
  · next hst => cases h; exact ⟨rfl, rfl, Or.inr (Or.inr (Or.inr ⟨hst, hst⟩))⟩

theorem fetchStartLoop_shape {regs wm} : ∀ {es : List Entry} {ram fa} {x}, Cpu.fetchStartLoop cfg regs wm ram fa es = .ok x →
    List.Forall₂ Started es x.1
  | [], ram, fa, x, h => by cases h; exact .nil
  | e :: es, ram, fa, x, h => by
    unfold Cpu.fetchStartLoop at h
    obtain ⟨y, hy, h⟩ := bind_ok_iff.1 h
    obtain ⟨z, hz, h⟩ := bind_ok_iff.1 h
    cases h
    exact .cons (fetchStartEntry_shape hy) (fetchStartLoop_shape hz)

theorem fetchAndStart_shape {c c' : Cpu} (h : Cpu.fetchAndStart cfg c = .ok c') :
    List.Forall₂ Started c.entries c'.entries ∧ c'.fetch = c.fetch ∧ c'.decode = c.decode ∧ c'.spc = c.spc ∧ c'.prog = c.prog := by
  unfold Cpu.fetchAndStart at h
  obtain ⟨y, hy, h⟩ := bind_ok_iff.1 h
  cases h
  exact ⟨fetchStartLoop_shape hy, rfl, rfl, rfl, rfl⟩

theorem add_shape {c c' : Cpu} {f : Fetched} (h : Cpu.add cfg c f = .ok c') :
    ∃ e, c'.entries = c.entries ++ [e] ∧ e.instr = f.instr ∧ e.rem = f.instr.execLength ∧ (e.st = .preparing ∨ e.st = .ready) ∧
      c'.fetch = c.fetch ∧ c'.spc = c.spc ∧ c'.prog = c.prog := by
  unfold Cpu.add at h
  split at h
  · obtain ⟨x1, _, h⟩ := bind_ok_iff.1 h
    obtain ⟨x2, _, h⟩ := bind_ok_iff.1 h
    obtain ⟨x3, _, h⟩ := bind_ok_iff.1 h
    obtain ⟨x4, _, h⟩ := bind_ok_iff.1 h
    obtain ⟨x5, _, h⟩ := bind_ok_iff.1 h
    obtain ⟨x6, _, h⟩ := bind_ok_iff.1 h
    obtain ⟨x7, _, h⟩ := bind_ok_iff.1 h
    obtain ⟨x8, _, h⟩ := bind_ok_iff.1 h
    cases h
    obtain ⟨k1, k2, k3⟩ := checkReady_shape ⟨f.instr, x8, x1.2, x6.rat, x6.wids, x6.wm.cur, .preparing, f.instr.execLength, false⟩ rfl
    exact ⟨_, rfl, k1, k2, k3, rfl, rfl, rfl⟩
  · cases h

/-! ## Forgetting the statistics -/

theorem retireLoop_cpu : ∀ (n : Nat) (s : Machine), (retireLoop cfg n s).map (·.cpu) = Cpu.retireLoop cfg n s.cpu
  | 0, s => rfl
  | n + 1, s => by
    unfold retireLoop Cpu.retireLoop
    cases hes : s.cpu.entries with
    | nil => rfl
    | cons e es =>
      simp only
      split
      · cases h1 : Cpu.retireEntry cfg { s.cpu with entries := es } e with
        | error f => rfl
        | ok c1 =>
          rw [ok_bind, ok_bind]
          cases h2 : Cpu.dropTables c1.regs e with
          | error f => rfl
          | ok r => rw [ok_bind, ok_bind]; exact retireLoop_cpu n _
      · rfl

theorem tickRetire_cpu (s : Machine) : (tickRetire cfg s).map (·.cpu) = Cpu.tickRetire cfg s.cpu := by
  unfold tickRetire Cpu.tickRetire Cpu.executeAndRetire
  simp only
  cases Cpu.execLoop cfg (s.cpu.regs, s.cpu.wm.removeFinished s.cpu.ram.tick) s.cpu.freeAlus s.cpu.entries with
  | error f => rfl
  | ok x => rw [ok_bind, ok_bind]; exact retireLoop_cpu _ _

theorem shiftStage_cpu (s : Machine) : (shiftStage s).cpu = Cpu.shiftStage s.cpu := by
  unfold shiftStage; split <;> rfl

theorem fetchStage_cpu (s : Machine) : (fetchStage s).cpu = Cpu.fetchStage s.cpu := by
  unfold fetchStage; split <;> rfl

theorem decodeStage_cpu (s : Machine) : (decodeStage cfg s).map (·.cpu) = Cpu.decodeStage cfg s.cpu := by
  unfold decodeStage
  cases Cpu.decodeStage cfg s.cpu with
  | error f => rfl
  | ok c => rw [ok_bind]; split <;> rfl

theorem tickFront_cpu (s : Machine) : (tickFront cfg s).map (·.cpu) = Cpu.tickFront cfg s.cpu := by
  unfold tickFront Cpu.tickFront fetchAndStart
  cases Cpu.fetchAndStart cfg s.cpu with
  | error f => rfl
  | ok c1 =>
    rw [ok_bind, ok_bind]
    have h := decodeStage_cpu (cfg := cfg) { s with cpu := c1, log := s.log.upd (Tick.passes s.cpu.entries c1.entries s.ids) }
    change Except.map _ (decodeStage cfg _ >>= _) = _
    rw [← h]
    cases decodeStage cfg { s with cpu := c1, log := s.log.upd (Tick.passes s.cpu.entries c1.entries s.ids) } with
    | error f => rfl
    | ok s2 =>
      change Except.ok (fetchStage (shiftStage s2)).cpu = Except.ok _
      rw [fetchStage_cpu, shiftStage_cpu]

/-- The machine without the statistics is the processor. -/
theorem tick_cpu (s : Machine) : (tick cfg s).map (·.cpu) = Cpu.tick cfg s.cpu := by
  unfold tick Cpu.tick
  rw [← tickRetire_cpu]
  cases tickRetire cfg s with
  | error f => rfl
  | ok s1 =>
    rw [ok_bind]
    change _ = ((Except.ok s1.cpu : Res Cpu) >>= _)
    rw [ok_bind]
    split
    · rfl
    · simp only
      split
      · rfl
      · exact tickFront_cpu _

theorem run_cpu : ∀ (n : Nat) (s : Machine), (run cfg n s).map (·.cpu) = Cpu.run cfg n s.cpu
  | 0, s => rfl
  | n + 1, s => by
    unfold run Cpu.run
    split
    · rfl
    · rw [← tick_cpu]
      cases tick cfg s with
      | error f => rfl
      | ok s1 => exact run_cpu n s1

end Stats
end T86
