import Verif.Lemmas.Stats

/-! The invariant that relates the statistics to the instructions of the sequential machine. -/

namespace T86
namespace Stats
open Isa

variable {cfg : Cfg}

/-- The instructions in flight follow the guesses of the branch predictor, from `pc` to `spc`. -/
def Chain (prog : List Instr) : Word → List Rec → Word → Prop
  | pc, [], spc => pc = spc
  | pc, r :: rs, spc => r.pc = pc ∧ r.instr = fetchAt prog pc ∧ Chain prog (predict pc r.instr) rs spc

theorem chain_append {prog : List Instr} {i : Instr} : ∀ {rs : List Rec} {pc spc : Word} {id : Nat}, Chain prog pc rs spc → i = fetchAt prog spc →
    Chain prog pc (rs ++ [⟨id, spc, i⟩]) (predict spc i)
  | [], pc, spc, id, h, hi => by cases h; exact ⟨rfl, hi, rfl⟩
  | r :: rs, pc, spc, id, ⟨h1, h2, h3⟩, hi => ⟨h1, h2, chain_append h3 hi⟩

/-- An instruction and where it is. -/
def Rec.what (r : Rec) : Word × Instr := (r.pc, r.instr)

/-- The first `k` instructions executed, and where they are. -/
def trail (cfg : Cfg) (prog : List Instr) (k : Nat) (S : State) : List (Word × Instr) :=
  (path cfg prog k S).map fun p => (p, fetchAt prog p)

/-! ## Life times grow -/

theorem Life.fetch {T : List Tick} {t : Tick} {id : Nat} {l : LifeTime} (h : Life T id l) (hm : t.marks id = [.fetch])
    (h0 : l.decode = 0 ∧ l.preparing = 0 ∧ l.noAlu = 0 ∧ l.executing = 0 ∧ l.waiting = 0 ∧ l.retirement = 0) :
    Life (T ++ [t]) id { l with fetch := l.fetch + 1 } := by
  obtain ⟨a, h⟩ := h
  obtain ⟨h1, h2, h3, h4, h5, h6⟩ := h0
  refine ⟨a, ?_⟩
  rw [hist_append, h, hm, List.append_assoc]
  simp [LifeTime.phases, h1, h2, h3, h4, h5, h6, List.replicate_succ']

theorem Life.decode {T : List Tick} {t : Tick} {id : Nat} {l : LifeTime} (h : Life T id l) (hm : t.marks id = [.decode])
    (h0 : l.preparing = 0 ∧ l.noAlu = 0 ∧ l.executing = 0 ∧ l.waiting = 0 ∧ l.retirement = 0) :
    Life (T ++ [t]) id { l with decode := l.decode + 1 } := by
  obtain ⟨a, h⟩ := h
  obtain ⟨h2, h3, h4, h5, h6⟩ := h0
  refine ⟨a, ?_⟩
  rw [hist_append, h, hm, List.append_assoc]
  simp [LifeTime.phases, h2, h3, h4, h5, h6, List.replicate_succ']

theorem Life.preparing {T : List Tick} {t : Tick} {id : Nat} {l : LifeTime} (h : Life T id l) (hm : t.marks id = [.preparing])
    (h0 : l.noAlu = 0 ∧ l.executing = 0 ∧ l.waiting = 0 ∧ l.retirement = 0) :
    Life (T ++ [t]) id { l with preparing := l.preparing + 1 } := by
  obtain ⟨a, h⟩ := h
  obtain ⟨h3, h4, h5, h6⟩ := h0
  refine ⟨a, ?_⟩
  rw [hist_append, h, hm, List.append_assoc]
  simp [LifeTime.phases, h3, h4, h5, h6, List.replicate_succ']

theorem Life.noAlu {T : List Tick} {t : Tick} {id : Nat} {l : LifeTime} (h : Life T id l) (hm : t.marks id = [.noAlu])
    (h0 : l.executing = 0 ∧ l.waiting = 0 ∧ l.retirement = 0) :
    Life (T ++ [t]) id { l with noAlu := l.noAlu + 1 } := by
  obtain ⟨a, h⟩ := h
  obtain ⟨h4, h5, h6⟩ := h0
  refine ⟨a, ?_⟩
  rw [hist_append, h, hm, List.append_assoc]
  simp [LifeTime.phases, h4, h5, h6, List.replicate_succ']

theorem Life.executing {T : List Tick} {t : Tick} {id : Nat} {l : LifeTime} (h : Life T id l) (hm : t.marks id = [.executing])
    (h0 : l.waiting = 0 ∧ l.retirement = 0) : Life (T ++ [t]) id { l with executing := l.executing + 1 } := by
  obtain ⟨a, h⟩ := h
  obtain ⟨h5, h6⟩ := h0
  refine ⟨a, ?_⟩
  rw [hist_append, h, hm, List.append_assoc]
  simp [LifeTime.phases, h5, h6, List.replicate_succ']

theorem Life.waiting {T : List Tick} {t : Tick} {id : Nat} {l : LifeTime} (h : Life T id l) (hm : t.marks id = [.waiting])
    (h0 : l.retirement = 0) : Life (T ++ [t]) id { l with waiting := l.waiting + 1 } := by
  obtain ⟨a, h⟩ := h
  refine ⟨a, ?_⟩
  rw [hist_append, h, hm, List.append_assoc]
  simp [LifeTime.phases, h0, List.replicate_succ']

theorem Life.retired {T : List Tick} {t : Tick} {id : Nat} {l : LifeTime} (h : Life T id l) (hm : t.marks id = [.retired]) :
    Done (T ++ [t]) id { l with retirement := l.retirement + 1 } := by
  obtain ⟨a, h⟩ := h
  refine ⟨a, 0, ?_⟩
  rw [hist_append, h, hm, List.append_assoc]
  simp [LifeTime.phases, List.replicate_succ']

theorem Done.later {T : List Tick} {t : Tick} {id : Nat} {l : LifeTime} (h : Done T id l) (hm : t.marks id = []) :
    Done (T ++ [t]) id l := by
  obtain ⟨a, b, h⟩ := h
  refine ⟨a, b + 1, ?_⟩
  rw [hist_append, h, hm, List.append_assoc, List.replicate_succ']

theorem hist_congr {T : List Tick} {t t' : Tick} {id : Nat} (h : t'.marks id = t.marks id) : hist (T ++ [t']) id = hist (T ++ [t]) id := by
  rw [hist_append, hist_append, h]

theorem Life.congr {T : List Tick} {t t' : Tick} {id : Nat} {l : LifeTime} (hm : t'.marks id = t.marks id) (h : Life (T ++ [t]) id l) :
    Life (T ++ [t']) id l := by
  unfold Life; rw [hist_congr hm]; exact h

theorem Done.congr {T : List Tick} {t t' : Tick} {id : Nat} {l : LifeTime} (hm : t'.marks id = t.marks id) (h : Done (T ++ [t]) id l) :
    Done (T ++ [t']) id l := by
  unfold Done; rw [hist_congr hm]; exact h

/-! ## Instructions in flight -/

/-- An entry of the station; `d` is 1 at the end of a tick and 0 between execution and the rest of the tick. -/
def FlyE (d : Nat) (T : List Tick) (r : Rec) (e : Entry) : Prop :=
  e.instr = r.instr ∧ ∃ l, Life T r.id l ∧ 1 ≤ l.fetch ∧ 1 ≤ l.decode ∧ 1 ≤ l.preparing ∧ l.retirement = 0 ∧
    match e.st with
    | .preparing => l.noAlu = 0 ∧ l.executing = 0 ∧ l.waiting = 0 ∧ e.rem = r.instr.execLength
    | .ready => l.executing = 0 ∧ l.waiting = 0 ∧ e.rem = r.instr.execLength
    | .executing => l.waiting = 0 ∧ 1 ≤ e.rem ∧ l.executing + e.rem = r.instr.execLength + d
    | .retiring => l.executing = r.instr.execLength

/-- A decoded instruction. -/
def FlyD (T : List Tick) (r : Rec) (f : Fetched) : Prop :=
  f.instr = r.instr ∧ ∃ l, Life T r.id l ∧ 1 ≤ l.fetch ∧ 1 ≤ l.decode ∧
    l.preparing = 0 ∧ l.noAlu = 0 ∧ l.executing = 0 ∧ l.waiting = 0 ∧ l.retirement = 0

/-- A fetched instruction. -/
def FlyF (T : List Tick) (r : Rec) (f : Fetched) : Prop :=
  f.instr = r.instr ∧ ∃ l, Life T r.id l ∧ 1 ≤ l.fetch ∧ l.decode = 0 ∧
    l.preparing = 0 ∧ l.noAlu = 0 ∧ l.executing = 0 ∧ l.waiting = 0 ∧ l.retirement = 0

/-- A retired instruction. -/
def Old (T : List Tick) (r : Rec) : Prop :=
  ∃ l, Done T r.id l ∧ 1 ≤ l.fetch ∧ 1 ≤ l.decode ∧ 1 ≤ l.preparing ∧ l.executing = r.instr.execLength ∧ l.retirement = 1

theorem FlyE.congr {d : Nat} {T : List Tick} {t t' : Tick} {r : Rec} {e : Entry} (hm : t'.marks r.id = t.marks r.id)
    (h : FlyE d (T ++ [t]) r e) : FlyE d (T ++ [t']) r e := by
  obtain ⟨h1, l, h2, h3⟩ := h
  exact ⟨h1, l, h2.congr hm, h3⟩

theorem Old.congr {T : List Tick} {t t' : Tick} {r : Rec} (hm : t'.marks r.id = t.marks r.id) (h : Old (T ++ [t]) r) : Old (T ++ [t']) r := by
  obtain ⟨l, h2, h3⟩ := h
  exact ⟨l, h2.congr hm, h3⟩

theorem Old.later {T : List Tick} {t : Tick} {r : Rec} (h : Old T r) (hm : t.marks r.id = []) : Old (T ++ [t]) r := by
  obtain ⟨l, h2, h3⟩ := h
  exact ⟨l, h2.later hm, h3⟩

theorem execLength_pos (i : Instr) : 1 ≤ i.execLength := by
  unfold Instr.execLength; split <;> omega

/-- Execution. -/
theorem FlyE.exec {T : List Tick} {r : Rec} {b a : Entry} (h : FlyE 1 T r b) (hx : Execd b a) : FlyE 0 T r a := by
  obtain ⟨h1, l, h2, h3, h4, h5, h6, h7⟩ := h
  obtain ⟨x1, x2⟩ := hx
  refine ⟨x1.trans h1, l, h2, h3, h4, h5, h6, ?_⟩
  rcases x2 with ⟨s1, s2, s3⟩ | ⟨s1, s2, s3, s4⟩ | ⟨s1, s2⟩
  · rw [s1] at h7; rw [s3]
    obtain ⟨k1, k2, k3⟩ := h7
    change l.executing = _
    omega
  · rw [s1] at h7; rw [s3]
    obtain ⟨k1, k2, k3⟩ := h7
    refine ⟨k1, ?_, ?_⟩
    · rw [s4]; omega
    · rw [s4]; omega
  · subst s2
    cases hs : a.st with
    | executing => exact absurd hs s1
    | preparing => rw [hs] at h7; exact h7
    | ready => rw [hs] at h7; exact h7
    | retiring => rw [hs] at h7; exact h7

/-- What is recorded about an entry. -/
def phaseOf (b a : EState) : Phase :=
  match b with
  | .preparing => .preparing
  | .ready => if a = .ready then .noAlu else .executing
  | .executing => .executing
  | .retiring => .waiting

theorem FlyE.start {T : List Tick} {t : Tick} {r : Rec} {b a : Entry} (h : FlyE 0 T r b) (hs : Started b a)
    (hm : t.marks r.id = [phaseOf b.st a.st]) : FlyE 1 (T ++ [t]) r a := by
  obtain ⟨h1, l, h2, h3, h4, h5, h6, h7⟩ := h
  obtain ⟨x1, x2, x3⟩ := hs
  have hpos := execLength_pos r.instr
  refine ⟨x1.trans h1, ?_⟩
  rcases x3 with ⟨s1, s2⟩ | ⟨s1, s2⟩ | ⟨s1, s2⟩ | ⟨s1, s2⟩
  · rw [s1] at h7 hm
    obtain ⟨k1, k2, k3, k4⟩ := h7
    refine ⟨_, h2.preparing hm ⟨k1, k2, k3, h6⟩, h3, h4, Nat.le_add_left _ _, h6, ?_⟩
    rcases s2 with s2 | s2
    · rw [s2]; exact ⟨k1, k2, k3, x2.trans k4⟩
    · rw [s2]; exact ⟨k2, k3, x2.trans k4⟩
  · rw [s1] at h7 hm
    obtain ⟨k2, k3, k4⟩ := h7
    rcases s2 with s2 | s2
    · rw [s2] at hm
      refine ⟨_, h2.noAlu hm ⟨k2, k3, h6⟩, h3, h4, h5, h6, ?_⟩
      rw [s2]; exact ⟨k2, k3, x2.trans k4⟩
    · rw [s2] at hm
      refine ⟨_, h2.executing hm ⟨k3, h6⟩, h3, h4, h5, h6, ?_⟩
      rw [s2]
      refine ⟨k3, ?_, ?_⟩
      · rw [x2, k4]; exact hpos
      · change l.executing + 1 + a.rem = _; rw [x2, k4, k2]; omega
  · rw [s1] at h7 hm
    obtain ⟨k1, k2, k3⟩ := h7
    refine ⟨_, h2.executing hm ⟨k1, h6⟩, h3, h4, h5, h6, ?_⟩
    rw [s2]
    refine ⟨k1, x2 ▸ k2, ?_⟩
    change l.executing + 1 + a.rem = _
    rw [x2]; omega
  · rw [s1] at h7 hm
    refine ⟨_, h2.waiting hm h6, h3, h4, h5, h6, ?_⟩
    rw [s2]; exact h7

theorem FlyE.retire {T : List Tick} {t : Tick} {r : Rec} {e : Entry} (h : FlyE 0 T r e) (hs : e.st = .retiring)
    (hm : t.marks r.id = [.retired]) : Old (T ++ [t]) r := by
  obtain ⟨h1, l, h2, h3, h4, h5, h6, h7⟩ := h
  rw [hs] at h7
  refine ⟨_, h2.retired hm, h3, h4, h5, h7, ?_⟩
  change l.retirement + 1 = 1
  rw [h6]

theorem FlyD.add {T : List Tick} {t : Tick} {r : Rec} {f : Fetched} {e : Entry} (h : FlyD T r f) (he : e.instr = f.instr)
    (hr : e.rem = f.instr.execLength) (hs : e.st = .preparing ∨ e.st = .ready) (hm : t.marks r.id = [.preparing]) :
    FlyE 1 (T ++ [t]) r e := by
  obtain ⟨h1, l, h2, h3, h4, k0, k1, k2, k3, h6⟩ := h
  refine ⟨he.trans h1, _, h2.preparing hm ⟨k1, k2, k3, h6⟩, h3, h4, Nat.le_add_left _ _, h6, ?_⟩
  rw [h1] at hr
  rcases hs with hs | hs
  · rw [hs]; exact ⟨k1, k2, k3, hr⟩
  · rw [hs]; exact ⟨k2, k3, hr⟩

theorem FlyD.stay {T : List Tick} {t : Tick} {r : Rec} {f : Fetched} (h : FlyD T r f) (hm : t.marks r.id = [.decode]) :
    FlyD (T ++ [t]) r f := by
  obtain ⟨h1, l, h2, h3, h4, k0, k1, k2, k3, h6⟩ := h
  exact ⟨h1, _, h2.decode hm ⟨k0, k1, k2, k3, h6⟩, h3, Nat.le_add_left _ _, k0, k1, k2, k3, h6⟩

theorem FlyF.shift {T : List Tick} {t : Tick} {r : Rec} {f : Fetched} (h : FlyF T r f) (hm : t.marks r.id = [.decode]) :
    FlyD (T ++ [t]) r f := by
  obtain ⟨h1, l, h2, h3, h4, k0, k1, k2, k3, h6⟩ := h
  exact ⟨h1, _, h2.decode hm ⟨k0, k1, k2, k3, h6⟩, h3, Nat.le_add_left _ _, k0, k1, k2, k3, h6⟩

theorem FlyF.stay {T : List Tick} {t : Tick} {r : Rec} {f : Fetched} (h : FlyF T r f) (hm : t.marks r.id = [.fetch]) :
    FlyF (T ++ [t]) r f := by
  obtain ⟨h1, l, h2, h3, h4, k0, k1, k2, k3, h6⟩ := h
  exact ⟨h1, _, h2.fetch hm ⟨h4, k0, k1, k2, k3, h6⟩, Nat.le_add_left _ _, h4, k0, k1, k2, k3, h6⟩

theorem flyF_new {T : List Tick} {t : Tick} {r : Rec} {f : Fetched} (h : f.instr = r.instr) (hT : ∀ t ∈ T, t.marks r.id = [])
    (hm : t.marks r.id = [.fetch]) : FlyF (T ++ [t]) r f := by
  have h0 : Life T r.id {} := ⟨T.length, by rw [hist_none hT]; simp [LifeTime.phases]⟩
  exact ⟨h, _, h0.fetch hm ⟨rfl, rfl, rfl, rfl, rfl, rfl⟩, Nat.le_add_left _ _, rfl, rfl, rfl, rfl, rfl, rfl⟩

/-! ## Marks of a tick -/

theorem pass_other {b a : EState} {id j : Nat} (t : Tick) (h : j ≠ id) : (t.pass b a id).marks j = t.marks j := by
  unfold Tick.pass Tick.prepare Tick.marks
  cases b <;> simp [h]
  split <;> simp [h]

theorem pass_self {b a : EState} {id : Nat} {t : Tick} (h : t.marks id = []) : (t.pass b a id).marks id = [phaseOf b a] := by
  rw [marks_nil] at h
  obtain ⟨h1, h2, h3, h4, h5, h6, h7⟩ := h
  unfold Tick.pass Tick.prepare Tick.marks phaseOf
  cases b <;> simp [h1, h2, h3, h4, h5, h6, h7]
  split <;> simp [h4, h5]

theorem pass_front {b a : EState} {id : Nat} (t : Tick) : (t.pass b a id).fetch = t.fetch ∧ (t.pass b a id).decode = t.decode := by
  unfold Tick.pass Tick.prepare
  cases b <;> try exact ⟨rfl, rfl⟩
  simp only; split <;> exact ⟨rfl, rfl⟩

theorem passes_fly {T : List Tick} : ∀ {fe : List Rec} {bs as : List Entry} {t : Tick}, List.Forall₂ (FlyE 0 T) fe bs →
    List.Forall₂ Started bs as → (fe.map Rec.id).Nodup → (∀ r ∈ fe, t.marks r.id = []) →
    (∀ j, j ∉ fe.map Rec.id → (Tick.passes bs as (fe.map Rec.id) t).marks j = t.marks j) ∧
    (Tick.passes bs as (fe.map Rec.id) t).fetch = t.fetch ∧ (Tick.passes bs as (fe.map Rec.id) t).decode = t.decode ∧
    List.Forall₂ (FlyE 1 (T ++ [Tick.passes bs as (fe.map Rec.id) t])) fe as
  | [], _, _, t, .nil, .nil, _, _ => ⟨fun _ _ => rfl, rfl, rfl, .nil⟩
  | r :: fe, b :: bs, a :: as, t, .cons f1 f2, .cons s1 s2, hn, hm => by
    rw [List.map_cons, List.nodup_cons] at hn
    have hm' : ∀ r' ∈ fe, (t.pass b.st a.st r.id).marks r'.id = [] := by
      intro r' hr'
      rw [pass_other _ (show r'.id ≠ r.id from fun e => hn.1 (e ▸ List.mem_map.2 ⟨r', hr', rfl⟩))]
      exact hm r' (List.mem_cons_of_mem _ hr')
    obtain ⟨i1, i2, i3, i4⟩ := passes_fly f2 s2 hn.2 hm'
    have hd : Tick.passes (b :: bs) (a :: as) (List.map Rec.id (r :: fe)) t =
      Tick.passes bs as (fe.map Rec.id) (t.pass b.st a.st r.id) := rfl
    rw [hd]
    refine ⟨?_, i2.trans (pass_front t).1, i3.trans (pass_front t).2, .cons ?_ i4⟩
    · intro j hj
      rw [List.map_cons, List.mem_cons, not_or] at hj
      rw [i1 j hj.2, pass_other _ hj.1]
    · apply f1.start s1
      rw [i1 _ hn.1, pass_self (hm r (by simp))]

theorem prepare_other {id j : Nat} (t : Tick) (h : j ≠ id) : (t.prepare id).marks j = t.marks j :=
  pass_other (b := .preparing) (a := .preparing) t h

theorem prepare_self {id : Nat} {t : Tick} (h : t.marks id = []) : (t.prepare id).marks id = [.preparing] :=
  pass_self (b := .preparing) (a := .preparing) h

theorem retire_marks {R : List Nat} {id : Nat} : (({ retired := R } : Tick)).marks id = if id ∈ R then [.retired] else [] := by
  simp [Tick.marks]

/-! ## The invariant -/

/-- `done` are the retired instructions, `fe`, `fd`, `ff` those in the station, decoded and fetched. -/
structure Tracks (cfg : Cfg) (E : Rec → Entry → Prop) (D F : Rec → Fetched → Prop) (s : Machine) (S : State)
    (done fe fd ff : List Rec) : Prop where
  inv : Inv cfg s.cpu S
  instrs : s.log.instrs = done ++ (fe ++ (fd ++ ff))
  sorted : ((done ++ (fe ++ (fd ++ ff))).map Rec.id).Pairwise (· < ·)
  below : ∀ r ∈ done ++ (fe ++ (fd ++ ff)), r.id < s.log.next
  chain : Chain s.cpu.prog S.pc (fe ++ (fd ++ ff)) s.cpu.spc
  ent : List.Forall₂ E fe s.cpu.entries
  dec : List.Forall₂ D fd s.cpu.decode.toList
  fet : List.Forall₂ F ff s.cpu.fetch.toList
  ids : s.ids = fe.map Rec.id
  decId : s.decodeId.toList = fd.map Rec.id
  fetId : s.fetchId.toList = ff.map Rec.id
  fresh : ∀ id, s.log.next ≤ id → ∀ t ∈ s.log.ticks, t.marks id = []
  old : ∀ r ∈ done, Old s.log.ticks r

theorem toList_none {α : Type} {o : Option α} (h : o.toList = []) : o = none := by
  cases o with
  | none => rfl
  | some a => cases h

theorem forall₂_nil_left {α β : Type} {R : α → β → Prop} {xs : List α} (h : List.Forall₂ R xs []) : xs = [] := by
  cases h; rfl

theorem erase_nil (l : Log) {g : List Nat} (h : g = []) : l.erase g = l := by
  subst h
  unfold Log.erase
  cases l
  simp

/-- Keeping the pipeline. -/
theorem sync_keep {s : Machine} {c : Cpu} (h1 : c.entries = [] → s.ids = []) (h2 : c.decode = none → s.decodeId = none)
    (h3 : c.fetch = none → s.fetchId = none) : s.sync c = { s with cpu := c } := by
  have g : (if c.entries = [] then s.ids else []) ++ (if c.decode = none then s.decodeId.toList else []) ++
    (if c.fetch = none then s.fetchId.toList else []) = [] := by
    by_cases k1 : c.entries = [] <;> by_cases k2 : c.decode = none <;> by_cases k3 : c.fetch = none <;>
      simp [k1, k2, k3, h1, h2, h3]
  unfold Machine.sync
  rw [erase_nil _ g]
  congr 1
  · by_cases k3 : c.fetch = none <;> simp [k3, h3]
  · by_cases k2 : c.decode = none <;> simp [k2, h2]
  · by_cases k1 : c.entries = [] <;> simp [k1, h1]

/-- Flushing the pipeline. -/
theorem sync_flush {s : Machine} {c : Cpu} (q : Quiet c) : s.sync c =
    { cpu := c, fetchId := none, decodeId := none, ids := [], log := s.log.erase (s.ids ++ s.decodeId.toList ++ s.fetchId.toList) } := by
  unfold Machine.sync
  rw [if_pos q.entries, if_pos q.entries, if_pos q.decode, if_pos q.decode, if_pos q.fetch, if_pos q.fetch]

theorem filter_flush {done fl : List Rec} (h : ((done ++ fl).map Rec.id).Pairwise (· < ·)) :
    (done ++ fl).filter (fun r => r.id ∉ fl.map Rec.id) = done := by
  rw [List.map_append, List.pairwise_append] at h
  rw [List.filter_append, List.filter_eq_self.2, List.filter_eq_nil_iff.2, List.append_nil]
  · intro r hr
    simp only [decide_not, Bool.not_eq_true', decide_eq_false_iff_not, not_not]
    exact List.mem_map.2 ⟨r, hr, rfl⟩
  · intro r hr
    simp only [decide_not, Bool.not_eq_true', decide_eq_false_iff_not]
    intro hm
    exact Nat.lt_irrefl _ (h.2.2 _ (List.mem_map.2 ⟨r, hr, rfl⟩) _ hm)

theorem inv_quiet {c : Cpu} {S : State} (h : Inv cfg c S) (q : Quiet c) : S.pc = c.spc := by
  obtain ⟨own, n, m, b, h⟩ := h
  have hw := h.win
  rw [q.entries] at hw
  have hf : Front c.prog c.spc (c.decode.toList ++ c.fetch.toList) S.pc c.preds := hw.2.2
  rw [q.decode, q.fetch] at hf
  exact hf.1

/-- The state of the retirement loop: in the current tick `t` only retirements have been recorded. -/
structure Mid (s : Machine) (T : List Tick) (t : Tick) (done : List Rec) : Prop where
  ticks : s.log.ticks = T ++ [t]
  only : t = { retired := t.retired }
  mem : ∀ id ∈ t.retired, ∃ r ∈ done, r.id = id

theorem Mid.marks {s : Machine} {T : List Tick} {t : Tick} {done : List Rec} (h : Mid s T t done) {id : Nat}
    (hn : ∀ r ∈ done, r.id ≠ id) : t.marks id = [] := by
  rw [h.only, retire_marks, if_neg]
  intro hm
  obtain ⟨r, hr, e⟩ := h.mem id hm
  exact hn r hr e

/-- One pass of the retirement loop. -/
theorem retire_pass {s : Machine} {S S' : State} {T : List Tick} {t : Tick} {done fe fd ff : List Rec} {r : Rec} {e : Entry}
    {es : List Entry} {c' : Cpu} (h : Tracks cfg (FlyE 0 T) (FlyD T) (FlyF T) s S done (r :: fe) fd ff) (hm : Mid s T t done)
    (hes : s.cpu.entries = e :: es) (hst : e.st = .retiring) (hp : Pass cfg s.cpu c' S S' es) {s' : Machine}
    (hs' : s' = ({ s with
          ids := s.ids.tail
          log := match s.ids.head? with
            | some id => s.log.upd (Tick.retire id)
            | none => s.log } : Machine).sync c') :
    r.what = (S.pc, fetchAt s.cpu.prog S.pc) ∧ s'.cpu = c' ∧ Mid s' T (t.retire r.id) (done ++ [r]) ∧ ∃ fe' fd' ff',
      Tracks cfg (FlyE 0 T) (FlyD T) (FlyF T) s' S' (done ++ [r]) fe' fd' ff' := by
  obtain ⟨ch1, ch2, ch3⟩ := h.chain
  refine ⟨by rw [Rec.what, ch1, ch2], by rw [hs']; rfl, ?_⟩
  have hids := h.ids
  rw [List.map_cons] at hids
  rw [hids] at hs'
  simp only [List.tail_cons, List.head?_cons] at hs'
  have htk : (s.log.upd (Tick.retire r.id)).ticks = T ++ [t.retire r.id] := by
    unfold Log.upd; rw [hm.ticks, onLast_append]
  have hsort := h.sorted
  have hbel := h.below
  have hent := h.ent
  rw [hes] at hent
  cases hent with
  | cons hr hent =>
  -- marks of the new tick
  have hpw := hsort
  rw [List.map_append, List.map_append, List.map_cons, List.cons_append, List.pairwise_append] at hpw
  obtain ⟨p1, p2, p3⟩ := hpw
  rw [List.pairwise_cons] at p2
  have hrdone : ∀ x ∈ done, x.id ≠ r.id := fun x hx =>
    Nat.ne_of_lt (p3 _ (List.mem_map.2 ⟨x, hx, rfl⟩) _ (by simp))
  have hself : (t.retire r.id).marks r.id = [.retired] := by
    have : t.retire r.id = { retired := t.retired ++ [r.id] } := by
      unfold Tick.retire; rw [hm.only]
    rw [this, retire_marks, if_pos (by simp)]
  have hother : ∀ j, j ≠ r.id → (t.retire r.id).marks j = t.marks j := by
    intro j hj
    have : t.retire r.id = { retired := t.retired ++ [r.id] } := by
      unfold Tick.retire; rw [hm.only]
    rw [this, hm.only, retire_marks, retire_marks]
    simp [hj]
  have hold : ∀ x ∈ done ++ [r], Old (T ++ [t.retire r.id]) x := by
    intro x hx
    rcases List.mem_append.1 hx with hx | hx
    · have := h.old x hx
      rw [hm.ticks] at this
      exact this.congr (hother _ (hrdone x hx))
    · rw [List.mem_singleton.1 hx]; exact hr.retire hst hself
  have hfresh : ∀ id, s.log.next ≤ id → ∀ u ∈ T ++ [t.retire r.id], u.marks id = [] := by
    intro id hid u hu
    rcases List.mem_append.1 hu with hu | hu
    · exact h.fresh id hid u (by rw [hm.ticks]; exact List.mem_append_left _ hu)
    · rw [List.mem_singleton.1 hu, hother]
      · exact h.fresh id hid t (by rw [hm.ticks]; simp)
      · exact fun e => absurd (hbel r (by simp)) (by omega)
  have hmid : ∀ {s1 : Machine}, s1.log.ticks = T ++ [t.retire r.id] → Mid s1 T (t.retire r.id) (done ++ [r]) := by
    intro s1 h1
    refine ⟨h1, ?_, ?_⟩
    · unfold Tick.retire; rw [hm.only]
    · intro id hid
      rcases List.mem_append.1 hid with hid | hid
      · obtain ⟨x, hx, e⟩ := hm.mem id hid
        exact ⟨x, List.mem_append_left _ hx, e⟩
      · exact ⟨r, by simp, (List.mem_singleton.1 hid).symm⟩
  have hi : (s.log.upd (Tick.retire r.id)).instrs = (done ++ [r]) ++ (fe ++ (fd ++ ff)) := by
    change s.log.instrs = _
    rw [h.instrs]; simp
  have hs2 : (((done ++ [r]) ++ (fe ++ (fd ++ ff))).map Rec.id).Pairwise (· < ·) := by
    simpa using hsort
  rcases hp.rest with ⟨k1, k2, k3, k4, k5⟩ | q
  · rw [sync_keep] at hs'
    · subst hs'
      refine ⟨hmid htk, fe, fd, ff, ⟨hp.inv, hi, hs2, ?_, ?_, k1.symm ▸ hent, k3.symm ▸ h.dec, k2.symm ▸ h.fet, rfl, h.decId, h.fetId,
        ?_, ?_⟩⟩
      · intro x hx; exact hbel x (by simpa using hx)
      · change Chain c'.prog S'.pc _ c'.spc
        rw [hp.prog, k4, k5, ← ch2]; exact ch3
      · intro id hid u hu; rw [htk] at hu; exact hfresh id hid u hu
      · intro x hx; rw [htk]; exact hold x hx
    · intro k
      rw [k1] at k; subst k
      simp only
      rw [forall₂_nil_left hent]; rfl
    · intro k
      rw [k3] at k
      have := h.dec; rw [k] at this
      have h0 := h.decId
      rw [forall₂_nil_left this] at h0
      exact toList_none h0
    · intro k
      rw [k2] at k
      have := h.fet; rw [k] at this
      have h0 := h.fetId
      rw [forall₂_nil_left this] at h0
      exact toList_none h0
  · rw [sync_flush q] at hs'
    subst hs'
    refine ⟨hmid htk, [], [], [], ⟨hp.inv, ?_, ?_, ?_, ?_, ?_, ?_, ?_, rfl, rfl, rfl, ?_, ?_⟩⟩
    · change (s.log.upd (Tick.retire r.id)).instrs.filter _ = _
      rw [hi]
      have hg : List.map Rec.id fe ++ s.decodeId.toList ++ s.fetchId.toList = (fe ++ (fd ++ ff)).map Rec.id := by
        rw [h.decId, h.fetId]; simp
      simp only
      rw [hg, filter_flush hs2]; simp
    · rw [List.append_nil, List.append_nil, List.append_nil]
      rw [List.map_append, List.pairwise_append] at hs2
      exact hs2.1
    · intro x hx; exact hbel x (by simp at hx ⊢; tauto)
    · exact inv_quiet hp.inv q
    · change List.Forall₂ _ _ c'.entries
      rw [q.entries]; exact .nil
    · change List.Forall₂ _ _ c'.decode.toList
      rw [q.decode]; exact .nil
    · change List.Forall₂ _ _ c'.fetch.toList
      rw [q.fetch]; exact .nil
    · intro id hid u hu
      change u ∈ (s.log.upd (Tick.retire r.id)).ticks at hu
      rw [htk] at hu; exact hfresh id hid u hu
    · intro x hx
      change Old (s.log.upd (Tick.retire r.id)).ticks x
      rw [htk]; exact hold x hx

/-- The pipeline is empty whenever the rest of a tick is skipped. -/
structure Side (c : Cpu) (S : State) : Prop where
  trap : c.trap = false
  stepped : c.stepped = false
  halted : S.halted = true → Quiet c
  intr : c.intr ≠ 0 → Quiet c

theorem retire_loop {T : List Tick} : ∀ (n : Nat) {s s' : Machine} {S : State} {t : Tick} {done fe fd ff : List Rec},
    Tracks cfg (FlyE 0 T) (FlyD T) (FlyF T) s S done fe fd ff → Mid s T t done → Side s.cpu S → retireLoop cfg n s = .ok s' →
    ∃ k S' t' ds fe' fd' ff', runs cfg s.cpu.prog k S S' ∧ ds.map Rec.what = trail cfg s.cpu.prog k S ∧ s'.cpu.prog = s.cpu.prog ∧
      Tracks cfg (FlyE 0 T) (FlyD T) (FlyF T) s' S' (done ++ ds) fe' fd' ff' ∧ Mid s' T t' (done ++ ds) ∧ Side s'.cpu S'
  | 0, s, s', S, t, done, fe, fd, ff, h, hm, hs, hr => by
    cases hr
    exact ⟨0, S, t, [], fe, fd, ff, rfl, rfl, rfl, by simpa using h, by simpa using hm, hs⟩
  | n + 1, s, s', S, t, done, fe, fd, ff, h, hm, hs, hr => by
    have stop : s' = s → ∃ k S' t' ds fe' fd' ff', runs cfg s.cpu.prog k S S' ∧ ds.map Rec.what = trail cfg s.cpu.prog k S ∧
        s'.cpu.prog = s.cpu.prog ∧ Tracks cfg (FlyE 0 T) (FlyD T) (FlyF T) s' S' (done ++ ds) fe' fd' ff' ∧
        Mid s' T t' (done ++ ds) ∧ Side s'.cpu S' := by
      rintro rfl
      exact ⟨0, S, t, [], fe, fd, ff, rfl, rfl, rfl, by simpa using h, by simpa using hm, hs⟩
    unfold retireLoop at hr
    split at hr
    · cases hr; exact stop rfl
    · next e es hes =>
      split at hr
      · next hst =>
        obtain ⟨c1, e1, hr⟩ := bind_ok_iff.1 hr
        obtain ⟨regs, e2, hr⟩ := bind_ok_iff.1 hr
        have hp : Cpu.retirePass cfg s.cpu e es = .ok { c1 with regs := regs } := by
          unfold Cpu.retirePass; rw [e1, ok_bind, e2]; rfl
        have hsat := retirePass_sat h.inv hes hst
        rw [hp] at hsat
        obtain ⟨S1, P⟩ := hsat
        cases fe with
        | nil =>
          have := h.ent; rw [hes] at this; cases this
        | cons r fe =>
        obtain ⟨q1, q2, q3, fe1, fd1, ff1, q4⟩ := retire_pass h hm hes hst P rfl
        have hh : S.halted = false := by
          cases hx : S.halted with
          | false => rfl
          | true => have := (hs.halted hx).entries; rw [hes] at this; cases this
        have side : Side ({ c1 with regs := regs } : Cpu) S1 := by
          refine ⟨P.trap.trans hs.trap, ?_, ?_, fun hi => P.quiet (Or.inr (Or.inl hi))⟩
          · rw [P.stepped, hs.stepped, hs.trap]; rfl
          · intro hx
            apply P.quiet
            by_cases hi : instrAt s.cpu.prog S.pc = .halt
            · exact Or.inr (Or.inr hi)
            · have := exec_halted (S := S) (S' := S1) P.step hi
              rw [hx, hh] at this; cases this
        obtain ⟨k, S', t', ds, fe', fd', ff', r1, r2, r3, r4, r5, r6⟩ := retire_loop n q4 q3 (q2 ▸ side) hr
        have hprog : c1.prog = s.cpu.prog := P.prog
        have r1' : runs cfg s.cpu.prog k S1 S' := by rw [← hprog]; exact r1
        have r2' : ds.map Rec.what = trail cfg s.cpu.prog k S1 := by rw [← hprog]; exact r2
        refine ⟨k + 1, S', t', r :: ds, fe', fd', ff', ⟨hh, S1, P.step, r1'⟩, ?_, ?_, ?_, ?_, r6⟩
        · unfold trail Isa.path
          rw [P.step, List.map_cons, List.map_cons, q1, r2']; rfl
        · exact r3.trans hprog
        · rw [List.append_cons]; exact r4
        · rw [List.append_cons]; exact r5
      · cases hr; exact stop rfl

theorem tracks_ticks {E : Rec → Entry → Prop} {D F : Rec → Fetched → Prop} {s : Machine} {S : State} {done fe fd ff : List Rec}
    (h : Tracks cfg E D F s S done fe fd ff) : (done.map Rec.id).Nodup ∧ (fe.map Rec.id).Nodup ∧
      (∀ x ∈ done, ∀ y ∈ fe ++ (fd ++ ff), x.id ≠ y.id) ∧ (∀ x ∈ fe, ∀ y ∈ fd ++ ff, x.id ≠ y.id) ∧ (∀ x ∈ fd, ∀ y ∈ ff, x.id ≠ y.id) := by
  have h0 := h.sorted
  rw [List.map_append, List.pairwise_append] at h0
  obtain ⟨a1, a2, a3⟩ := h0
  rw [List.map_append, List.pairwise_append] at a2
  obtain ⟨b1, b2, b3⟩ := a2
  rw [List.map_append, List.pairwise_append] at b2
  obtain ⟨c1, c2, c3⟩ := b2
  refine ⟨a1.imp (fun h => Nat.ne_of_lt h), b1.imp (fun h => Nat.ne_of_lt h), ?_, ?_, ?_⟩
  · intro x hx y hy
    exact Nat.ne_of_lt (a3 _ (List.mem_map.2 ⟨x, hx, rfl⟩) _ (List.mem_map.2 ⟨y, hy, rfl⟩))
  · intro x hx y hy
    exact Nat.ne_of_lt (b3 _ (List.mem_map.2 ⟨x, hx, rfl⟩) _ (List.mem_map.2 ⟨y, hy, rfl⟩))
  · intro x hx y hy
    exact Nat.ne_of_lt (c3 _ (List.mem_map.2 ⟨x, hx, rfl⟩) _ (List.mem_map.2 ⟨y, hy, rfl⟩))

theorem forall₂_comp {α β γ : Type} {P : α → β → Prop} {Q : β → γ → Prop} {R : α → γ → Prop} (h : ∀ a b c, P a b → Q b c → R a c) :
    ∀ {xs : List α} {ys : List β} {zs : List γ}, List.Forall₂ P xs ys → List.Forall₂ Q ys zs → List.Forall₂ R xs zs
  | [], _, _, .nil, .nil => .nil
  | _ :: _, _ :: _, _ :: _, .cons p ps, .cons q qs => .cons (h _ _ _ p q) (forall₂_comp h ps qs)

/-- The start of a tick. -/
theorem tick_retire {s s' : Machine} {S : State} {done fe fd ff : List Rec}
    (h : Tracks cfg (FlyE 1 s.log.ticks) (FlyD s.log.ticks) (FlyF s.log.ticks) s S done fe fd ff)
    (hs : s.cpu.trap = false ∧ s.cpu.stepped = false ∧ (S.halted = true → Quiet s.cpu)) (hr : tickRetire cfg s = .ok s') :
    ∃ k S' t' ds fe' fd' ff', runs cfg s.cpu.prog k S S' ∧ ds.map Rec.what = trail cfg s.cpu.prog k S ∧ s'.cpu.prog = s.cpu.prog ∧
      Tracks cfg (FlyE 0 s.log.ticks) (FlyD s.log.ticks) (FlyF s.log.ticks) s' S' (done ++ ds) fe' fd' ff' ∧
      Mid s' s.log.ticks t' (done ++ ds) ∧ Side s'.cpu S' := by
  unfold tickRetire at hr
  obtain ⟨x, hx, hr⟩ := bind_ok_iff.1 hr
  have hnil : ({} : Tick).marks = fun _ => [] := by funext id; simp [Tick.marks]
  have hinv : Inv cfg { s.cpu with intr := 0, ram := s.cpu.ram.tick, entries := x.1, regs := x.2.1.1, wm := x.2.1.2, freeAlus := x.2.2 } S := by
    obtain ⟨own, n, m, b, hi⟩ := h.inv
    have := hi.tickStart.exec
    rw [show Cpu.execLoop cfg _ _ _ = _ from hx] at this
    exact ⟨own, n, m, b, this.1⟩
  have k := fun a b c => retire_loop (cfg := cfg) (T := s.log.ticks) x.1.length (S := S) (t := {}) (done := done) (fe := fe) (fd := fd)
    (ff := ff) a b c hr
  refine k ?_ ?_ ?_
  · refine ⟨hinv, h.instrs, h.sorted, h.below, h.chain, ?_, h.dec, h.fet, h.ids, h.decId, h.fetId, ?_, ?_⟩
    · exact forall₂_comp (P := FlyE 1 _) (Q := Execd) (R := FlyE 0 _) (fun _ _ _ p q => p.exec q) h.ent (execLoop_shape hx)
    · intro id hid u hu
      rcases List.mem_append.1 hu with hu | hu
      · exact h.fresh id hid u hu
      · rw [List.mem_singleton.1 hu, hnil]
    · intro r hr
      exact (h.old r hr).later (by rw [hnil])
  · exact ⟨rfl, rfl, by intro id hid; cases hid⟩
  · refine ⟨hs.1, hs.2.1, ?_, fun hi => absurd rfl hi⟩
    intro hx'
    have q := hs.2.2 hx'
    rw [q.entries] at hx
    cases hx
    exact ⟨rfl, q.fetch, q.decode, q.preds⟩

/-- The second part of a tick: `t` is the current tick, the decoded and the fetched instruction are not yet recorded in it. -/
structure Stage (s : Machine) (T : List Tick) (t : Tick) (fd ff : List Rec) : Prop where
  ticks : s.log.ticks = T ++ [t]
  fetch : t.fetch = none
  decode : t.decode = none
  marks : ∀ r ∈ fd ++ ff, t.marks r.id = []

theorem stage_start {s s' : Machine} {S : State} {T : List Tick} {t : Tick} {done fe fd ff : List Rec}
    (h : Tracks cfg (FlyE 0 T) (FlyD T) (FlyF T) s S done fe fd ff) (hm : Mid s T t done) (hr : fetchAndStart cfg s = .ok s') :
    ∃ t', Tracks cfg (FlyE 1 (T ++ [t'])) (FlyD T) (FlyF T) s' S done fe fd ff ∧ Stage s' T t' fd ff := by
  unfold fetchAndStart at hr
  obtain ⟨c, hc, hr⟩ := bind_ok_iff.1 hr
  cases hr
  obtain ⟨n1, n2, n3, n4, n5⟩ := tracks_ticks h
  obtain ⟨k1, k2, k3, k4, k5⟩ := fetchAndStart_shape hc
  have hinv : Inv cfg c S := by
    have := fetchAndStart_sat h.inv
    rw [hc] at this; exact this.1
  have hno : ∀ r ∈ fe ++ (fd ++ ff), t.marks r.id = [] := fun r hr => hm.marks fun x hx => n3 x hx r hr
  obtain ⟨p1, p2, p3, p4⟩ := passes_fly h.ent k1 n2 (fun r hr => hno r (List.mem_append_left _ hr))
  have htk : (s.log.upd (Tick.passes s.cpu.entries c.entries s.ids)).ticks =
      T ++ [Tick.passes s.cpu.entries c.entries (fe.map Rec.id) t] := by
    unfold Log.upd; rw [hm.ticks, onLast_append, h.ids]
  have hfe : ∀ j, (∀ x ∈ fe, x.id ≠ j) → j ∉ fe.map Rec.id := by
    intro j hj hmem
    obtain ⟨x, hx, e⟩ := List.mem_map.1 hmem
    exact hj x hx e
  refine ⟨_, ⟨hinv, h.instrs, h.sorted, h.below, ?_, p4, ?_, ?_, h.ids, h.decId, h.fetId, ?_, ?_⟩, htk, ?_, ?_, ?_⟩
  · change Chain c.prog _ _ c.spc; rw [k4, k5]; exact h.chain
  · change List.Forall₂ _ _ c.decode.toList; rw [k3]; exact h.dec
  · change List.Forall₂ _ _ c.fetch.toList; rw [k2]; exact h.fet
  · intro id hid u hu
    rw [htk] at hu
    rcases List.mem_append.1 hu with hu | hu
    · exact h.fresh id hid u (by rw [hm.ticks]; exact List.mem_append_left _ hu)
    · rw [List.mem_singleton.1 hu, p1 id (hfe id ?_)]
      · exact h.fresh id hid t (by rw [hm.ticks]; simp)
      · intro x hx e
        have := h.below x (by simp [hx])
        change s.log.next ≤ id at hid
        omega
  · intro r hr
    rw [htk]
    have := h.old r hr
    rw [hm.ticks] at this
    exact this.congr (p1 r.id (hfe _ fun x hx e => n3 r hr x (List.mem_append_left _ hx) e.symm))
  · rw [p2, hm.only]
  · rw [p3, hm.only]
  · intro r hr
    rw [p1 r.id (hfe _ fun x hx e => n4 x hx r hr e)]
    exact hno r (List.mem_append_right _ hr)

theorem stage_decode {s s' : Machine} {S : State} {T : List Tick} {t : Tick} {done fe fd ff : List Rec}
    (h : Tracks cfg (FlyE 1 (T ++ [t])) (FlyD T) (FlyF T) s S done fe fd ff) (hs : Stage s T t fd ff) (hr : decodeStage cfg s = .ok s') :
    ∃ t' fe' fd', Tracks cfg (FlyE 1 (T ++ [t'])) (FlyD T) (FlyF T) s' S done fe' fd' ff ∧ Stage s' T t' fd' ff := by
  unfold decodeStage at hr
  obtain ⟨c, hc, hr⟩ := bind_ok_iff.1 hr
  have hinv : Inv cfg c S := by
    obtain ⟨c', e1, e2, _⟩ := decodeStage_ok h.inv
    rw [e1] at hc; cases hc; exact e2
  obtain ⟨n1, n2, n3, n4, n5⟩ := tracks_ticks h
  have keep : c = s.cpu → s' = s → ∃ t' fe' fd', Tracks cfg (FlyE 1 (T ++ [t'])) (FlyD T) (FlyF T) s' S done fe' fd' ff ∧ Stage s' T t' fd' ff := by
    rintro rfl rfl
    exact ⟨t, fe, fd, h, hs⟩
  unfold Cpu.decodeStage at hc
  cases hd : s.cpu.decode with
  | none =>
    rw [hd] at hc hr
    cases hc
    cases hr
    exact keep rfl rfl
  | some f =>
    rw [hd] at hc hr
    simp only at hc
    split at hc
    · obtain ⟨c1, ha, hc⟩ := bind_ok_iff.1 hc
      cases hc
      obtain ⟨e, a1, a2, a3, a4, a5, a6, a7⟩ := add_shape ha
      have hdec := h.dec
      rw [hd] at hdec
      obtain ⟨r, rfl⟩ : ∃ r, fd = [r] := by
        cases hdec with
        | cons x y => cases y; exact ⟨_, rfl⟩
      have hfd : FlyD T r f := by cases hdec with | cons x y => exact x
      have hid : s.decodeId = some r.id := by
        have := h.decId
        cases hx : s.decodeId with
        | none => rw [hx] at this; cases this
        | some i => rw [hx] at this; simp at this; rw [this]
      rw [hid] at hr
      cases hr
      have hself := prepare_self (hs.marks r (by simp))
      have htk : (s.log.upd (Tick.prepare r.id)).ticks = T ++ [t.prepare r.id] := by
        unfold Log.upd; rw [hs.ticks, onLast_append]
      refine ⟨t.prepare r.id, fe ++ [r], [], ⟨hinv, ?_, ?_, ?_, ?_, ?_, .nil, ?_, ?_, rfl, h.fetId, ?_, ?_⟩, htk, hs.fetch, hs.decode, ?_⟩
      · change s.log.instrs = _; rw [h.instrs]; simp
      · simpa using h.sorted
      · intro x hx; exact h.below x (by simpa using hx)
      · change Chain c1.prog _ _ c1.spc; rw [a6, a7]; simpa using h.chain
      · change List.Forall₂ _ _ c1.entries
        rw [a1]
        refine List.rel_append ?_ (.cons (hfd.add a2 a3 a4 hself) .nil)
        have hne : ∀ x ∈ fe, x.id ≠ r.id := fun x hx => n4 x hx r (by simp)
        have : ∀ {fe : List Rec} {es : List Entry}, (∀ x ∈ fe, x.id ≠ r.id) → List.Forall₂ (FlyE 1 (T ++ [t])) fe es →
            List.Forall₂ (FlyE 1 (T ++ [t.prepare r.id])) fe es := by
          intro fe es hx hf
          induction hf with
          | nil => exact .nil
          | cons p q ih =>
            exact .cons (p.congr (prepare_other _ (hx _ (by simp)))) (ih fun x hx' => hx x (List.mem_cons_of_mem _ hx'))
        exact this hne h.ent
      · change List.Forall₂ _ _ c1.fetch.toList; rw [a5]; exact h.fet
      · change s.ids ++ [r.id] = _; rw [h.ids]; simp
      · intro id hid' u hu
        rw [htk] at hu
        rcases List.mem_append.1 hu with hu | hu
        · exact h.fresh id hid' u (by rw [hs.ticks]; exact List.mem_append_left _ hu)
        · rw [List.mem_singleton.1 hu, prepare_other]
          · exact h.fresh id hid' t (by rw [hs.ticks]; simp)
          · have := h.below r (by simp)
            change s.log.next ≤ id at hid'
            omega
      · intro x hx
        rw [htk]
        have := h.old x hx
        rw [hs.ticks] at this
        exact this.congr (prepare_other _ (n3 x hx r (by simp)))
      · intro x hx
        simp at hx
        rw [prepare_other _ (fun e => n5 r (by simp) x hx e.symm)]
        exact hs.marks x (by simp [hx])
    · cases hc
      rw [hd] at hr
      cases hr
      exact keep rfl rfl

/-- The instruction that moves from fetched to decoded. -/
theorem stage_shift {E : Rec → Entry → Prop} {s : Machine} {S : State} {T : List Tick} {t : Tick} {done fe fd ff : List Rec}
    (h : Tracks cfg E (FlyD T) (FlyF T) s S done fe fd ff) (hs : Stage s T t fd ff) :
    ∃ fd' ff', Tracks cfg E (fun r f => FlyD T r f ∨ FlyF T r f) (FlyF T) (shiftStage s) S done fe fd' ff' ∧
      Stage (shiftStage s) T t fd' ff' := by
  have hinv : Inv cfg (Cpu.shiftStage s.cpu) S := h.inv.shiftStage
  unfold shiftStage
  unfold Cpu.shiftStage at hinv ⊢
  cases hd : s.cpu.decode with
  | some f =>
    rw [hd] at hinv
    exact ⟨fd, ff, ⟨h.inv, h.instrs, h.sorted, h.below, h.chain, h.ent, h.dec.imp fun _ _ x => Or.inl x, h.fet, h.ids, h.decId,
      h.fetId, h.fresh, h.old⟩, hs.ticks, hs.fetch, hs.decode, hs.marks⟩
  | none =>
    rw [hd] at hinv
    have hdec := h.dec
    rw [hd] at hdec
    obtain rfl := forall₂_nil_left hdec
    refine ⟨ff, [], ⟨hinv, ?_, ?_, ?_, ?_, h.ent, ?_, .nil, h.ids, h.fetId, rfl, h.fresh, h.old⟩, hs.ticks, hs.fetch, hs.decode, ?_⟩
    · rw [List.append_nil]; exact h.instrs
    · rw [List.append_nil]; exact h.sorted
    · rw [List.append_nil]; exact h.below
    · rw [List.append_nil]; exact h.chain
    · exact h.fet.imp fun _ _ x => Or.inr x
    · rw [List.append_nil]; exact hs.marks

theorem stage_fetch {E : Rec → Entry → Prop} {D : Rec → Fetched → Prop} {s : Machine} {S : State} {T : List Tick} {t : Tick} {done fe fd ff : List Rec}
    (h : Tracks cfg E D (FlyF T) s S done fe fd ff) (hs : Stage s T t fd ff) :
    ∃ ff', Tracks cfg E D (fun r f => FlyF T r f ∨ (f.instr = r.instr ∧ ∀ t ∈ T, t.marks r.id = [])) (fetchStage s) S done fe fd ff' ∧
      Stage (fetchStage s) T t fd ff' := by
  have hinv : Inv cfg (Cpu.fetchStage s.cpu) S := h.inv.fetchStage
  unfold fetchStage
  cases hd : s.cpu.fetch with
  | some f =>
    have hsame : Cpu.fetchStage s.cpu = s.cpu := by unfold Cpu.fetchStage; rw [hd]
    simp only [hsame]
    exact ⟨ff, ⟨h.inv, h.instrs, h.sorted, h.below, h.chain, h.ent, h.dec, h.fet.imp fun _ _ x => Or.inl x, h.ids, h.decId,
      h.fetId, h.fresh, h.old⟩, hs.ticks, hs.fetch, hs.decode, hs.marks⟩
  | none =>
    have hfet := h.fet
    rw [hd] at hfet
    obtain rfl := forall₂_nil_left hfet
    have hf : (Cpu.fetchStage s.cpu).fetch = some ⟨fetchAt s.cpu.prog s.cpu.spc, s.cpu.spc + 1⟩ ∧
        (Cpu.fetchStage s.cpu).spc = predict s.cpu.spc (fetchAt s.cpu.prog s.cpu.spc) ∧ (Cpu.fetchStage s.cpu).prog = s.cpu.prog ∧
        (Cpu.fetchStage s.cpu).entries = s.cpu.entries ∧ (Cpu.fetchStage s.cpu).decode = s.cpu.decode := by
      unfold Cpu.fetchStage predict
      rw [hd]
      cases hj : (fetchAt s.cpu.prog s.cpu.spc).jumpDest <;> simp [hj]
    obtain ⟨f1, f2, f3, f4, f5⟩ := hf
    have hfr : ∀ u ∈ T ++ [t], u.marks s.log.next = [] := by
      intro u hu
      exact h.fresh s.log.next (Nat.le_refl _) u (by rw [hs.ticks]; exact hu)
    refine ⟨[⟨s.log.next, s.cpu.spc, fetchAt s.cpu.prog s.cpu.spc⟩], ⟨hinv, ?_, ?_, ?_, ?_, ?_, ?_, ?_, h.ids, h.decId, rfl, ?_, h.old⟩,
      hs.ticks, hs.fetch, hs.decode, ?_⟩
    · change s.log.instrs ++ _ = _; rw [h.instrs]; simp
    · have h1 := h.sorted
      have h2 := h.below
      rw [List.append_nil] at h1 h2
      rw [show done ++ (fe ++ (fd ++ [⟨s.log.next, s.cpu.spc, fetchAt s.cpu.prog s.cpu.spc⟩])) =
        done ++ (fe ++ fd) ++ [⟨s.log.next, s.cpu.spc, fetchAt s.cpu.prog s.cpu.spc⟩] by simp]
      rw [List.map_append, List.pairwise_append]
      refine ⟨h1, by simp, ?_⟩
      intro a ha b hb
      obtain ⟨r, hr, rfl⟩ := List.mem_map.1 ha
      simp at hb
      subst hb
      exact h2 r hr
    · intro x hx
      change x.id < s.log.next + 1
      have h2 := h.below
      rw [show done ++ (fe ++ (fd ++ [⟨s.log.next, s.cpu.spc, fetchAt s.cpu.prog s.cpu.spc⟩])) =
        done ++ (fe ++ (fd ++ [])) ++ [⟨s.log.next, s.cpu.spc, fetchAt s.cpu.prog s.cpu.spc⟩] by simp] at hx
      rcases List.mem_append.1 hx with hx | hx
      · exact Nat.lt_succ_of_lt (h2 x hx)
      · rw [List.mem_singleton.1 hx]; exact Nat.lt_succ_self _
    · change Chain (Cpu.fetchStage s.cpu).prog _ _ (Cpu.fetchStage s.cpu).spc
      rw [f2, f3, show fe ++ (fd ++ [(⟨s.log.next, s.cpu.spc, fetchAt s.cpu.prog s.cpu.spc⟩ : Rec)]) =
        fe ++ (fd ++ []) ++ [⟨s.log.next, s.cpu.spc, fetchAt s.cpu.prog s.cpu.spc⟩] by simp]
      exact chain_append h.chain rfl
    · change List.Forall₂ _ _ (Cpu.fetchStage s.cpu).entries; rw [f4]; exact h.ent
    · change List.Forall₂ _ _ (Cpu.fetchStage s.cpu).decode.toList; rw [f5]; exact h.dec
    · change List.Forall₂ _ _ (Cpu.fetchStage s.cpu).fetch.toList; rw [f1]
      exact .cons (Or.inr ⟨rfl, fun u hu => hfr u (List.mem_append_left _ hu)⟩) .nil
    · intro id hid u hu
      exact h.fresh id (Nat.le_of_succ_le hid) u hu
    · intro x hx
      rcases List.mem_append.1 hx with hx | hx
      · exact hs.marks x (List.mem_append_left _ hx)
      · rw [List.mem_singleton.1 hx]; exact hfr t (by simp)

theorem front_marks {t : Tick} (h1 : t.fetch = none) (h2 : t.decode = none) (f d : Option Nat) (id : Nat) :
    ({ t with
        fetch := match f with
          | some id => some id
          | none => t.fetch
        decode := match d with
          | some id => some id
          | none => t.decode } : Tick).marks id =
      (if f = some id then [Phase.fetch] else []) ++ ((if d = some id then [.decode] else []) ++ t.marks id) := by
  unfold Tick.marks
  rw [h1, h2]
  cases f <;> cases d <;> simp

theorem stage_log {s : Machine} {S : State} {T : List Tick} {t : Tick} {done fe fd ff : List Rec}
    (h : Tracks cfg (FlyE 1 (T ++ [t])) (fun r f => FlyD T r f ∨ FlyF T r f)
      (fun r f => FlyF T r f ∨ (f.instr = r.instr ∧ ∀ t ∈ T, t.marks r.id = [])) s S done fe fd ff) (hs : Stage s T t fd ff) :
    (logFront s).log.ticks.length = T.length + 1 ∧
    Tracks cfg (FlyE 1 (logFront s).log.ticks) (FlyD (logFront s).log.ticks) (FlyF (logFront s).log.ticks) (logFront s) S done fe fd ff := by
  obtain ⟨n1, n2, n3, n4, n5⟩ := tracks_ticks h
  obtain ⟨t', ht', hmk⟩ : ∃ t', (logFront s).log.ticks = T ++ [t'] ∧ ∀ id, t'.marks id =
      (if s.fetchId = some id then [Phase.fetch] else []) ++ ((if s.decodeId = some id then [.decode] else []) ++ t.marks id) := by
    refine ⟨_, ?_, front_marks hs.fetch hs.decode s.fetchId s.decodeId⟩
    unfold logFront Log.upd
    rw [hs.ticks]
    exact onLast_append _ _ _
  have hfd : ∀ id, s.decodeId = some id → ∃ r ∈ fd, r.id = id := by
    intro id hid
    have := h.decId
    rw [hid] at this
    have hm : id ∈ fd.map Rec.id := by rw [← this]; simp
    exact List.mem_map.1 hm
  have hff : ∀ id, s.fetchId = some id → ∃ r ∈ ff, r.id = id := by
    intro id hid
    have := h.fetId
    rw [hid] at this
    have hm : id ∈ ff.map Rec.id := by rw [← this]; simp
    exact List.mem_map.1 hm
  have hdI : ∀ r ∈ fd, s.decodeId = some r.id := by
    intro r hr
    have hm : r.id ∈ s.decodeId.toList := by rw [h.decId]; exact List.mem_map.2 ⟨r, hr, rfl⟩
    simpa using hm
  have hfI : ∀ r ∈ ff, s.fetchId = some r.id := by
    intro r hr
    have hm : r.id ∈ s.fetchId.toList := by rw [h.fetId]; exact List.mem_map.2 ⟨r, hr, rfl⟩
    simpa using hm
  have hsame : ∀ id, (∀ r ∈ fd ++ ff, r.id ≠ id) → t'.marks id = t.marks id := by
    intro id hn
    rw [hmk, if_neg, if_neg]; · rfl
    · intro e; obtain ⟨r, hr, e'⟩ := hfd id e; exact hn r (List.mem_append_left _ hr) e'
    · intro e; obtain ⟨r, hr, e'⟩ := hff id e; exact hn r (List.mem_append_right _ hr) e'
  rw [ht']
  refine ⟨by simp, ⟨h.inv, h.instrs, h.sorted, h.below, h.chain, ?_, ?_, ?_, h.ids, h.decId, h.fetId, ?_, ?_⟩⟩
  · have : ∀ {fe : List Rec} {es : List Entry}, (∀ x ∈ fe, ∀ y ∈ fd ++ ff, x.id ≠ y.id) → List.Forall₂ (FlyE 1 (T ++ [t])) fe es →
        List.Forall₂ (FlyE 1 (T ++ [t'])) fe es := by
      intro fe es hx hf
      induction hf with
      | nil => exact .nil
      | cons p q ih =>
        exact .cons (p.congr (hsame _ fun r hr e => hx _ (by simp) r hr e.symm)) (ih fun x hx' => hx x (List.mem_cons_of_mem _ hx'))
    exact this n4 h.ent
  · have hall : ∀ r ∈ fd, t'.marks r.id = [.decode] := by
      intro r hr
      rw [hmk, if_pos (hdI r hr), hs.marks r (List.mem_append_left _ hr), if_neg]; · rfl
      intro e; obtain ⟨x, hx, e'⟩ := hff _ e; exact n5 r hr x hx e'.symm
    have : ∀ {fd : List Rec} {fs : List Fetched}, (∀ r ∈ fd, t'.marks r.id = [.decode]) →
        List.Forall₂ (fun r f => FlyD T r f ∨ FlyF T r f) fd fs → List.Forall₂ (FlyD (T ++ [t'])) fd fs := by
      intro fd fs hx hf
      induction hf with
      | nil => exact .nil
      | cons p q ih =>
        refine .cons ?_ (ih fun x hx' => hx x (List.mem_cons_of_mem _ hx'))
        rcases p with p | p
        · exact p.stay (hx _ (by simp))
        · exact p.shift (hx _ (by simp))
    exact this hall h.dec
  · have hall : ∀ r ∈ ff, t'.marks r.id = [.fetch] := by
      intro r hr
      rw [hmk, if_pos (hfI r hr), hs.marks r (List.mem_append_right _ hr), if_neg]; · rfl
      intro e; obtain ⟨x, hx, e'⟩ := hfd _ e; exact n5 x hx r hr e'
    have : ∀ {ff : List Rec} {fs : List Fetched}, (∀ r ∈ ff, t'.marks r.id = [.fetch]) →
        List.Forall₂ (fun r f => FlyF T r f ∨ (f.instr = r.instr ∧ ∀ t ∈ T, t.marks r.id = [])) ff fs →
        List.Forall₂ (FlyF (T ++ [t'])) ff fs := by
      intro fd fs hx hf
      induction hf with
      | nil => exact .nil
      | cons p q ih =>
        refine .cons ?_ (ih fun x hx' => hx x (List.mem_cons_of_mem _ hx'))
        rcases p with p | p
        · exact p.stay (hx _ (by simp))
        · exact flyF_new p.1 p.2 (hx _ (by simp))
    exact this hall h.fet
  · intro id hid u hu
    rw [ht'] at hu
    change s.log.next ≤ id at hid
    rcases List.mem_append.1 hu with hu | hu
    · exact h.fresh id hid u (by rw [hs.ticks]; exact List.mem_append_left _ hu)
    · rw [List.mem_singleton.1 hu, hsame]
      · exact h.fresh id hid t (by rw [hs.ticks]; simp)
      · intro r hr
        have := h.below r (List.mem_append_right _ (List.mem_append_right _ hr))
        omega
  · intro x hx
    rw [ht']
    have := h.old x hx
    rw [hs.ticks] at this
    exact this.congr (hsame _ fun r hr e => n3 x hx r (List.mem_append_right _ hr) e.symm)

theorem tick_front {s s' : Machine} {S : State} {T : List Tick} {t : Tick} {done fe fd ff : List Rec}
    (h : Tracks cfg (FlyE 0 T) (FlyD T) (FlyF T) s S done fe fd ff) (hm : Mid s T t done) (hr : tickFront cfg s = .ok s') :
    ∃ fe' fd' ff', s'.log.ticks.length = T.length + 1 ∧ Same s.cpu s'.cpu ∧
      Tracks cfg (FlyE 1 s'.log.ticks) (FlyD s'.log.ticks) (FlyF s'.log.ticks) s' S done fe' fd' ff' := by
  have hsame : Same s.cpu s'.cpu := by
    have h1 := tickFront_cpu (cfg := cfg) s
    rw [hr] at h1
    have h2 := tickFront_sat h.inv
    rw [← h1] at h2
    exact h2.2
  unfold tickFront at hr
  obtain ⟨s1, hs1, hr⟩ := bind_ok_iff.1 hr
  obtain ⟨s2, hs2, hr⟩ := bind_ok_iff.1 hr
  cases hr
  obtain ⟨t1, a1, a2⟩ := stage_start h hm hs1
  obtain ⟨t2, fe', fd', b1, b2⟩ := stage_decode a1 a2 hs2
  obtain ⟨fd'', ff', c1, c2⟩ := stage_shift b1 b2
  obtain ⟨ff'', d1, d2⟩ := stage_fetch c1 c2
  obtain ⟨e1, e2⟩ := stage_log d1 d2
  exact ⟨_, _, _, e1, hsame, e2⟩

/-- The invariant at the end of a tick. -/
structure Good (cfg : Cfg) (s : Machine) (S : State) (done fe fd ff : List Rec) : Prop where
  tracks : Tracks cfg (FlyE 1 s.log.ticks) (FlyD s.log.ticks) (FlyF s.log.ticks) s S done fe fd ff
  trap : s.cpu.trap = false
  stepped : s.cpu.stepped = false
  halted : S.halted = true → Quiet s.cpu

theorem good_tick {s s' : Machine} {S : State} {done fe fd ff : List Rec} (h : Good cfg s S done fe fd ff) (hr : tick cfg s = .ok s') :
    ∃ k S' ds fe' fd' ff', runs cfg s.cpu.prog k S S' ∧ ds.map Rec.what = trail cfg s.cpu.prog k S ∧ s'.cpu.prog = s.cpu.prog ∧
      s'.log.ticks.length = s.log.ticks.length + 1 ∧ Good cfg s' S' (done ++ ds) fe' fd' ff' := by
  unfold tick at hr
  obtain ⟨s1, hs1, hr⟩ := bind_ok_iff.1 hr
  obtain ⟨k, S', t', ds, fe', fd', ff', r1, r2, r3, r4, r5, r6⟩ := tick_retire h.tracks ⟨h.trap, h.stepped, h.halted⟩ hs1
  have empty : Quiet s1.cpu → s1.log.ticks.length = s.log.ticks.length + 1 ∧ Good cfg s1 S' (done ++ ds) fe' fd' ff' := by
    intro q
    have e1 := r4.ent; rw [q.entries] at e1
    have e2 := r4.dec; rw [q.decode] at e2
    have e3 := r4.fet; rw [q.fetch] at e3
    obtain rfl := forall₂_nil_left e1
    obtain rfl := forall₂_nil_left e2
    obtain rfl := forall₂_nil_left e3
    refine ⟨by rw [r5.ticks]; simp, ⟨⟨r4.inv, r4.instrs, r4.sorted, r4.below, r4.chain, ?_, ?_, ?_, r4.ids, r4.decId, r4.fetId, r4.fresh,
      r4.old⟩, r6.trap, r6.stepped, r6.halted⟩⟩
    · rw [q.entries]; exact .nil
    · rw [q.decode]; exact .nil
    · rw [q.fetch]; exact .nil
  have hst : Cpu.stepInterrupt s1.cpu = s1.cpu := by unfold Cpu.stepInterrupt; rw [r6.stepped]; rfl
  simp only [hst] at hr
  split at hr
  · next hh =>
    cases hr
    have hh' : S'.halted = true := by rw [← r4.inv.halted]; exact hh
    obtain ⟨g1, g2⟩ := empty (r6.halted hh')
    exact ⟨k, S', ds, _, _, _, r1, r2, r3, g1, g2⟩
  · next hh =>
    split at hr
    · next hi =>
      cases hr
      obtain ⟨g1, g2⟩ := empty (r6.intr hi)
      exact ⟨k, S', ds, _, _, _, r1, r2, r3, g1, g2⟩
    · obtain ⟨fe2, fd2, ff2, f1, f2, f3⟩ := tick_front r4 r5 hr
      refine ⟨k, S', ds, fe2, fd2, ff2, r1, r2, f2.prog.trans r3, f1, ⟨f3, f2.trap.trans r6.trap, f2.stepped.trans r6.stepped, ?_⟩⟩
      intro hx
      rw [← r4.inv.halted] at hx
      exact absurd hx hh

theorem path_append {prog : List Instr} : ∀ {k j : Nat} {S S1 : State}, runs cfg prog k S S1 →
    path cfg prog (k + j) S = path cfg prog k S ++ path cfg prog j S1
  | 0, j, S, S1, h => by cases h; simp [Isa.path]
  | k + 1, j, S, S1, ⟨h1, t, h2, h3⟩ => by
    have e : ∀ i, path cfg prog (i + 1) S = S.pc :: path cfg prog i t := fun i => by rw [Isa.path, h2]
    rw [Nat.succ_add, e, e, path_append h3]; rfl

theorem runs_trans {prog : List Instr} : ∀ {k j : Nat} {S S1 S2 : State}, runs cfg prog k S S1 → runs cfg prog j S1 S2 →
    runs cfg prog (k + j) S S2
  | 0, j, S, S1, S2, h, h' => by cases h; rw [Nat.zero_add]; exact h'
  | k + 1, j, S, S1, S2, ⟨h1, t, h2, h3⟩, h' => by
    rw [Nat.succ_add]; exact ⟨h1, t, h2, runs_trans h3 h'⟩

theorem good_run : ∀ (n : Nat) {s s' : Machine} {S : State} {done fe fd ff : List Rec}, Good cfg s S done fe fd ff → run cfg n s = .ok s' →
    ∃ k S' ds fe' fd' ff' m, runs cfg s.cpu.prog k S S' ∧ ds.map Rec.what = trail cfg s.cpu.prog k S ∧ s'.cpu.prog = s.cpu.prog ∧
      run cfg m s = .ok s' ∧ (∀ j, j < m → ∃ s1, run cfg j s = .ok s1 ∧ s1.cpu.halted = false) ∧ s'.log.ticks.length = s.log.ticks.length + m ∧
      Good cfg s' S' (done ++ ds) fe' fd' ff'
  | 0, s, s', S, done, fe, fd, ff, h, hr => by
    cases hr
    exact ⟨0, S, [], fe, fd, ff, 0, rfl, rfl, rfl, rfl, fun j hj => absurd hj (Nat.not_lt_zero _), rfl, by simpa using h⟩
  | n + 1, s, s', S, done, fe, fd, ff, h, hr => by
    unfold run at hr
    split at hr
    · next hh =>
      cases hr
      exact ⟨0, S, [], fe, fd, ff, 0, rfl, rfl, rfl, rfl, fun j hj => absurd hj (Nat.not_lt_zero _), rfl, by simpa using h⟩
    · next hh =>
      obtain ⟨s1, hs1, hr⟩ := bind_ok_iff.1 hr
      obtain ⟨k, S1, ds, fe1, fd1, ff1, a1, a2, a3, a4, a5⟩ := good_tick h hs1
      obtain ⟨j, S2, ds2, fe2, fd2, ff2, m, b1, b2, b3, b4, b5, b6, b7⟩ := good_run n a5 hr
      rw [a3] at b1 b2 b3
      refine ⟨k + j, S2, ds ++ ds2, fe2, fd2, ff2, m + 1, runs_trans a1 b1, ?_, b3, ?_, ?_, ?_, ?_⟩
      · unfold trail at a2 b2 ⊢; rw [List.map_append, a2, b2, path_append a1, List.map_append]
      · rw [run, if_neg hh, hs1]; exact b4
      · intro i hi
        cases i with
        | zero => exact ⟨s, rfl, by simpa using hh⟩
        | succ i =>
          rw [run, if_neg hh, hs1]
          exact b5 i (Nat.lt_of_succ_lt_succ hi)
      · omega
      · rw [← List.append_assoc]; exact b7

theorem good_init {prog : List Instr} {data : List Word} {inp : List (BitVec 8)} (h : Inv cfg (Cpu.init cfg prog data inp) (start cfg data inp)) :
    Good cfg (init cfg prog data inp) (start cfg data inp) [] [] [] [] := by
  refine ⟨⟨h, rfl, .nil, ?_, rfl, .nil, .nil, .nil, rfl, rfl, rfl, ?_, ?_⟩, rfl, rfl, ?_⟩
  · intro r hr; cases hr
  · intro id _ t ht; cases ht
  · intro r hr; cases hr
  · intro hx; cases hx

end Stats
end T86
