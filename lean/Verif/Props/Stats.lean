import Verif.Lemmas.StatsRun
import Verif.Props.Pipeline

/-! # C70, C71: the statistics of a run -/

namespace T86
namespace Stats
open Isa

variable {cfg : Cfg} {prog : List Instr} {data : List Word} {inp : List (BitVec 8)}

theorem good_at (hs : Setup cfg prog data) {n : Nat} {s : Machine} (h : run cfg n (init cfg prog data inp) = .ok s) :
    ∃ k S done fe fd ff m, runs cfg prog k (start cfg data inp) S ∧ done.map Rec.what = trail cfg prog k (start cfg data inp) ∧
      run cfg m (init cfg prog data inp) = .ok s ∧
      (∀ j, j < m → ∃ s1, run cfg j (init cfg prog data inp) = .ok s1 ∧ s1.cpu.halted = false) ∧
      s.log.ticks.length = m ∧ Good cfg s S done fe fd ff := by
  obtain ⟨k, S, ds, fe, fd, ff, m, h1, h2, h3, h4, h5, h6, h7⟩ := good_run n (good_init (inv_init hs.1 hs.2 hs.3)) h
  exact ⟨k, S, ds, fe, fd, ff, m, h1, h2, h4, h5, h6.trans (Nat.zero_add _), h7⟩

theorem what_pc {rs : List Rec} {ps : List Word} (h : rs.map Rec.what = ps.map fun p => (p, fetchAt prog p)) :
    rs.map Rec.pc = ps ∧ ∀ r ∈ rs, r.instr = instrAt prog r.pc := by
  constructor
  · have := congrArg (List.map Prod.fst) h
    simpa [Rec.what, Function.comp_def] using this
  · intro r hr
    have hm : r.what ∈ rs.map Rec.what := List.mem_map.2 ⟨r, hr, rfl⟩
    rw [h] at hm
    obtain ⟨p, _, e⟩ := List.mem_map.1 hm
    have e1 : p = r.pc := congrArg Prod.fst e
    have e2 : fetchAt prog p = r.instr := congrArg Prod.snd e
    rw [← e2, e1, fetchAt_eq]

theorem chain_instr {prog : List Instr} : ∀ {rs : List Rec} {pc spc : Word}, Chain prog pc rs spc → ∀ r ∈ rs, r.instr = instrAt prog r.pc := by
  intro rs
  induction rs with
  | nil => intro _ _ _ r hr; cases hr
  | cons r rs ih =>
    rintro pc spc ⟨h1, h2, h3⟩ x hx
    rcases List.mem_cons.1 hx with rfl | hx
    · rw [h2, h1, fetchAt_eq]
    · exact ih h3 x hx

/-! ## C70 -/

/-- C70. Keeping statistics does not change what the processor does. -/
theorem C70_transparent (n : Nat) :
    (run cfg n (init cfg prog data inp)).map (·.cpu) = Cpu.run cfg n (Cpu.init cfg prog data inp) :=
  run_cpu n _

/-- C70. At any time the instructions counted are those that were executed so far, in the order in which they were executed,
followed by at most as many as fit into the pipeline. -/
theorem C70_counted (hs : Setup cfg prog data) {n : Nat} {s : Machine} (h : run cfg n (init cfg prog data inp) = .ok s) :
    ∃ k S flight, runs cfg prog k (start cfg data inp) S ∧ s.log.instrs.map Rec.pc = path cfg prog k (start cfg data inp) ++ flight ∧
      flight.length ≤ cfg.rsMax + 2 ∧ (∀ r ∈ s.log.instrs, r.instr = instrAt prog r.pc) ∧
      s.cpu.halted = S.halted ∧ s.cpu.out = S.out ∧ (s.cpu.halted = true → flight = []) := by
  obtain ⟨k, S, done, fe, fd, ff, m, h1, h2, h3, h4, h5, g⟩ := good_at hs h
  obtain ⟨w1, w2⟩ := what_pc h2
  have t := g.tracks
  have hp : s.cpu.prog = prog := by
    obtain ⟨k', S', ds, fe, fd, ff, m, _, _, h, _⟩ := good_run n (good_init (inv_init hs.1 hs.2 hs.3)) h
    exact h
  obtain ⟨own, n', m', b, hi⟩ := t.inv
  refine ⟨k, S, (fe ++ (fd ++ ff)).map Rec.pc, h1, ?_, ?_, ?_, t.inv.halted, hi.out, ?_⟩
  · rw [t.instrs, List.map_append, w1]
  · have l1 := t.ent.length_eq
    have l2 := t.dec.length_eq
    have l3 := t.fet.length_eq
    have l4 := hi.cap
    have l5 : s.cpu.decode.toList.length ≤ 1 := by cases s.cpu.decode <;> simp
    have l6 : s.cpu.fetch.toList.length ≤ 1 := by cases s.cpu.fetch <;> simp
    simp only [List.length_map, List.length_append]
    omega
  · intro r hr
    rw [t.instrs] at hr
    rcases List.mem_append.1 hr with hr | hr
    · exact w2 r hr
    · rw [← hp]; exact chain_instr t.chain r hr
  · intro hh
    rw [t.inv.halted] at hh
    have q := g.halted hh
    have e1 := t.ent; rw [q.entries] at e1
    have e2 := t.dec; rw [q.decode] at e2
    have e3 := t.fet; rw [q.fetch] at e3
    rw [forall₂_nil_left e1, forall₂_nil_left e2, forall₂_nil_left e3]; rfl

/-- C70. When the program has halted, the instructions counted are exactly those executed: none that was only fetched by mistake
is counted, none is left out, and an instruction executed several times is counted as many times. -/
theorem C70_executed (hs : Setup cfg prog data) {n : Nat} {s : Machine} (h : run cfg n (init cfg prog data inp) = .ok s)
    (hh : s.cpu.halted = true) :
    ∃ k S, runs cfg prog k (start cfg data inp) S ∧ S.halted = true ∧ s.log.instrs.map Rec.pc = path cfg prog k (start cfg data inp) ∧
      (∀ r ∈ s.log.instrs, r.instr = instrAt prog r.pc) ∧ s.log.instrs.length = k := by
  obtain ⟨k, S, flight, h1, h2, h3, h4, h5, h6, h7⟩ := C70_counted hs h
  have hf := h7 hh
  subst hf
  rw [List.append_nil] at h2
  refine ⟨k, S, h1, h5 ▸ hh, h2, h4, ?_⟩
  have := congrArg List.length h2
  rw [List.length_map] at this
  rw [this]
  clear this h2 h5 h6 h7
  have : ∀ {k : Nat} {S S' : State}, runs cfg prog k S S' → (path cfg prog k S).length = k := by
    intro k
    induction k with
    | zero => intros; rfl
    | succ k ih =>
      rintro S S' ⟨_, t, e, r⟩
      rw [Isa.path, e, List.length_cons, ih r]
  exact this h1

/-- C70. The number of ticks counted is the number of ticks it takes the processor to get there. -/
theorem C70_ticks (hs : Setup cfg prog data) {n : Nat} {s : Machine} (h : run cfg n (init cfg prog data inp) = .ok s) :
    Cpu.run cfg s.log.ticks.length (Cpu.init cfg prog data inp) = .ok s.cpu ∧
    ∀ j, j < s.log.ticks.length → ∃ c, Cpu.run cfg j (Cpu.init cfg prog data inp) = .ok c ∧ c.halted = false := by
  obtain ⟨k, S, done, fe, fd, ff, m, h1, h2, h3, h4, h5, g⟩ := good_at hs h
  rw [h5]
  constructor
  · rw [← C70_transparent, h3]; rfl
  · intro j hj
    obtain ⟨s1, e1, e2⟩ := h4 j hj
    exact ⟨s1.cpu, by rw [← C70_transparent, e1]; rfl, e2⟩

/-! ## C71 -/

/-- The ticks in which an instruction occurs. -/
theorem done_span {T : List Tick} {id : Nat} {l : LifeTime} (h : Done T id l) :
    ∃ a, a + l.total ≤ T.length ∧ (∀ i t, T[i]? = some t → (t.Mentions id ↔ a ≤ i ∧ i < a + l.total)) ∧
      T.countP (fun t => t.fetch = some id) = l.fetch ∧ T.countP (fun t => t.decode = some id) = l.decode ∧
      T.countP (fun t => id ∈ t.preparing) = l.preparing ∧ T.countP (fun t => id ∈ t.noAlu) = l.noAlu ∧
      T.countP (fun t => id ∈ t.executing) = l.executing ∧ T.countP (fun t => id ∈ t.waiting) = l.waiting ∧
      T.countP (fun t => id ∈ t.retired) = l.retirement := by
  obtain ⟨a, b, h⟩ := h
  obtain ⟨A, F, D, P, N, X, W, R, B, rfl, lA, lF, lD, lP, lN, lX, lW, lR, lB, hA, hF, hD, hP, hN, hX, hW, hR, hB⟩ := done_parts h
  have cnt : ∀ (q : Tick → Bool) (ph : Phase) {Y : List Tick} (ph' : List Phase), (∀ t ∈ Y, t.marks id = ph') →
      (∀ t : Tick, q t = decide (ph ∈ t.marks id)) → Y.countP q = if ph ∈ ph' then Y.length else 0 := by
    intro q ph Y ph' hy hq
    split
    · next hm => rw [List.countP_eq_length]; intro t ht; rw [hq, hy t ht]; simpa using hm
    · next hm => rw [List.countP_eq_zero]; intro t ht; rw [hq, hy t ht]; simpa using hm
  refine ⟨a, ?_, ?_, ?_, ?_, ?_, ?_, ?_, ?_, ?_⟩
  · simp only [List.length_append, LifeTime.total]; omega
  · intro i t ht
    rw [mentions_iff]
    have hl : (F ++ (D ++ (P ++ (N ++ (X ++ (W ++ R)))))).length = l.total := by
      simp only [List.length_append, LifeTime.total]; omega
    have he : A ++ (F ++ (D ++ (P ++ (N ++ (X ++ (W ++ (R ++ B))))))) = A ++ ((F ++ (D ++ (P ++ (N ++ (X ++ (W ++ R)))))) ++ B) := by
      simp
    rw [he] at ht
    by_cases h1 : i < a
    · rw [List.getElem?_append_left (by omega)] at ht
      rw [hA t (List.mem_of_getElem? ht)]
      constructor
      · intro h; exact absurd rfl h
      · intro h; omega
    · rw [List.getElem?_append_right (by omega)] at ht
      by_cases h2 : i < a + l.total
      · rw [List.getElem?_append_left (by omega)] at ht
        refine ⟨fun _ => ⟨by omega, h2⟩, fun _ => ?_⟩
        have hm := List.mem_of_getElem? ht
        simp only [List.mem_append] at hm
        rcases hm with hm | hm | hm | hm | hm | hm | hm
        · rw [hF t hm]; simp
        · rw [hD t hm]; simp
        · rw [hP t hm]; simp
        · rw [hN t hm]; simp
        · rw [hX t hm]; simp
        · rw [hW t hm]; simp
        · rw [hR t hm]; simp
      · rw [List.getElem?_append_right (by omega)] at ht
        rw [hB t (List.mem_of_getElem? ht)]
        constructor
        · intro h; exact absurd rfl h
        · intro h; omega
  · have q : ∀ t : Tick, decide (t.fetch = some id) = decide (Phase.fetch ∈ t.marks id) := fun t => by simp [mem_fetch]
    simp only [List.countP_append, cnt _ _ _ hA q, cnt _ _ _ hF q, cnt _ _ _ hD q, cnt _ _ _ hP q, cnt _ _ _ hN q, cnt _ _ _ hX q,
      cnt _ _ _ hW q, cnt _ _ _ hR q, cnt _ _ _ hB q]
    simp [lF]
  · have q : ∀ t : Tick, decide (t.decode = some id) = decide (Phase.decode ∈ t.marks id) := fun t => by simp [mem_decode]
    simp only [List.countP_append, cnt _ _ _ hA q, cnt _ _ _ hF q, cnt _ _ _ hD q, cnt _ _ _ hP q, cnt _ _ _ hN q, cnt _ _ _ hX q,
      cnt _ _ _ hW q, cnt _ _ _ hR q, cnt _ _ _ hB q]
    simp [lD]
  · have q : ∀ t : Tick, decide (id ∈ t.preparing) = decide (Phase.preparing ∈ t.marks id) := fun t => by simp [mem_preparing]
    simp only [List.countP_append, cnt _ _ _ hA q, cnt _ _ _ hF q, cnt _ _ _ hD q, cnt _ _ _ hP q, cnt _ _ _ hN q, cnt _ _ _ hX q,
      cnt _ _ _ hW q, cnt _ _ _ hR q, cnt _ _ _ hB q]
    simp [lP]
  · have q : ∀ t : Tick, decide (id ∈ t.noAlu) = decide (Phase.noAlu ∈ t.marks id) := fun t => by simp [mem_noAlu]
    simp only [List.countP_append, cnt _ _ _ hA q, cnt _ _ _ hF q, cnt _ _ _ hD q, cnt _ _ _ hP q, cnt _ _ _ hN q, cnt _ _ _ hX q,
      cnt _ _ _ hW q, cnt _ _ _ hR q, cnt _ _ _ hB q]
    simp [lN]
  · have q : ∀ t : Tick, decide (id ∈ t.executing) = decide (Phase.executing ∈ t.marks id) := fun t => by simp [mem_executing]
    simp only [List.countP_append, cnt _ _ _ hA q, cnt _ _ _ hF q, cnt _ _ _ hD q, cnt _ _ _ hP q, cnt _ _ _ hN q, cnt _ _ _ hX q,
      cnt _ _ _ hW q, cnt _ _ _ hR q, cnt _ _ _ hB q]
    simp [lX]
  · have q : ∀ t : Tick, decide (id ∈ t.waiting) = decide (Phase.waiting ∈ t.marks id) := fun t => by simp [mem_waiting]
    simp only [List.countP_append, cnt _ _ _ hA q, cnt _ _ _ hF q, cnt _ _ _ hD q, cnt _ _ _ hP q, cnt _ _ _ hN q, cnt _ _ _ hX q,
      cnt _ _ _ hW q, cnt _ _ _ hR q, cnt _ _ _ hB q]
    simp [lW]
  · have q : ∀ t : Tick, decide (id ∈ t.retired) = decide (Phase.retired ∈ t.marks id) := fun t => by simp [mem_retired]
    simp only [List.countP_append, cnt _ _ _ hA q, cnt _ _ _ hF q, cnt _ _ _ hD q, cnt _ _ _ hP q, cnt _ _ _ hN q, cnt _ _ _ hX q,
      cnt _ _ _ hW q, cnt _ _ _ hR q, cnt _ _ _ hB q]
    simp [lR]

/-- C71. When the program has halted, the life time computed for each instruction is the time from its fetch to its retirement, no
tick counted twice and none left out; each of its parts is the number of ticks recorded for it; and it was executing for as long as
the configuration says its kind takes. -/
theorem C71_life (hs : Setup cfg prog data) {n : Nat} {s : Machine} (h : run cfg n (init cfg prog data inp) = .ok s)
    (hh : s.cpu.halted = true) {r : Rec} (hr : r ∈ s.log.instrs) :
    ∃ l first, lifeTime s.log.ticks r.id = some l ∧ first + l.total ≤ s.log.ticks.length ∧
      (∀ i t, s.log.ticks[i]? = some t → (t.Mentions r.id ↔ first ≤ i ∧ i < first + l.total)) ∧
      (s.log.ticks.countP (fun t => t.fetch = some r.id) = l.fetch ∧ s.log.ticks.countP (fun t => t.decode = some r.id) = l.decode ∧
       s.log.ticks.countP (fun t => r.id ∈ t.preparing) = l.preparing ∧ s.log.ticks.countP (fun t => r.id ∈ t.noAlu) = l.noAlu ∧
       s.log.ticks.countP (fun t => r.id ∈ t.executing) = l.executing ∧ s.log.ticks.countP (fun t => r.id ∈ t.waiting) = l.waiting ∧
       s.log.ticks.countP (fun t => r.id ∈ t.retired) = l.retirement) ∧
      1 ≤ l.fetch ∧ 1 ≤ l.decode ∧ 1 ≤ l.preparing ∧ l.executing = (instrAt prog r.pc).execLength ∧ l.retirement = 1 := by
  obtain ⟨k, S, done, fe, fd, ff, m, h1, h2, h3, h4, h5, g⟩ := good_at hs h
  have t := g.tracks
  have hq := hh
  rw [t.inv.halted] at hq
  have q := g.halted hq
  have e1 := t.ent; rw [q.entries] at e1
  have e2 := t.dec; rw [q.decode] at e2
  have e3 := t.fet; rw [q.fetch] at e3
  have hd : r ∈ done := by
    rw [t.instrs, forall₂_nil_left e1, forall₂_nil_left e2, forall₂_nil_left e3] at hr
    simpa using hr
  obtain ⟨l, o1, o2, o3, o4, o5, o6⟩ := t.old r hd
  obtain ⟨a, d1, d2, d3⟩ := done_span o1
  refine ⟨l, a, lifeTime_done o1 o2 o6, d1, d2, d3, o2, o3, o4, ?_, o6⟩
  rw [o5, (what_pc h2).2 r hd]

theorem mapM_some {α β : Type} {f : α → Option β} : ∀ {xs : List α}, (∀ x ∈ xs, ∃ y, f x = some y) →
    ∃ ys, xs.mapM f = some ys ∧ ys.length = xs.length := by
  intro xs
  induction xs with
  | nil => intro _; exact ⟨[], rfl, rfl⟩
  | cons x xs ih =>
    intro h
    obtain ⟨y, hy⟩ := h x (by simp)
    obtain ⟨ys, h1, h2⟩ := ih fun z hz => h z (List.mem_cons_of_mem _ hz)
    exact ⟨y :: ys, by rw [List.mapM_cons, hy, h1]; rfl, by simp [h2]⟩

theorem mapM_none {α β : Type} {f : α → Option β} {x : α} (hx : f x = none) : ∀ {xs : List α}, x ∈ xs → xs.mapM f = none := by
  intro xs
  induction xs with
  | nil => intro h; cases h
  | cons y ys ih =>
    intro h
    rw [List.mapM_cons]
    rcases List.mem_cons.1 h with rfl | h
    · rw [hx]; rfl
    · rw [ih h]; cases f y <;> rfl

/-- C71. The statistics can be shown, without a failed assertion, exactly when no instruction is in flight. -/
theorem C71_available (hs : Setup cfg prog data) {n : Nat} {s : Machine} (h : run cfg n (init cfg prog data inp) = .ok s) :
    (basicStats s.log).isSome = true ↔ s.cpu.entries = [] ∧ s.cpu.decode = none ∧ s.cpu.fetch = none := by
  obtain ⟨k, S, done, fe, fd, ff, m, h1, h2, h3, h4, h5, g⟩ := good_at hs h
  have t := g.tracks
  have hb : (basicStats s.log).isSome = (lifeTimes s.log).isSome := by
    unfold basicStats; cases lifeTimes s.log <;> rfl
  rw [hb]
  constructor
  · intro hl
    by_contra hn
    have none_of : ∀ r ∈ fe ++ (fd ++ ff), lifeTime s.log.ticks r.id = none → False := by
      intro r hr hl'
      have : lifeTimes s.log = none :=
        mapM_none (f := fun r : Rec => lifeTime s.log.ticks r.id) hl' (by rw [t.instrs]; exact List.mem_append_right _ hr)
      rw [this] at hl; cases hl
    cases he : s.cpu.entries with
    | cons e es =>
      have e1 := t.ent; rw [he] at e1
      cases e1 with
      | cons p _ =>
      obtain ⟨_, l, l1, l2, l3, l4, l5, _⟩ := p
      exact none_of _ (by simp) (lifeTime_life l1 l2 l5)
    | nil =>
    cases hd : s.cpu.decode with
    | some f =>
      have e1 := t.dec; rw [hd] at e1
      cases e1 with
      | cons p _ =>
      obtain ⟨_, l, l1, l2, l3, _, _, _, _, l5⟩ := p
      exact none_of _ (by simp) (lifeTime_life l1 l2 l5)
    | none =>
    cases hf : s.cpu.fetch with
    | some f =>
      have e1 := t.fet; rw [hf] at e1
      cases e1 with
      | cons p _ =>
      obtain ⟨_, l, l1, l2, l3, _, _, _, _, l5⟩ := p
      exact none_of _ (by simp) (lifeTime_life l1 l2 l5)
    | none => exact hn ⟨he, hd, hf⟩
  · rintro ⟨q1, q2, q3⟩
    have e1 := t.ent; rw [q1] at e1
    have e2 := t.dec; rw [q2] at e2
    have e3 := t.fet; rw [q3] at e3
    obtain ⟨ls, hls, _⟩ := mapM_some (f := fun r => lifeTime s.log.ticks r.id) (xs := s.log.instrs) fun r hr => by
      rw [t.instrs, forall₂_nil_left e1, forall₂_nil_left e2, forall₂_nil_left e3] at hr
      obtain ⟨l, o1, o2, o3, o4, o5, o6⟩ := t.old r (by simpa using hr)
      exact ⟨l, lifeTime_done o1 o2 o6⟩
    rw [show lifeTimes s.log = some ls from hls]; rfl

/-- C71. When the program has halted, the statistics can be shown: no assertion fails, and there is one life time for each instruction
executed. -/
theorem C71_shown (hs : Setup cfg prog data) {n : Nat} {s : Machine} (h : run cfg n (init cfg prog data inp) = .ok s)
    (hh : s.cpu.halted = true) :
    ∃ ls, lifeTimes s.log = some ls ∧ ls.length = s.log.instrs.length ∧
      basicStats s.log = some (s.log.ticks.length, s.log.instrs.length, averages (accumulate ls) s.log.instrs.length) := by
  obtain ⟨ls, h1, h2⟩ := mapM_some (f := fun r => lifeTime s.log.ticks r.id) (xs := s.log.instrs) fun r hr => by
    obtain ⟨l, _, hl, _⟩ := C71_life hs h hh hr
    exact ⟨l, hl⟩
  refine ⟨ls, h1, h2, ?_⟩
  unfold basicStats
  rw [show lifeTimes s.log = some ls from h1]; rfl

/-- The non-vacuity of C70 and C71: a program with a loop, whose jump is predicted wrongly once. Eleven
instructions are executed in 42 ticks, sixteen were fetched. -/
example : (run Sample.cfg 42 (init Sample.cfg Sample.prog [] [])).map (fun s => (s.cpu.halted, s.log.ticks.length, s.log.instrs.map Rec.pc,
    s.log.next, (basicStats s.log).isSome)) = .ok (true, 42, [0, 1, 2, 1, 2, 1, 2, 3, 4, 5, 6], 16, true) := by decide +kernel

/-- After three ticks of the same program the statistics cannot be shown. -/
example : (run Sample.cfg 3 (init Sample.cfg Sample.prog [] [])).map (fun s => (s.log.instrs.map Rec.pc, basicStats s.log)) =
    .ok ([0, 1, 2], none) := by decide +kernel

/-! ## C72 -/

theorem foldl_plus : ∀ (ls : List LifeTime) (l : LifeTime), ls.foldl LifeTime.plus l =
    ⟨l.fetch + (ls.map (·.fetch)).sum, l.decode + (ls.map (·.decode)).sum, l.preparing + (ls.map (·.preparing)).sum,
      l.noAlu + (ls.map (·.noAlu)).sum, l.executing + (ls.map (·.executing)).sum, l.waiting + (ls.map (·.waiting)).sum,
      l.retirement + (ls.map (·.retirement)).sum⟩ := by
  intro ls
  induction ls with
  | nil => intro l; simp
  | cons x xs ih => intro l; rw [List.foldl_cons, ih]; simp [LifeTime.plus, Nat.add_assoc]

theorem total_sum : ∀ ls : List LifeTime, (accumulate ls).total = (ls.map LifeTime.total).sum := by
  intro ls
  unfold accumulate
  rw [foldl_plus]
  induction ls with
  | nil => rfl
  | cons x xs ih => simp only [LifeTime.total, List.map_cons, List.sum_cons] at ih ⊢; omega

theorem mapM_mem {α β : Type} {f : α → Option β} : ∀ {xs : List α} {ys : List β}, xs.mapM f = some ys → ∀ y ∈ ys, ∃ x ∈ xs, f x = some y := by
  intro xs
  induction xs with
  | nil => intro ys h y hy; cases h; cases hy
  | cons x xs ih =>
    intro ys h y hy
    rw [List.mapM_cons] at h
    cases hx : f x with
    | none => rw [hx] at h; cases h
    | some z =>
      rw [hx] at h
      cases hxs : xs.mapM f with
      | none => rw [hxs] at h; cases h
      | some zs =>
        rw [hxs] at h; cases h
        rcases List.mem_cons.1 hy with rfl | hy
        · exact ⟨x, by simp, hx⟩
        · obtain ⟨w, hw, e⟩ := ih hxs y hy
          exact ⟨w, List.mem_cons_of_mem _ hw, e⟩

/-- C72, in part. After a program has halted, the average life time, the average of waiting for an ALU, of executing, of waiting for
retirement and of retirement are the averages over the instructions executed. The two averages of stalls are not: what is shown as the
sum of the stalls, the ticks in the stage beyond the first of every instruction, is the sum of all ticks in the stage less one. -/
theorem C72_averages_partial (hs : Setup cfg prog data) {n : Nat} {s : Machine} (h : run cfg n (init cfg prog data inp) = .ok s)
    (hh : s.cpu.halted = true) :
    ∃ ls a, lifeTimes s.log = some ls ∧ basicStats s.log = some (s.log.ticks.length, ls.length, a) ∧ a.count = ls.length ∧
      a.lifetime = (ls.map LifeTime.total).sum ∧ a.noAlu = (ls.map (·.noAlu)).sum ∧ a.executing = (ls.map (·.executing)).sum ∧
      a.waiting = (ls.map (·.waiting)).sum ∧ a.retirement = ls.length ∧
      a.fetchStalls = BitVec.ofNat 64 (ls.map (·.fetch)).sum - 1 ∧ a.decodeStalls = BitVec.ofNat 64 (ls.map (·.decode)).sum - 1 := by
  obtain ⟨ls, h1, h2, h3⟩ := C71_shown hs h hh
  refine ⟨ls, _, h1, by rw [h2]; exact h3, h2.symm, total_sum ls, ?_, ?_, ?_, ?_, ?_, ?_⟩
  · simp [averages, accumulate, foldl_plus]
  · simp [averages, accumulate, foldl_plus]
  · simp [averages, accumulate, foldl_plus]
  · have k : ∀ l ∈ ls, l.retirement = 1 := fun l hl => by
      obtain ⟨r, hr, e⟩ := mapM_mem h1 l hl
      obtain ⟨l', _, e', _, _, _, _, _, _, _, h7⟩ := C71_life hs h hh hr
      rw [e] at e'; cases e'; exact h7
    have : (ls.map (·.retirement)).sum = ls.length := by
      clear h1 h2 h3
      induction ls with
      | nil => rfl
      | cons x xs ih =>
        have := k x (by simp)
        have := ih fun l hl => k l (List.mem_cons_of_mem _ hl)
        simp only [List.map_cons, List.sum_cons, List.length_cons]; omega
    simp [averages, accumulate, foldl_plus, this]
  · simp [averages, accumulate, foldl_plus]
  · simp [averages, accumulate, foldl_plus]

/-- The counterexample to C72: the instructions of the sample program stalled for 12 ticks in all in the fetch stage, and 22 are divided by
their number. -/
theorem C72_stalls_wrong : ∃ s ls, run Sample.cfg 42 (init Sample.cfg Sample.prog [] []) = .ok s ∧ s.cpu.halted = true ∧
    lifeTimes s.log = some ls ∧ (ls.map fun l => l.fetch - 1).sum = 12 ∧
    ∃ a, basicStats s.log = some (42, 11, a) ∧ a.count = 11 ∧ a.fetchStalls = 22 := by
  have k : (run Sample.cfg 42 (init Sample.cfg Sample.prog [] [])).map (fun s => (s.cpu.halted, (lifeTimes s.log).map fun ls => (ls.map fun l =>
      l.fetch - 1).sum, (basicStats s.log).map fun x => (x.1, x.2.1, x.2.2.count, x.2.2.fetchStalls.toNat))) = .ok (true, some 12, some (42, 11, 11, 22)) := by
    set_option synthInstance.maxSize 1000 in set_option synthInstance.maxHeartbeats 200000 in decide +kernel
  cases hr : run Sample.cfg 42 (init Sample.cfg Sample.prog [] []) with
  | error e => rw [hr] at k; cases k
  | ok s =>
    rw [hr] at k
    simp only [Except.map, Except.ok.injEq, Prod.mk.injEq, Option.map_eq_some_iff] at k
    obtain ⟨k1, ⟨ls, k2, k3⟩, ⟨⟨a, b, c⟩, k4, k5, k6, k7, k8⟩⟩ := k
    simp only at k5 k6 k7 k8
    subst k5 k6
    exact ⟨s, ls, rfl, k1, k2, k3, c, k4, k7, BitVec.eq_of_toNat_eq k8⟩

end Stats
end T86
