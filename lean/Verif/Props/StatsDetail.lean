import Verif.Model.StatsDetail
import Verif.Spec.Kinds
import Verif.Props.Stats
import Mathlib.Data.List.Induction

/-! # C77: the statistics by kind of instruction -/

namespace T86
namespace Stats
open Isa

variable {cfg : Cfg} {prog : List Instr} {data : List Word} {inp : List (BitVec 8)}

/-- The table after some instructions: each signature once, with the sum over the instructions that have it. -/
theorem enter_all (xs : List (Signature × LifeTime)) :
    ((xs.foldl (fun t x => enter x.1 x.2 t) []).map Prod.fst).Nodup ∧
    (∀ k, k ∈ (xs.foldl (fun t x => enter x.1 x.2 t) []).map Prod.fst ↔ k ∈ xs.map Prod.fst) ∧
    ∀ e ∈ xs.foldl (fun t x => enter x.1 x.2 t) [],
      e.2.1 = accumulate ((xs.filter (·.1 = e.1)).map Prod.snd) ∧ e.2.2 = (xs.filter (·.1 = e.1)).length := by
  induction xs using List.reverseRecOn with
  | nil => simp
  | append_singleton xs x ih =>
    rw [List.foldl_append]
    simp only [List.foldl_cons, List.foldl_nil]
    generalize xs.foldl (fun t x => enter x.1 x.2 t) [] = T at ih
    obtain ⟨h1, h2, h3⟩ := ih
    obtain ⟨k, l⟩ := x
    have keys : ∀ T : List (Signature × LifeTime × Nat), (enter k l T).map Prod.fst =
        if k ∈ T.map Prod.fst then T.map Prod.fst else T.map Prod.fst ++ [k] := by
      intro T
      induction T with
      | nil => rfl
      | cons e es ih =>
        rw [enter]
        by_cases he : e.1 = k
        · simp [he]
        · rw [if_neg he, List.map_cons, ih, List.map_cons]
          have : (k ∈ e.1 :: es.map Prod.fst) ↔ k ∈ es.map Prod.fst := by
            rw [List.mem_cons]; exact ⟨fun h => h.resolve_left fun h => he h.symm, .inr⟩
          by_cases hk : k ∈ es.map Prod.fst
          · rw [if_pos hk, if_pos (this.2 hk)]
          · rw [if_neg hk, if_neg fun h => hk (this.1 h)]; rfl
    have acc : ∀ (ls : List LifeTime), (accumulate ls).plus l = accumulate (ls ++ [l]) := by
      intro ls; simp [accumulate, List.foldl_append]
    have other : ∀ T : List (Signature × LifeTime × Nat), (T.map Prod.fst).Nodup → ∀ e ∈ enter k l T,
        (e.1 ≠ k ∧ e ∈ T) ∨ (e.1 = k ∧ ∃ e' ∈ T, e'.1 = k ∧ e.2 = (e'.2.1.plus l, e'.2.2 + 1)) ∨
        (e.1 = k ∧ k ∉ T.map Prod.fst ∧ e.2 = (LifeTime.plus {} l, 1)) := by
      intro T
      induction T with
      | nil =>
        intro _ e he
        rw [enter, List.mem_singleton] at he
        subst he
        exact .inr (.inr ⟨rfl, by simp, rfl⟩)
      | cons f es ih =>
        intro hn e he
        rw [List.map_cons, List.nodup_cons] at hn
        rw [enter] at he
        by_cases hf : f.1 = k
        · rw [if_pos hf] at he
          rcases List.mem_cons.1 he with rfl | he
          · exact .inr (.inl ⟨rfl, f, by simp, hf, rfl⟩)
          · refine .inl ⟨fun h => hn.1 ?_, List.mem_cons_of_mem _ he⟩
            rw [hf, ← h]
            exact List.mem_map.2 ⟨e, he, rfl⟩
        · rw [if_neg hf] at he
          rcases List.mem_cons.1 he with rfl | he
          · exact .inl ⟨hf, by simp⟩
          · rcases ih hn.2 e he with ⟨a, b⟩ | ⟨a, e', b, c⟩ | ⟨a, b, c⟩
            · exact .inl ⟨a, List.mem_cons_of_mem _ b⟩
            · exact .inr (.inl ⟨a, e', List.mem_cons_of_mem _ b, c⟩)
            · refine .inr (.inr ⟨a, ?_, c⟩)
              rw [List.map_cons, List.mem_cons]
              rintro (h | h)
              · exact hf h.symm
              · exact b h
    refine ⟨?_, ?_, ?_⟩
    · rw [keys]
      split
      · exact h1
      · next hk => exact List.nodup_append.2 ⟨h1, by simp, by rintro a ha b hb rfl; simp at hb; subst hb; exact hk ha⟩
    · intro k'
      rw [keys]
      split
      · next hk =>
        rw [h2, List.map_append, List.mem_append]
        refine ⟨.inl, ?_⟩
        rintro (h | h)
        · exact h
        · simp at h; subst h; exact (h2 _).1 hk
      · rw [List.mem_append, h2, List.map_append, List.mem_append]; rfl
    · intro e he
      rw [List.filter_append]
      rcases other T h1 e he with ⟨a, b⟩ | ⟨a, e', b, c, d⟩ | ⟨a, b, c⟩
      · obtain ⟨k1, k2⟩ := h3 e b
        have : ([(k, l)] : List (Signature × LifeTime)).filter (·.1 = e.1) = [] := by simp [Ne.symm a]
        rw [this, List.append_nil]
        exact ⟨k1, k2⟩
      · obtain ⟨k1, k2⟩ := h3 e' b
        have : ([(k, l)] : List (Signature × LifeTime)).filter (·.1 = e.1) = [(k, l)] := by simp [a]
        rw [this, d, a]
        rw [c] at k1 k2
        rw [k1, k2]
        refine ⟨?_, by simp⟩
        rw [acc, List.map_append]; rfl
      · have h0 : xs.filter (·.1 = k) = [] := by
          rw [List.filter_eq_nil_iff]
          intro y hy hk
          refine b ((h2 k).2 (List.mem_map.2 ⟨y, hy, by simpa using hk⟩))
        have : ([(k, l)] : List (Signature × LifeTime)).filter (·.1 = e.1) = [(k, l)] := by simp [a]
        rw [this, c, a, h0]
        exact ⟨rfl, rfl⟩

theorem mapM_filter {α β : Type} {f : α → Option β} {p : α → Bool} : ∀ {xs : List α} {ys : List β}, xs.mapM f = some ys →
    (xs.filter p).mapM f = some (((xs.zip ys).filter fun x => p x.1).map Prod.snd) := by
  intro xs
  induction xs with
  | nil => intro ys h; rfl
  | cons x xs ih =>
    intro ys h
    rw [List.mapM_cons] at h
    cases hx : f x with
    | none => rw [hx] at h; cases h
    | some z =>
      rw [hx] at h
      cases hxs : xs.mapM f with
      | none => rw [hxs] at h; cases h
      | some zs =>
        rw [hxs] at h; cases h
        rw [List.filter_cons, List.zip_cons_cons, List.filter_cons]
        cases hp : p x with
        | false => simp only [Bool.false_eq_true, if_false]; exact ih hxs
        | true =>
          simp only [if_true, List.mapM_cons, hx, ih hxs, List.map_cons]; rfl

/-- The ticks in a stage, of which every instruction spends at least one there, less one. -/
theorem stalls_eq {f : LifeTime → Nat} : ∀ {ls : List LifeTime}, (∀ l ∈ ls, 1 ≤ f l) → ls ≠ [] →
    BitVec.ofNat 64 (ls.map f).sum - 1 = BitVec.ofNat 64 ((ls.map fun l => f l - 1).sum + (ls.length - 1)) := by
  intro ls h hn
  have k : (ls.map f).sum = (ls.map fun l => f l - 1).sum + ls.length := by
    clear hn
    induction ls with
    | nil => rfl
    | cons x xs ih =>
      have := h x (by simp)
      have := ih fun l hl => h l (List.mem_cons_of_mem _ hl)
      simp only [List.map_cons, List.sum_cons, List.length_cons]; omega
  obtain ⟨m, hm⟩ : ∃ m, ls.length = m + 1 := ⟨ls.length - 1, by have := List.length_pos_iff.2 hn; omega⟩
  rw [k, hm, ← Nat.add_assoc, BitVec.ofNat_add _ 1]
  simp only [Nat.add_sub_cancel]
  exact BitVec.add_sub_cancel _ _

/-- What the averages of stalls of C72 are the averages of: to the ticks that the instructions executed spent in the stage beyond the
first of each, one is added for every instruction but one. -/
theorem C72_stalls_shown (hs : Setup cfg prog data) {n : Nat} {s : Machine} (h : run cfg n (init cfg prog data inp) = .ok s)
    (hh : s.cpu.halted = true) :
    ∃ ls a, lifeTimes s.log = some ls ∧ basicStats s.log = some (s.log.ticks.length, ls.length, a) ∧
      (ls ≠ [] → a.fetchStalls = BitVec.ofNat 64 ((ls.map fun l => l.fetch - 1).sum + (ls.length - 1)) ∧
        a.decodeStalls = BitVec.ofNat 64 ((ls.map fun l => l.decode - 1).sum + (ls.length - 1))) := by
  obtain ⟨ls, a, h1, h2, _, _, _, _, _, _, h3, h4⟩ := C72_averages_partial hs h hh
  refine ⟨ls, a, h1, h2, fun hn => ?_⟩
  have k : ∀ l ∈ ls, 1 ≤ l.fetch ∧ 1 ≤ l.decode := fun l hl => by
    obtain ⟨r, hr, e⟩ := mapM_mem h1 l hl
    obtain ⟨l', _, e', _, _, _, k1, k2, _⟩ := C71_life hs h hh hr
    rw [e] at e'; cases e'; exact ⟨k1, k2⟩
  exact ⟨h3.trans (stalls_eq (fun l hl => (k l hl).1) hn), h4.trans (stalls_eq (fun l hl => (k l hl).2) hn)⟩

/-- C77, in part. After a program has halted, there is one group of averages for each kind of instruction that was executed. It
counts the instructions of that kind that were executed, and the averages of the life time, of waiting for an ALU, of executing, of
waiting for retirement and of retirement are those over the life times of these instructions. As in C72 the averages of stalls are
not: one tick is added for every instruction of the kind but one. -/
theorem C77_detailed_partial (hs : Setup cfg prog data) {n : Nat} {s : Machine} (h : run cfg n (init cfg prog data inp) = .ok s)
    (hh : s.cpu.halted = true) :
    ∃ table, detailedStats s.log = some table ∧
      (table.map Prod.fst).Nodup ∧ (∀ k, k ∈ table.map Prod.fst ↔ ∃ r ∈ s.log.instrs, signature r.instr = k) ∧
      ∀ k a, (k, a) ∈ table → ∃ ls,
        (s.log.instrs.filter fun r => signature r.instr = k).mapM (fun r => lifeTime s.log.ticks r.id) = some ls ∧
        a.count = (s.log.instrs.filter fun r => signature r.instr = k).length ∧ 1 ≤ a.count ∧
        a.lifetime = (ls.map LifeTime.total).sum ∧ a.noAlu = (ls.map (·.noAlu)).sum ∧
        a.executing = (ls.map (·.executing)).sum ∧ a.waiting = (ls.map (·.waiting)).sum ∧ a.retirement = a.count ∧
        a.fetchStalls = BitVec.ofNat 64 ((ls.map fun l => l.fetch - 1).sum + (a.count - 1)) ∧
        a.decodeStalls = BitVec.ofNat 64 ((ls.map fun l => l.decode - 1).sum + (a.count - 1)) := by
  obtain ⟨ls, h1, h2, _⟩ := C71_shown hs h hh
  have hret : ∀ l ∈ ls, l.retirement = 1 ∧ 1 ≤ l.fetch ∧ 1 ≤ l.decode := fun l hl => by
    obtain ⟨r, hr, e⟩ := mapM_mem h1 l hl
    obtain ⟨l', _, e', _, _, _, k1, k2, _, _, h7⟩ := C71_life hs h hh hr
    rw [e] at e'; cases e'; exact ⟨h7, k1, k2⟩
  obtain ⟨k1, k2, k3⟩ := enter_all ((s.log.instrs.zip ls).map fun x => (signature x.1.instr, x.2))
  have hz : (s.log.instrs.zip ls).map Prod.fst = s.log.instrs := by rw [List.map_fst_zip]; omega
  rw [List.foldl_map] at k1 k2 k3
  have keys : ∀ k, k ∈ ((((s.log.instrs.zip ls).foldl (fun t x => enter (signature x.1.instr) x.2 t) [])).map
      fun e => (e.1, averages e.2.1 e.2.2)).map Prod.fst ↔ ∃ r ∈ s.log.instrs, signature r.instr = k := by
    intro k
    rw [List.map_map, show (Prod.fst ∘ fun e : Signature × LifeTime × Nat => (e.1, averages e.2.1 e.2.2)) = Prod.fst from rfl, k2]
    rw [List.map_map, List.mem_map]
    constructor
    · rintro ⟨x, hx, rfl⟩
      exact ⟨x.1, (List.of_mem_zip (a := x.1) (b := x.2) hx).1, rfl⟩
    · rintro ⟨r, hr, rfl⟩
      rw [← hz] at hr
      obtain ⟨x, hx, rfl⟩ := List.mem_map.1 hr
      exact ⟨x, hx, rfl⟩
  refine ⟨_, by unfold detailedStats; rw [h1]; rfl, ?_, keys, ?_⟩
  · rw [List.map_map]; exact k1
  · intro k a ha
    have hk := (keys k).1 (List.mem_map.2 ⟨_, ha, rfl⟩)
    obtain ⟨e, he, hea⟩ := List.mem_map.1 ha
    cases hea
    obtain ⟨j1, j2⟩ := k3 e he
    have hm := mapM_filter (p := fun r => signature r.instr = e.1) h1
    have hl : (((s.log.instrs.zip ls).map fun x => (signature x.1.instr, x.2)).filter (·.1 = e.1)).map Prod.snd =
        ((s.log.instrs.zip ls).filter fun x => signature x.1.instr = e.1).map Prod.snd := by
      rw [List.filter_map, List.map_map]; rfl
    have hc : e.2.2 = (s.log.instrs.filter fun r => signature r.instr = e.1).length := by
      rw [j2]
      conv_rhs => rw [← hz]
      rw [List.filter_map, List.filter_map, List.length_map, List.length_map]; rfl
    have hc' : e.2.2 = (((s.log.instrs.zip ls).filter fun x => signature x.1.instr = e.1).map Prod.snd).length := by
      rw [j2, ← hl, List.length_map]
    rw [hl] at j1
    have hin : ∀ l ∈ ((s.log.instrs.zip ls).filter fun x => signature x.1.instr = e.1).map Prod.snd, l ∈ ls := by
      intro l hl
      obtain ⟨x, hx, rfl⟩ := List.mem_map.1 hl
      exact (List.of_mem_zip (a := x.1) (b := x.2) (List.mem_of_mem_filter hx)).2
    refine ⟨_, hm, hc, ?_, ?_⟩
    · obtain ⟨r, hr, hrk⟩ := hk
      show 1 ≤ e.2.2
      rw [hc]
      exact List.length_pos_of_mem (List.mem_filter.2 ⟨hr, by simpa using hrk⟩)
    have hpos : 1 ≤ e.2.2 := by
      obtain ⟨r, hr, hrk⟩ := hk
      rw [hc]
      exact List.length_pos_of_mem (List.mem_filter.2 ⟨hr, by simpa using hrk⟩)
    generalize ((s.log.instrs.zip ls).filter fun x => signature x.1.instr = e.1).map Prod.snd = L at *
    have hne : L ≠ [] := by rintro rfl; simp at hc'; omega
    have hr : (L.map (·.retirement)).sum = L.length := by
      have : ∀ l ∈ L, l.retirement = 1 := fun l hl => (hret l (hin l hl)).1
      clear hne hin hm hc' j1 hl
      induction L with
      | nil => rfl
      | cons x xs ih =>
        have h1 := this x (by simp)
        have h2 := ih fun l hl => this l (List.mem_cons_of_mem _ hl)
        simp only [List.map_cons, List.sum_cons, List.length_cons]; omega
    refine ⟨?_, ?_, ?_, ?_, ?_, ?_, ?_⟩
    · show e.2.1.total = _
      rw [j1]; exact total_sum _
    · simp [averages, j1, accumulate, foldl_plus]
    · simp [averages, j1, accumulate, foldl_plus]
    · simp [averages, j1, accumulate, foldl_plus]
    · show e.2.1.retirement = e.2.2
      rw [hc', j1, ← hr]; simp [accumulate, foldl_plus]
    · show _ = BitVec.ofNat 64 (_ + (e.2.2 - 1))
      rw [hc', ← stalls_eq (fun l hl => (hret l (hin l hl)).2.1) hne]
      simp [averages, j1, accumulate, foldl_plus]
    · show _ = BitVec.ofNat 64 (_ + (e.2.2 - 1))
      rw [hc', ← stalls_eq (fun l hl => (hret l (hin l hl)).2.2) hne]
      simp [averages, j1, accumulate, foldl_plus]

/-- The groups together count every instruction executed. -/
theorem C77_all (hs : Setup cfg prog data) {n : Nat} {s : Machine} (h : run cfg n (init cfg prog data inp) = .ok s)
    (hh : s.cpu.halted = true) :
    ∃ table, detailedStats s.log = some table ∧ (table.map fun e => e.2.count).sum = s.log.instrs.length := by
  obtain ⟨table, h1, h2, h3, h4⟩ := C77_detailed_partial hs h hh
  refine ⟨table, h1, ?_⟩
  have k : ∀ (t : List (Signature × Averages)) (rs : List Rec), (t.map Prod.fst).Nodup →
      (∀ r ∈ rs, signature r.instr ∈ t.map Prod.fst) →
      (∀ e ∈ t, e.2.count = (rs.filter fun r => signature r.instr = e.1).length) → (t.map fun e => e.2.count).sum = rs.length := by
    intro t
    induction t with
    | nil =>
      intro rs _ hr _
      cases rs with
      | nil => rfl
      | cons r rs => exact absurd (hr r (by simp)) (by simp)
    | cons e es ih =>
      intro rs hn hr hc
      rw [List.map_cons, List.nodup_cons] at hn
      have := ih (rs.filter fun r => !decide (signature r.instr = e.1)) hn.2 (fun r hr' => by
          rw [List.mem_filter] at hr'
          have := hr r hr'.1
          rw [List.map_cons, List.mem_cons] at this
          exact this.resolve_left (by simpa using hr'.2)) (fun f hf => by
          rw [hc f (List.mem_cons_of_mem _ hf), List.filter_filter]
          congr 1
          apply List.filter_congr
          intro r _
          by_cases hk : signature r.instr = f.1
          · have : signature r.instr ≠ e.1 := fun h => hn.1 (List.mem_map.2 ⟨f, hf, by rw [← hk, h]⟩)
            simp [hk, hk ▸ this]
          · simp [hk])
      rw [List.map_cons, List.sum_cons, this, hc e (by simp)]
      have := List.length_eq_length_filter_add (l := rs) fun r => decide (signature r.instr = e.1)
      omega
  refine k table _ h2 (fun r hr => (h3 _).2 ⟨r, hr, rfl⟩) fun e he => ?_
  obtain ⟨_, _, hc, _⟩ := h4 e.1 e.2 he
  exact hc

/-- The forms of expressions over registers, numbered. -/
def exprCode : RegExpr → Fin 7
  | .reg _ => 0
  | .regImm .. => 1
  | .regReg .. => 2
  | .regScaled .. => 3
  | .regImmReg .. => 4
  | .regRegScaled .. => 5
  | .regImmRegScaled .. => 6

def exprText (n : Fin 7) : Str :=
  ["Reg".toList, "Reg + Imm".toList, "Reg + Reg".toList, "Reg * Imm".toList, "Reg + Imm + Reg".toList, "Reg + Reg * Imm".toList,
    "Reg + Imm + Reg * Imm".toList].get n

theorem exprKind_text (e : RegExpr) : exprKind e = exprText (exprCode e) := by cases e <;> rfl

theorem exprKind_iff (e e' : RegExpr) : exprKind e = exprKind e' ↔ Kinds.SameExpr e e' := by
  have k : ∀ n m : Fin 7, exprText n = exprText m → n = m := by decide
  constructor
  · intro h
    rw [exprKind_text, exprKind_text] at h
    have := k _ _ h
    cases e <;> cases e' <;> first | constructor | cases this
  · intro h; cases h <;> rfl

/-- The forms of operands, numbered. -/
def kindCode : Operand → Fin 4 ⊕ (Bool × Fin 7)
  | .imm _ => .inl 0
  | .fimm _ => .inl 1
  | .freg _ => .inl 2
  | .memImm _ => .inl 3
  | .val e => .inr (false, exprCode e)
  | .mem e => .inr (true, exprCode e)

def kindText : Fin 4 ⊕ (Bool × Fin 7) → Str
  | .inl n => ["Imm".toList, "FImm".toList, "FReg".toList, "[Imm]".toList].get n
  | .inr (false, n) => exprText n
  | .inr (true, n) => '[' :: exprText n ++ "]".toList

theorem kind_text (o : Operand) : kind o = kindText (kindCode o) := by
  cases o <;> first | rfl | simp only [kind, kindCode, kindText, exprKind_text]

theorem kind_iff (a b : Operand) : kind a = kind b ↔ Kinds.Same a b := by
  have k1 : ∀ n m : Fin 4, kindText (.inl n) = kindText (.inl m) → n = m := by decide
  have k2 : ∀ (n : Fin 4) (x : Bool) (m : Fin 7), kindText (.inl n) ≠ kindText (.inr (x, m)) := by decide
  have k3 : ∀ (x y : Bool) (n m : Fin 7), kindText (.inr (x, n)) = kindText (.inr (y, m)) → x = y ∧ n = m := by decide
  constructor
  · intro h
    rw [kind_text, kind_text] at h
    cases a <;> cases b <;> first
      | (constructor; done)
      | exact absurd (k1 _ _ h) (by decide)
      | exact absurd h (k2 _ _ _)
      | exact absurd h.symm (k2 _ _ _)
      | exact absurd (k3 _ _ _ _ h).1 (by decide)
      | (refine .val ((exprKind_iff _ _).1 ?_); rw [exprKind_text, exprKind_text, (k3 _ _ _ _ h).2])
      | (refine .mem ((exprKind_iff _ _).1 ?_); rw [exprKind_text, exprKind_text, (k3 _ _ _ _ h).2])
  · intro h
    cases h <;> first | rfl | (rename_i h; simp only [kind]; rw [(exprKind_iff _ _).2 h])

/-- C77, what a kind is. Two instructions are of the same kind exactly when they have the same name and operands of the same forms,
whatever the registers and numbers are. -/
theorem C77_kinds (i j : Instr) : signature i = signature j ↔ i.name = j.name ∧ Kinds.SameAll i.shown j.shown := by
  have k : ∀ l l' : List Operand, l.map kind = l'.map kind ↔ Kinds.SameAll l l' := by
    intro l
    induction l with
    | nil =>
      intro l'
      cases l' with
      | nil => exact ⟨fun _ => .nil, fun _ => rfl⟩
      | cons => exact ⟨fun h => (by cases h), fun h => (by cases h)⟩
    | cons a l ih =>
      intro l'
      cases l' with
      | nil => exact ⟨fun h => (by cases h), fun h => (by cases h)⟩
      | cons b l' =>
        rw [List.map_cons, List.map_cons, List.cons.injEq, kind_iff, ih]
        exact ⟨fun h => .cons h.1 h.2, fun h => by cases h with | cons h1 h2 => exact ⟨h1, h2⟩⟩
  unfold signature
  rw [Prod.mk.injEq, k]

theorem name_plain (i : Instr) : ' ' ∉ i.name := by
  cases i <;> first
    | (simp only [Instr.name]; decide)
    | (rename_i o _; simp only [Instr.name]; cases o <;> decide)
    | (rename_i o _ _; simp only [Instr.name]; cases o <;> decide)
    | (rename_i o _ _ _ _; simp only [Instr.name]; cases o <;> decide)

theorem kind_plain (o : Operand) : ',' ∉ kind o := by
  have k : ∀ c, ',' ∉ kindText c := by
    rintro (n | ⟨x, n⟩)
    · revert n; decide
    · revert x n; decide
  rw [kind_text]; exact k _

theorem split_at {c : Char} : ∀ {a b x y : Str}, c ∉ a → c ∉ b → a ++ c :: x = b ++ c :: y → a = b ∧ x = y := by
  intro a
  induction a with
  | nil =>
    intro b x y _ hb h
    cases b with
    | nil => exact ⟨rfl, (List.cons.inj h).2⟩
    | cons d b => exact absurd (List.cons.inj h).1 fun e => hb (by simp [e])
  | cons d a ih =>
    intro b x y ha hb h
    cases b with
    | nil => exact absurd (List.cons.inj h).1 fun e => ha (by simp [e])
    | cons e b =>
      obtain ⟨h1, h2⟩ := List.cons.inj h
      obtain ⟨k1, k2⟩ := ih (fun h => ha (List.mem_cons_of_mem _ h)) (fun h => hb (List.mem_cons_of_mem _ h)) h2
      exact ⟨by rw [h1, k1], k2⟩

theorem kinds_print : ∀ {k k' : Str} {ks ks' : List Str}, ',' ∉ k → ',' ∉ k' → (∀ x ∈ ks, ',' ∉ x) → (∀ x ∈ ks', ',' ∉ x) →
    (k ++ ks.flatMap fun k => ", ".toList ++ k) = (k' ++ ks'.flatMap fun k => ", ".toList ++ k) → k = k' ∧ ks = ks' := by
  intro k k' ks
  induction ks generalizing k k' with
  | nil =>
    intro ks' h1 h2 h3 h4 h
    cases ks' with
    | nil => simpa using h
    | cons x xs =>
      rw [List.flatMap_nil, List.append_nil] at h
      exact absurd (h ▸ h1) (by simp)
  | cons z zs ih =>
    intro ks' h1 h2 h3 h4 h
    cases ks' with
    | nil =>
      rw [List.flatMap_nil, List.append_nil] at h
      exact absurd (h ▸ h2) (by simp)
    | cons x xs =>
      rw [List.flatMap_cons, List.flatMap_cons] at h
      obtain ⟨e1, e2⟩ := split_at (c := ',') h1 h2 h
      have e3 := (List.cons.inj e2).2
      obtain ⟨e4, e5⟩ := ih (h3 z (by simp)) (h4 x (by simp)) (fun y hy => h3 y (List.mem_cons_of_mem _ hy))
        (fun y hy => h4 y (List.mem_cons_of_mem _ hy)) e3
      exact ⟨e1, by rw [e4, e5]⟩

/-- C77, the headings: two kinds of instructions are never shown under the same heading. -/
theorem C77_headings (i j : Instr) : (signature i).print = (signature j).print ↔ signature i = signature j := by
  refine ⟨fun h => ?_, fun h => by rw [h]⟩
  unfold Signature.print signature at *
  simp only at h
  cases hi : i.shown with
  | nil =>
    cases hj : j.shown with
    | nil =>
      rw [hi, hj] at h
      simpa using h
    | cons b bs =>
      rw [hi, hj] at h
      simp only [List.map_nil, List.map_cons, List.append_nil] at h
      exact absurd (h ▸ name_plain i) (by simp)
  | cons a as =>
    cases hj : j.shown with
    | nil =>
      rw [hi, hj] at h
      simp only [List.map_nil, List.map_cons, List.append_nil] at h
      exact absurd (h ▸ name_plain j) (by simp)
    | cons b bs =>
      rw [hi, hj] at h
      simp only [List.map_cons] at h
      rw [show (" ".toList : Str) = [' '] from rfl, List.append_assoc, List.append_assoc] at h
      obtain ⟨e1, e2⟩ := split_at (c := ' ') (name_plain i) (name_plain j) h
      obtain ⟨e3, e4⟩ := kinds_print (kind_plain a) (kind_plain b)
        (fun x hx => by obtain ⟨o, _, rfl⟩ := List.mem_map.1 hx; exact kind_plain o)
        (fun x hx => by obtain ⟨o, _, rfl⟩ := List.mem_map.1 hx; exact kind_plain o) e2
      rw [e1, List.map_cons, List.map_cons, e3, e4]

/-- The non-vacuity of C77_kinds. -/
example : signature (.mov (.val (.reg (.gp 0))) (.memImm 3)) = signature (.mov (.val (.reg .sp)) (.memImm 77)) ∧
    signature (.mov (.val (.reg (.gp 0))) (.memImm 3)) ≠ signature (.mov (.val (.reg (.gp 0))) (.imm 3)) := by decide

/-- The non-vacuity of C77: what is shown for the sample program. -/
example : (run Sample.cfg 42 (init Sample.cfg Sample.prog [] [])).map (fun s => (detailedStats s.log).map fun t => t.map fun e =>
      (e.1.print, e.2.count, e.2.lifetime)) =
    .ok (some [("MOV Reg, Imm".toList, 1, 6), ("ADD Reg, Reg, Reg".toList, 3, 38), ("LOOP Reg, Imm".toList, 3, 41),
      ("MOV [Reg + Imm], Reg".toList, 1, 8), ("MOV Reg, [Imm]".toList, 1, 11), ("PUTNUM Reg".toList, 1, 14),
      ("HALT".toList, 1, 13)]) := by
  set_option synthInstance.maxSize 1000 in set_option synthInstance.maxHeartbeats 200000 in decide +kernel

/-- The counterexample to the averages of stalls: the three instructions `ADD` of the sample program waited 3 ticks in the fetch stage
beyond the first, and 5 are divided by 3. -/
theorem C77_stalls_wrong : ∃ s, run Sample.cfg 42 (init Sample.cfg Sample.prog [] []) = .ok s ∧ s.cpu.halted = true ∧
    ∃ ls, (s.log.instrs.filter fun r => signature r.instr = ("ADD".toList, ["Reg".toList, "Reg".toList, "Reg".toList])).mapM
        (fun r => lifeTime s.log.ticks r.id) = some ls ∧ (ls.map fun l => l.fetch - 1).sum = 3 ∧
      ∃ table a, detailedStats s.log = some table ∧ (("ADD".toList, ["Reg".toList, "Reg".toList, "Reg".toList]), a) ∈ table ∧
        a.count = 3 ∧ a.fetchStalls = 5 := by
  have k : (run Sample.cfg 42 (init Sample.cfg Sample.prog [] [])).map (fun s => (s.cpu.halted,
      ((s.log.instrs.filter fun r => signature r.instr = ("ADD".toList, ["Reg".toList, "Reg".toList, "Reg".toList])).mapM
        (fun r => lifeTime s.log.ticks r.id)).map (fun ls => (ls.map fun l => l.fetch - 1).sum),
      (detailedStats s.log).map fun t => t[1]?.map fun e => (e.1, e.2.count, e.2.fetchStalls.toNat))) =
      .ok (true, some 3, some (some (("ADD".toList, ["Reg".toList, "Reg".toList, "Reg".toList]), 3, 5))) := by
    set_option synthInstance.maxSize 1000 in set_option synthInstance.maxHeartbeats 200000 in decide +kernel
  cases hr : run Sample.cfg 42 (init Sample.cfg Sample.prog [] []) with
  | error e => rw [hr] at k; cases k
  | ok s =>
    rw [hr] at k
    simp only [Except.map, Except.ok.injEq, Prod.mk.injEq, Option.map_eq_some_iff] at k
    obtain ⟨k1, ⟨ls, k2, k3⟩, ⟨t, k4, ⟨⟨a, b⟩, k5, k6, k7, k8⟩⟩⟩ := k
    simp only at k6 k7 k8
    subst k6
    exact ⟨s, rfl, k1, ls, k2, k3, t, b, k4, List.mem_of_getElem? k5, k7, BitVec.eq_of_toNat_eq k8⟩

end Stats
end T86
