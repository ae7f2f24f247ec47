import Verif.Model.Position
import Verif.Spec.Position
import Verif.Lemmas.InfoStops
import Mathlib.Data.List.Induction

/-! # The counters of the lexer -/

set_option linter.unusedSimpArgs false

namespace T86
namespace Position
open Dbg Lexer Str

variable {stod : Str → Except Err Word} {i : Bool}

theorem place_eq (w : Str) : place w = ((w.foldl step (0, 0)).1 + 1, (w.foldl step (0, 0)).2 + 1) := by
  induction w using List.reverseRecOn with
  | nil => rfl
  | append_singleton w x ih =>
    rw [List.foldl_append]
    unfold place at ih ⊢
    obtain ⟨h1, h2⟩ := Prod.mk.inj ih
    simp only [List.foldl_cons, List.foldl_nil, step]
    by_cases hx : x = '\n'
    · subst hx
      rw [if_pos rfl]
      simp [List.count_append] at h1 ⊢
      omega
    · rw [if_neg hx]
      simp [List.count_append, hx] at h1 h2 ⊢
      omega

theorem getWhile_eq (p : Char → Bool) : ∀ (s : Str) (q : Nat × Nat),
    getWhile p q s = (s.takeWhile p, ⟨(s.takeWhile p).foldl step q, s.dropWhile p⟩)
  | [], _ => rfl
  | x :: s, q => by
    rw [getWhile]
    by_cases h : p x = true
    · rw [if_pos h, getWhile_eq p s]
      simp [List.takeWhile_cons, List.dropWhile_cons, h]
    · simp [List.takeWhile_cons, List.dropWhile_cons, h]

theorem skipAt_eq (i : Bool) : ∀ (s : Str) (b : Bool) (q : Nat × Nat), ∃ g, s = g ++ skip i b s ∧
    skipAt i b q s = ⟨g.foldl step q, skip i b s⟩
  | [], b, q => ⟨[], by cases b <;> exact ⟨rfl, rfl⟩⟩
  | x :: s, true, q => by
    rw [skip, skipAt]
    split
    · obtain ⟨g, h1, h2⟩ := skipAt_eq i s false (step q x)
      exact ⟨x :: g, by rw [List.cons_append, ← h1], h2⟩
    · obtain ⟨g, h1, h2⟩ := skipAt_eq i s true (step q x)
      exact ⟨x :: g, by rw [List.cons_append, ← h1], h2⟩
  | x :: s, false, q => by
    rw [skip, skipAt]
    split
    · obtain ⟨g, h1, h2⟩ := skipAt_eq i s true (step q x)
      exact ⟨x :: g, by rw [List.cons_append, ← h1], h2⟩
    · split
      · obtain ⟨g, h1, h2⟩ := skipAt_eq i s false (step q x)
        exact ⟨x :: g, by rw [List.cons_append, ← h1], h2⟩
      · split
        · obtain ⟨g, h1, h2⟩ := skipAt_eq i s false (step q x)
          exact ⟨x :: g, by rw [List.cons_append, ← h1], h2⟩
        · exact ⟨[], rfl, rfl⟩

theorem stringAt_eq : ∀ (acc : Str) (q : Nat × Nat) (s : Str),
    (∀ t c, stringAt acc q s = some (t, c) → stringTail acc s = .ok (t, c.rest) ∧
      ∃ w, s = w ++ c.rest ∧ c.pos = w.foldl step q) ∧
    (stringAt acc q s = none → stringTail acc s = .error .parser) := by
  intro acc q s
  induction acc, q, s using stringAt.induct with
  | case1 acc q => exact ⟨fun t c h => (by simp [stringAt] at h), fun _ => (by simp [stringTail])⟩
  | case2 acc q s =>
    refine ⟨fun t c h => ?_, fun h => ?_⟩
    · rw [stringAt] at h
      cases h
      exact ⟨by rw [stringTail], ['"'], rfl, rfl⟩
    · rw [stringAt] at h; cases h
  | case3 acc q => exact ⟨fun t c h => (by simp [stringAt] at h), fun _ => (by simp [stringTail])⟩
  | case4 acc q x s d hd ih =>
    have e : stringAt acc q ('\\' :: x :: s) = stringAt (acc ++ [d]) (step (step q '\\') x) s := by rw [stringAt]; simp only [hd]
    have e' : stringTail acc ('\\' :: x :: s) = stringTail (acc ++ [d]) s := by rw [stringTail]; simp only [hd]
    rw [e, e']
    refine ⟨fun t c h => ?_, ih.2⟩
    obtain ⟨h1, w, h2, h3⟩ := ih.1 t c h
    exact ⟨h1, '\\' :: x :: w, by rw [h2]; rfl, h3⟩
  | case5 acc q x s hd =>
    have e : stringAt acc q ('\\' :: x :: s) = none := by rw [stringAt]; simp only [hd]
    have e' : stringTail acc ('\\' :: x :: s) = .error .parser := by rw [stringTail]; simp only [hd]
    rw [e, e']
    exact ⟨fun t c h => (by cases h), fun _ => rfl⟩
  | case6 acc q x s h1 h2 ih =>
    have e : stringAt acc q (x :: s) = stringAt (acc ++ [x]) (step q x) s := by rw [stringAt] <;> assumption
    have e' : stringTail acc (x :: s) = stringTail (acc ++ [x]) s := by rw [stringTail] <;> assumption
    rw [e, e']
    refine ⟨fun t c h => ?_, ih.2⟩
    obtain ⟨h1, w, h2, h3⟩ := ih.1 t c h
    exact ⟨h1, x :: w, by rw [h2]; rfl, h3⟩

/-- The next token, its beginning and where the lexer is then. -/
theorem lexAt_ok {c c' : Cursor} {t : Tok} {p : Nat × Nat} (h : lexAt stod i c = .ok (t, p, c')) :
    lex stod i c.rest = .ok (t, c'.rest) ∧ ∃ g w, c.rest = g ++ skip i false c.rest ∧ skip i false c.rest = w ++ c'.rest ∧
      p = g.foldl step c.pos ∧ c'.pos = (g ++ w).foldl step c.pos := by
  obtain ⟨g, hg, hs⟩ := skipAt_eq i c.rest false c.pos
  unfold lexAt at h
  unfold lex
  rw [hs] at h
  simp only at h
  have key : ∀ {w : Str} {q : Nat × Nat} , q = w.foldl step (g.foldl step c.pos) → q = (g ++ w).foldl step c.pos := fun h => by
    rw [List.foldl_append]; exact h
  cases hk : skip i false c.rest with
  | nil =>
    rw [hk] at h hg
    simp only at h ⊢
    cases h
    exact ⟨rfl, g, [], hg, rfl, rfl, by simp⟩
  | cons x s =>
    rw [hk] at h hg
    simp only at h ⊢
    cases h1 : single x with
    | some t1 =>
      rw [h1] at h
      cases h
      exact ⟨rfl, g, [x], hg, rfl, rfl, key rfl⟩
    | none =>
      rw [h1] at h
      simp only at h ⊢
      cases h2 : double x with
      | some tl =>
        obtain ⟨t1, l⟩ := tl
        rw [h2] at h
        simp only at h ⊢
        cases s with
        | nil =>
          cases h
          exact ⟨rfl, g, [x], hg, rfl, rfl, key rfl⟩
        | cons d s =>
          simp only at h ⊢
          cases h3 : l.find? (·.1 = d) with
          | some e =>
            rw [h3] at h
            cases h
            exact ⟨rfl, g, [x, d], hg, rfl, rfl, key rfl⟩
          | none =>
            rw [h3] at h
            cases h
            exact ⟨rfl, g, [x], hg, rfl, rfl, key rfl⟩
      | none =>
        rw [h2] at h
        simp only at h ⊢
        split at h
        · next hq =>
          rw [if_pos hq]
          cases h4 : stringAt [] (step (g.foldl step c.pos) x) s with
          | none => rw [h4] at h; cases h
          | some tc =>
            obtain ⟨t1, c1⟩ := tc
            rw [h4] at h
            cases h
            obtain ⟨k1, w, k2, k3⟩ := (stringAt_eq _ _ _).1 _ _ h4
            exact ⟨k1, g, x :: w, hg, by rw [k2]; rfl, rfl, key k3⟩
        · next hq =>
          rw [if_neg hq]
          split at h
          · next hd =>
            rw [if_pos hd]
            rw [getWhile_eq] at h
            simp only at h
            cases hn : number stod (x :: s.takeWhile isNumChar) with
            | error e => rw [hn] at h; cases h
            | ok t1 =>
              rw [hn] at h
              cases h
              exact ⟨rfl, g, x :: s.takeWhile isNumChar, hg, by rw [List.cons_append, List.takeWhile_append_dropWhile], rfl, key rfl⟩
          · next hd =>
            rw [if_neg hd]
            split at h
            · next hid =>
              rw [if_pos hid]
              rw [getWhile_eq] at h
              cases h
              exact ⟨rfl, g, x :: s.takeWhile isIdChar, hg, by rw [List.cons_append, List.takeWhile_append_dropWhile], rfl, key rfl⟩
            · cases h

/-- A text the lexer rejects. -/
theorem lexAt_error {c : Cursor} {e : Err} {p : Shown} (h : lexAt stod i c = .error (e, p)) :
    lex stod i c.rest = .error e ∧ ∃ g x s, c.rest = g ++ x :: s ∧ skip i false c.rest = x :: s ∧
      ((x = '"' ∧ p = none ∧ e = .parser) ∨ (isDigit x = true ∧ p = none) ∨
       (startsToken x = false ∧ e = .parser ∧ p = some (g.foldl step c.pos))) := by
  obtain ⟨g, hg, hs⟩ := skipAt_eq i c.rest false c.pos
  unfold lexAt at h
  unfold lex
  rw [hs] at h
  simp only at h
  cases hk : skip i false c.rest with
  | nil => rw [hk] at h; cases h
  | cons x s =>
    rw [hk] at h hg
    simp only at h ⊢
    cases h1 : single x with
    | some t1 => rw [h1] at h; cases h
    | none =>
      rw [h1] at h
      simp only at h ⊢
      cases h2 : double x with
      | some tl =>
        obtain ⟨t1, l⟩ := tl
        rw [h2] at h
        simp only at h ⊢
        cases s with
        | nil => cases h
        | cons d s =>
          simp only at h
          cases h3 : l.find? (·.1 = d) with
          | some e => rw [h3] at h; cases h
          | none => rw [h3] at h; cases h
      | none =>
        rw [h2] at h
        simp only at h ⊢
        split at h
        · next hq =>
          rw [if_pos hq]
          cases h4 : stringAt [] (step (g.foldl step c.pos) x) s with
          | none =>
            rw [h4] at h
            cases h
            exact ⟨(stringAt_eq _ _ _).2 h4, g, x, s, hg, rfl, .inl ⟨hq, rfl, rfl⟩⟩
          | some tc => rw [h4] at h; cases h
        · next hq =>
          rw [if_neg hq]
          split at h
          · next hd =>
            rw [if_pos hd]
            rw [getWhile_eq] at h
            simp only at h
            cases hn : number stod (x :: s.takeWhile isNumChar) with
            | error e =>
              rw [hn] at h
              cases h
              exact ⟨rfl, g, x, s, hg, rfl, .inr (.inl ⟨hd, rfl⟩)⟩
            | ok t1 => rw [hn] at h; cases h
          · next hd =>
            rw [if_neg hd]
            split at h
            · cases h
            · next hid =>
              rw [if_neg hid]
              cases h
              refine ⟨rfl, g, x, s, hg, rfl, .inr (.inr ⟨?_, rfl, rfl⟩)⟩
              simp [startsToken, h1, h2, hq, hd, hid]

/-- Counting positions does not change what is read. -/
theorem runAt_same {α : Type} {r : Reader α} {last : Shown} {c : Cursor} :
    (runAt stod r last c).mapError Prod.fst = r.run stod c.rest := by
  induction r generalizing last c with
  | pure a => rfl
  | fail e => rfl
  | next i k ih =>
    rw [runAt, Reader.run]
    cases h : lexAt stod i c with
    | error x =>
      obtain ⟨e, p⟩ := x
      rw [(lexAt_error h).1]
      rfl
    | ok x =>
      obtain ⟨t, p, c'⟩ := x
      rw [(lexAt_ok h).1]
      exact ih t
  | raw k ih => exact ih _

/-- Where a reader gives up. -/
theorem runAt_rejects {α : Type} {text : Str} {r : Reader α} {last : Shown} {c : Cursor} {p : Shown} {n : Nat}
    (hn : Reader.Stops n r) (hl : c.rest.length ≤ n) {pre : Str} (hp : text = pre ++ c.rest) (hc : c.pos = pre.foldl step (0, 0))
    (h : runAt stod r last c = .error (.parser, p)) :
    (r = .fail .parser ∧ p = last.map fun p => (p.1 + 1, p.2 + 1)) ∨
    ∃ i k s before, Gets stod r c.rest (.next i k) s ∧ text = before ++ skip i false s ∧
      ((∃ t rest, lex stod i s = .ok (t, rest) ∧ k t = .fail .parser ∧ p = some (place before)) ∨
       (∃ rest, skip i false s = '"' :: rest ∧ lex stod i s = .error .parser ∧ p = none) ∨
       (∃ x rest, skip i false s = x :: rest ∧ isDigit x = true ∧ lex stod i s = .error .parser ∧ p = none) ∨
       (∃ x rest a b, skip i false s = x :: rest ∧ startsToken x = false ∧ p = some (a, b) ∧ place before = (a + 1, b + 1))) := by
  induction r generalizing last c n pre with
  | pure a => cases h
  | fail e =>
    rw [runAt] at h
    cases h
    exact .inl ⟨rfl, rfl⟩
  | next i k ih =>
    rw [runAt] at h
    right
    cases hx : lexAt stod i c with
    | error x =>
      obtain ⟨e, q⟩ := x
      rw [hx] at h
      cases h
      obtain ⟨h1, g, x, s, h2, h3, h4⟩ := lexAt_error hx
      refine ⟨i, k, c.rest, pre ++ g, .here _ _, by rw [h3, hp, List.append_assoc, ← h2], ?_⟩
      rcases h4 with ⟨rfl, rfl, _⟩ | ⟨hd, rfl⟩ | ⟨hs, _, rfl⟩
      · exact .inr (.inl ⟨s, h3, h1, rfl⟩)
      · exact .inr (.inr (.inl ⟨x, s, h3, hd, h1, rfl⟩))
      · refine .inr (.inr (.inr ⟨x, s, _, _, h3, hs, rfl, ?_⟩))
        rw [place_eq, List.foldl_append, hc]
    | ok x =>
      obtain ⟨t, q, c'⟩ := x
      rw [hx] at h
      obtain ⟨h1, g, w, h2, h3, h4, h5⟩ := lexAt_ok hx
      have hr : c.rest = g ++ w ++ c'.rest := by rw [List.append_assoc, ← h3]; exact h2
      have hst : ∃ m, Reader.Stops m (k t) ∧ c'.rest.length ≤ m := by
        rcases Lexer.lex_length h1 with ⟨rfl, hnil⟩ | hlt
        · exact ⟨n, hn.1, by rw [hnil]; simp⟩
        · by_cases ht : t = .eof
          · subst ht
            exact ⟨n, hn.1, by omega⟩
          · obtain ⟨m, rfl⟩ : ∃ m, n = m + 1 := ⟨n - 1, by omega⟩
            exact ⟨m, hn.2 m rfl t ht, by omega⟩
      obtain ⟨m, hm, hlm⟩ := hst
      rcases ih t hm hlm (pre := pre ++ (g ++ w)) (by rw [hp, hr]; simp) (by rw [h5, List.foldl_append, List.foldl_append, List.foldl_append, hc]) h with
        ⟨k1, k2⟩ | ⟨i', k', s, before, k1, k2⟩
      · refine ⟨i, k, c.rest, pre ++ g, .here _ _, by rw [hp, List.append_assoc, ← h2], .inl ⟨t, c'.rest, h1, k1, ?_⟩⟩
        rw [k2, place_eq, List.foldl_append, ← hc, h4]
        rfl
      · exact ⟨i', k', s, before, .token h1 k1, k2⟩
  | raw k ih =>
    rw [runAt] at h
    obtain ⟨a, ha⟩ := hn (c.rest.drop 1)
    rw [ha] at h
    cases h

end Position
end T86
