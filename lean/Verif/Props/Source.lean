import Verif.Spec.Source
import Verif.Lemmas.Map
import Mathlib.Data.List.Nodup
import Mathlib.Data.List.Perm.Subperm

/-! # C36–C41: lines, functions, variables, locations and types -/

set_option linter.unusedVariables false
set_option linter.unusedSimpArgs false

namespace T86
namespace Dbg

/-! ## C36: line mapping -/

theorem ofEntries_ok_find (l : List (Nat × Nat)) : ∀ m : LineMapping, m.Ok →
    (l.foldl (fun m e => Map.assign m e.1 e.2) m).Ok ∧
    ∀ k, (l.foldl (fun m e => Map.assign m e.1 e.2) m).find k = (entryOf l k).or (m.find k) := by
  induction l with
  | nil => intro m hm; exact ⟨hm, fun k => by simp [entryOf]⟩
  | cons e l ih =>
    intro m hm
    obtain ⟨h1, h2⟩ := ih (m.assign e.1 e.2) (hm.assign _ _)
    refine ⟨h1, fun k => ?_⟩
    rw [List.foldl_cons, h2 k, Map.find_assign]
    unfold entryOf
    rw [List.reverse_cons, List.find?_append]
    cases hf : List.find? (fun x => decide (x.1 = k)) l.reverse with
    | some x => simp
    | none =>
      by_cases hk : k = e.1
      · simp [hk]
      · have : ¬ e.1 = k := fun h => hk h.symm
        simp [hk, this]

theorem getLines_mem (m : LineMapping) (a n : Nat) : n ∈ m.getLines a ↔ (n, a) ∈ m := by
  have H : ∀ (m : LineMapping) (acc : List Nat),
      n ∈ m.foldl (fun acc e => if e.2 = a then acc ++ [e.1] else acc) acc ↔ n ∈ acc ∨ (n, a) ∈ m := by
    intro m
    induction m with
    | nil => simp
    | cons e m ih =>
      intro acc
      rw [List.foldl_cons, ih]
      obtain ⟨x, y⟩ := e
      by_cases h : y = a
      · subst h; simp [or_assoc]
      · have : ¬ (n, a) = (x, y) := by rintro h'; cases h'; exact h rfl
        simp [h, this]
  rw [LineMapping.getLines, H]
  simp

theorem maxElement_foldl (l : List Nat) : ∀ x,
    (l.foldl (fun b y => if b < y then y else b) x = x ∨ l.foldl (fun b y => if b < y then y else b) x ∈ l) ∧
    x ≤ l.foldl (fun b y => if b < y then y else b) x ∧
    ∀ z ∈ l, z ≤ l.foldl (fun b y => if b < y then y else b) x := by
  induction l with
  | nil => intro x; simp
  | cons y l ih =>
    intro x
    rw [List.foldl_cons]
    obtain ⟨h1, h2, h3⟩ := ih (if x < y then y else x)
    refine ⟨?_, ?_, ?_⟩
    · rcases h1 with h1 | h1
      · rw [h1]; split
        · exact .inr List.mem_cons_self
        · exact .inl rfl
      · exact .inr (List.mem_cons_of_mem _ h1)
    · exact Nat.le_trans (by split <;> omega) h2
    · intro z hz
      rcases List.mem_cons.mp hz with rfl | hz
      · exact Nat.le_trans (by split <;> omega) h2
      · exact h3 z hz

theorem maxElement_spec (l : List Nat) (n : Nat) : maxElement l = some n ↔ n ∈ l ∧ ∀ z ∈ l, z ≤ n := by
  cases l with
  | nil => simp [maxElement]
  | cons x l =>
    obtain ⟨h1, h2, h3⟩ := maxElement_foldl l x
    unfold maxElement
    constructor
    · intro h; cases h
      refine ⟨?_, ?_⟩
      · rcases h1 with h1 | h1
        · rw [h1]; exact List.mem_cons_self
        · exact List.mem_cons_of_mem _ h1
      · intro z hz
        rcases List.mem_cons.mp hz with rfl | hz
        · exact h2
        · exact h3 z hz
    · rintro ⟨hn, hmax⟩
      show some _ = some _
      congr 1
      apply Nat.le_antisymm
      · rcases h1 with h1 | h1
        · rw [h1]; exact hmax _ List.mem_cons_self
        · exact hmax _ (List.mem_cons_of_mem _ h1)
      · rcases List.mem_cons.mp hn with rfl | hn
        · exact h2
        · exact h3 _ hn

end Dbg
open Dbg

/-- **C36**, from lines to addresses: a line has the address of its last entry in the table, and none without an entry. -/
theorem C36_line (l : List (Nat × Nat)) (line : Nat) : lineToAddr (some (.ofEntries l)) line = entryOf l line := by
  have := (ofEntries_ok_find l [] Map.Ok.nil).2 line
  show Map.find _ _ = _
  rw [LineMapping.ofEntries, this]
  simp

/-- **C36**, from addresses to lines: an address has the greatest of the lines that have this address. -/
theorem C36_address (l : List (Nat × Nat)) (a n : Nat) :
    addrToLine (some (.ofEntries l)) a = some n ↔ entryOf l n = some a ∧ ∀ n', entryOf l n' = some a → n' ≤ n := by
  have hf := ofEntries_ok_find l [] Map.Ok.nil
  have hm : ∀ k, k ∈ (LineMapping.ofEntries l).getLines a ↔ entryOf l k = some a := by
    intro k
    rw [getLines_mem, LineMapping.ofEntries, ← Map.find_iff_mem hf.1, hf.2 k]
    simp
  show maxElement _ = _ ↔ _
  rw [maxElement_spec, hm]
  simp only [hm]

/-- **C36**: an address no line has is mapped to nothing, and nothing is known without a table. -/
theorem C36_unmapped (l : List (Nat × Nat)) (a : Nat) :
    (addrToLine (some (.ofEntries l)) a = none ↔ ∀ n, entryOf l n ≠ some a) ∧ addrToLine none a = none ∧
      lineToAddr none a = none := by
  refine ⟨?_, rfl, rfl⟩
  constructor
  · intro h n hn
    have hf := ofEntries_ok_find l [] Map.Ok.nil
    have hm : n ∈ (LineMapping.ofEntries l).getLines a := by
      rw [getLines_mem, LineMapping.ofEntries, ← Map.find_iff_mem hf.1, hf.2 n]
      simp [hn]
    have h : maxElement ((LineMapping.ofEntries l).getLines a) = none := h
    cases hl : (LineMapping.ofEntries l).getLines a with
    | nil => rw [hl] at hm; simp at hm
    | cons x t => rw [hl] at h; simp [maxElement] at h
  · intro h
    cases ha : addrToLine (some (.ofEntries l)) a with
    | none => rfl
    | some n => exact absurd ((C36_address l a n).mp ha).1 (h n)

/-- Three lines with two addresses; line 4 is given twice. -/
example : addrToLine (some (.ofEntries [(4, 9), (0, 3), (2, 3), (4, 5)])) 3 = some 2 ∧
    lineToAddr (some (.ofEntries [(4, 9), (0, 3), (2, 3), (4, 5)])) 4 = some 5 ∧
    addrToLine (some (.ofEntries [(4, 9), (0, 3), (2, 3), (4, 5)])) 9 = none := by decide

/-! ## C37: source lines -/

theorem sourceLoop_spec : ∀ (fuel : Nat) (s : Str), s.length < fuel →
    (∀ l ∈ sourceLoop fuel s, '\n' ∉ l) ∧
    ((sourceLoop fuel s).map (· ++ ['\n'])).flatten =
      (if s = [] ∨ s.getLast? = some '\n' then s else s ++ ['\n']) := by
  intro fuel
  induction fuel with
  | zero => intro s h; omega
  | succ fuel ih =>
    intro s h
    have hs := List.takeWhile_append_dropWhile (p := (· != '\n')) (l := s)
    have htake : '\n' ∉ s.takeWhile (· != '\n') := by
      intro hmem
      have := List.all_takeWhile (l := s) (p := (· != '\n'))
      rw [List.all_eq_true] at this
      have := this _ hmem
      simp at this
    unfold sourceLoop
    cases hd : s.dropWhile (· != '\n') with
    | nil =>
      rw [hd, List.append_nil] at hs
      rw [hs] at htake
      by_cases hne : s = []
      · simp [hne]
      · have hlast : s.getLast? ≠ some '\n' := by
          intro hl
          exact htake (List.mem_of_getLast? hl)
        simp [hne, hlast]
        exact htake
    | cons c rest =>
      have hc : c = '\n' := by
        have := List.head_dropWhile_not (l := s) (· != '\n') (by rw [hd]; simp)
        simpa [hd] using this
      subst hc
      rw [hd] at hs
      have hlen : rest.length < fuel := by
        have := congrArg List.length hs
        simp at this
        omega
      obtain ⟨h1, h2⟩ := ih rest hlen
      refine ⟨?_, ?_⟩
      · intro l hl
        rcases List.mem_cons.mp hl with rfl | hl
        · exact htake
        · exact h1 l hl
      · have hne : s ≠ [] := by rw [← hs]; simp
        rw [List.map_cons, List.flatten_cons, h2]
        have hlast : s.getLast? = if rest = [] then some '\n' else rest.getLast? := by
          rw [← hs]
          by_cases hr : rest = []
          · simp [hr]
          · rw [if_neg hr, List.getLast?_append_of_ne_nil _ (by simp)]
            rw [List.getLast?_cons]
            cases hg : rest.getLast? with
            | none => simp at hg; exact absurd hg hr
            | some x => simp
        by_cases hr : rest = []
        · simp [hr, hne, hlast]
          rw [hr] at hs
          simpa using hs
        · rw [if_neg hr] at hlast
          simp only [hr, hne, hlast, false_or]
          by_cases hl : rest.getLast? = some '\n'
          · rw [if_pos hl, if_pos hl]
            simpa using hs
          · rw [if_neg hl, if_neg hl]
            calc List.takeWhile (fun x => x != '\n') s ++ ['\n'] ++ (rest ++ ['\n'])
                = (List.takeWhile (fun x => x != '\n') s ++ '\n' :: rest) ++ ['\n'] := by simp
              _ = _ := by rw [hs]

/-- **C37**: no line contains a line feed, and the lines, each followed by a line feed, make up the text (with one more line
feed at the end when the text does not end with one). -/
theorem C37_lines (text : Str) : (∀ l ∈ sourceLines text, '\n' ∉ l) ∧
    ((sourceLines text).map (· ++ ['\n'])).flatten =
      (if text = [] ∨ text.getLast? = some '\n' then text else text ++ ['\n']) :=
  sourceLoop_spec _ _ (Nat.lt_succ_self _)

/-- **C37**: line `i` is the `i`-th one, and there is none after the last. -/
theorem C37_line (lines : List Str) (i : Nat) : getLine lines i = lines[i]? := by
  unfold getLine
  split
  · rename_i h; rw [List.getElem?_eq_none h]
  · rfl

/-- **C37**: a range of lines is that part of the file, cut at its end. -/
theorem C37_range (lines : List Str) (idx amount : Word) (hl : lines.length < 2 ^ 64) :
    getLinesRange lines idx amount = (lines.drop idx.toNat).take amount.toNat := by
  have H : ∀ n i : Nat, i + idx.toNat ≤ lines.length ∨ i = 0 → rangeLoop lines idx n i = (lines.drop (i + idx.toNat)).take n := by
    intro n
    induction n with
    | zero => intro i _; simp [rangeLoop]
    | succ n ih =>
      intro i hi
      have hw : (BitVec.ofNat 64 i + idx).toNat = i + idx.toNat := by
        have := idx.isLt
        rw [BitVec.toNat_add, BitVec.toNat_ofNat]
        rcases hi with hi | hi
        · rw [Nat.mod_eq_of_lt (a := i) (by omega), Nat.mod_eq_of_lt (by omega)]
        · subst hi; simp; omega
      unfold rangeLoop
      rw [hw, C37_line]
      by_cases hb : i + idx.toNat < lines.length
      · rw [List.getElem?_eq_getElem hb]
        simp only
        rw [ih (i + 1) (.inl (by omega)), List.drop_eq_getElem_cons hb, List.take_succ_cons]
        congr 3
        omega
      · rw [List.getElem?_eq_none (by omega)]
        simp only
        rw [List.drop_eq_nil_of_le (by omega)]
        simp
  rw [getLinesRange, H _ 0 (.inr rfl)]
  simp

example : sourceLines "int x;\n\nx = 1;\nend".toList = ["int x;".toList, [], "x = 1;".toList, "end".toList] := by decide
example : getLinesRange (sourceLines "a\nb\nc\n".toList) 1 7 = ["b".toList, "c".toList] := by decide

/-! ## C38: functions -/

/-- **C38**, from addresses: an address is attributed to a function that contains it. -/
theorem C38_name (unit d : Die) (a : Nat) (n : Str) (hd : d ∈ unit.children) (ht : d.tag = .function)
    (hn : d.findName = some n) (hc : d.covers a = true)
    (hother : ∀ d' ∈ unit.children, d'.tag = .function → d'.covers a = true → d'.findName = some n) :
    getFunctionNameByAddress (some unit) a = some n := by
  show nameByAddress a unit.children = some n
  revert hd hother
  generalize unit.children = l
  induction l with
  | nil => intro hd; simp at hd
  | cons x l ih =>
    intro hd hother
    unfold nameByAddress
    by_cases hx : x.tag = .function ∧ x.covers a = true
    · rw [if_pos hx, hother x List.mem_cons_self hx.1 hx.2]
    · rw [if_neg hx]
      apply ih
      · rcases List.mem_cons.mp hd with rfl | hd
        · exact absurd ⟨ht, hc⟩ hx
        · exact hd
      · exact fun d' hd' => hother d' (List.mem_cons_of_mem _ hd')

/-- **C38**: only a function of that name that contains the address is ever reported. -/
theorem C38_name_sound (unit : Die) (a : Nat) (n : Str) (h : getFunctionNameByAddress (some unit) a = some n) :
    ∃ d ∈ unit.children, d.tag = .function ∧ d.findName = some n ∧
      ∃ b e, d.findBegin = some b ∧ d.findEnd = some e ∧ b ≤ a ∧ a < e := by
  revert h
  show nameByAddress a unit.children = some n → _
  generalize unit.children = l
  induction l with
  | nil => intro h; cases h
  | cons x l ih =>
    intro h
    have lift : (∃ d ∈ l, d.tag = .function ∧ d.findName = some n ∧
      ∃ b e, d.findBegin = some b ∧ d.findEnd = some e ∧ b ≤ a ∧ a < e) →
      ∃ d ∈ x :: l, d.tag = .function ∧ d.findName = some n ∧
      ∃ b e, d.findBegin = some b ∧ d.findEnd = some e ∧ b ≤ a ∧ a < e :=
      fun ⟨d, hd, h⟩ => ⟨d, List.mem_cons_of_mem _ hd, h⟩
    unfold nameByAddress at h
    split at h
    · rename_i hx
      split at h
      · rename_i m hm
        cases h
        refine ⟨x, List.mem_cons_self, hx.1, hm, ?_⟩
        have := hx.2
        unfold Die.covers at this
        split at this
        · rename_i b e hb he
          simp at this
          exact ⟨b, e, hb, he, this⟩
        · cases this
      · exact lift (ih h)
    · exact lift (ih h)

/-- **C38**, from names: the name of a function looks up its own range, when no other function has this name. -/
theorem C38_range (unit d : Die) (n : Str) (b e : Nat) (hd : d ∈ unit.children) (ht : d.tag = .function)
    (hn : d.findName = some n) (hb : d.findBegin = some b) (he : d.findEnd = some e)
    (hother : ∀ d' ∈ unit.children, d'.tag = .function → d'.findName = some n → d' = d) :
    getFunctionAddrByName (some unit) n = some (b, e) := by
  show addrByName n unit.children = _
  revert hd hother
  generalize unit.children = l
  induction l with
  | nil => intro hd; simp at hd
  | cons x l ih =>
    intro hd hother
    unfold addrByName
    by_cases hx : x.tag = .function ∧ x.findName = some n
    · rw [if_pos hx.1, if_pos hx.2, hother x List.mem_cons_self hx.1 hx.2, hb, he]
    · have hrest : addrByName n l = some (b, e) := by
        apply ih
        · rcases List.mem_cons.mp hd with rfl | hd
          · exact absurd ⟨ht, hn⟩ hx
          · exact hd
        · exact fun d' hd' => hother d' (List.mem_cons_of_mem _ hd')
      split
      · rename_i h1
        rw [if_neg (fun h2 => hx ⟨h1, h2⟩)]
        exact hrest
      · exact hrest

/-- **C38**: only the range of a function of that name is ever reported. -/
theorem C38_range_sound (unit : Die) (n : Str) (b e : Nat) (h : getFunctionAddrByName (some unit) n = some (b, e)) :
    ∃ d ∈ unit.children, d.tag = .function ∧ d.findName = some n ∧ d.findBegin = some b ∧ d.findEnd = some e := by
  revert h
  show addrByName n unit.children = some (b, e) → _
  generalize unit.children = l
  induction l with
  | nil => intro h; cases h
  | cons x l ih =>
    intro h
    have lift : (∃ d ∈ l, d.tag = .function ∧ d.findName = some n ∧ d.findBegin = some b ∧ d.findEnd = some e) →
      ∃ d ∈ x :: l, d.tag = .function ∧ d.findName = some n ∧ d.findBegin = some b ∧ d.findEnd = some e :=
      fun ⟨d, hd, h⟩ => ⟨d, List.mem_cons_of_mem _ hd, h⟩
    unfold addrByName at h
    split at h
    · rename_i h1
      split at h
      · rename_i h2
        split at h
        · cases h
        · rename_i b' hb
          split at h
          · cases h
          · rename_i e' he
            cases h
            exact ⟨x, List.mem_cons_self, h1, h2, hb, he⟩
      · exact lift (ih h)
    · exact lift (ih h)

namespace Sample

/-- A compilation unit with a global variable and two functions; `main` has a variable `i` and an inner scope with
another `i`. -/
def unit : Die :=
  .mk .unit [] [
    .mk .primitiveType [.id 0, .name "int".toList, .size 1] [],
    .mk .variable [.name "g".toList, .type 0] [],
    .mk .function [.name "f".toList, .beginAddr 0, .endAddr 5] [
      .mk .variable [.name "x".toList, .type 0, .location [.baseOffset (-1)]] []],
    .mk .function [.name "main".toList, .beginAddr 5, .endAddr 20] [
      .mk .variable [.name "i".toList, .type 0, .location [.baseOffset (-1)]] [],
      .mk .scope [.beginAddr 8, .endAddr 12] [
        .mk .variable [.name "i".toList, .type 0, .location [.baseOffset (-2)]] []]]]

end Sample

example : getFunctionNameByAddress (some Sample.unit) 4 = some "f".toList ∧
    getFunctionNameByAddress (some Sample.unit) 5 = some "main".toList ∧
    getFunctionNameByAddress (some Sample.unit) 20 = none ∧
    getFunctionAddrByName (some Sample.unit) "main".toList = some (5, 20) := by decide

/-! ## C39: variables -/

namespace Dbg

mutual
/-- The visible variables in the order of the document, with their depths. -/
def visList (a : Nat) : Die → List (Nat × Die)
  | .mk tag attrs children =>
    match (if tag = .variable then (Die.mk tag attrs children).findName else none) with
    | some _ => [(0, .mk tag attrs children)]
    | none =>
      if (tag = .scope ∨ tag = .function) ∧ (Die.mk tag attrs children).covers a = false then []
      else visListL a children

/-- The same for a list of entries, one level further down. -/
def visListL (a : Nat) : List Die → List (Nat × Die)
  | [] => []
  | d :: l => (visList a d).map (fun e => (e.1 + 1, e.2)) ++ visListL a l
end

theorem visListL_eq (a : Nat) (l : List Die) :
    visListL a l = (l.map (fun d => (visList a d).map (fun e => (e.1 + 1, e.2)))).flatten := by
  induction l with
  | nil => rfl
  | cons d l ih => rw [visListL, ih]; simp

/-- Enters the visible variables into the result, one after the other. -/
def enter (r : Map Str Die) (l : List Die) : Map Str Die :=
  l.foldl (fun r d => match d.findName with | some n => r.assign n d | none => r) r

theorem enter_append (r : Map Str Die) (l m : List Die) : enter r (l ++ m) = enter (enter r l) m := by
  unfold enter; rw [List.foldl_append]

mutual
theorem findVariables_eq (a : Nat) (r : Map Str Die) : (d : Die) → findVariables a r d = enter r ((visList a d).map (·.2))
  | .mk tag attrs children => by
    have ih := findVariablesL_eq a r children
    rw [findVariables, visList]
    cases hn : (if tag = .variable then (Die.mk tag attrs children).findName else none) with
    | some n =>
      have : (Die.mk tag attrs children).findName = some n := by
        by_cases h : tag = .variable
        · rw [if_pos h] at hn; exact hn
        · rw [if_neg h] at hn; cases hn
      show _ = (match (Die.mk tag attrs children).findName with | some n => r.assign n _ | none => r)
      rw [this]
    | none =>
      simp only
      split
      · simp [enter]
      · rw [ih]
theorem findVariablesL_eq (a : Nat) (r : Map Str Die) : (l : List Die) →
    findVariablesL a r l = enter r ((visListL a l).map (·.2))
  | [] => by simp [findVariablesL, visListL, enter]
  | d :: l => by
    rw [findVariablesL, visListL, List.map_append, enter_append, findVariables_eq a r d, findVariablesL_eq a _ l]
    simp [Function.comp_def]
end

theorem namedVariable_iff (tag : Tag) (attrs : List Attr) (children : List Die) :
    (Die.mk tag attrs children).NamedVariable ↔
      (if tag = .variable then (Die.mk tag attrs children).findName else none) ≠ none := by
  unfold Die.NamedVariable
  by_cases h : tag = .variable
  · simp [Die.tag, h]
  · simp [Die.tag, h]

theorem visible_iff (a : Nat) : ∀ (d : Die) (k : Nat) (v : Die), (k, v) ∈ visList a d ↔ Visible a d k v := by
  have fwd : ∀ (n : Nat) (d : Die), sizeOf d < n → ∀ k v, (k, v) ∈ visList a d → Visible a d k v := by
    intro n
    induction n with
    | zero => intro d h; omega
    | succ n ih =>
      intro d hsz k v h
      obtain ⟨tag, attrs, children⟩ := d
      have hnv := namedVariable_iff tag attrs children
      rw [visList] at h
      split at h
      · rename_i m hm
        rw [List.mem_singleton] at h
        cases h
        exact .here _ (hnv.mpr (by rw [hm]; simp))
      · rename_i hm
        split at h
        · simp at h
        · rename_i hcov
          rw [visListL_eq, List.mem_flatten] at h
          obtain ⟨l, hl, hkv⟩ := h
          obtain ⟨c, hc, rfl⟩ := List.mem_map.mp hl
          obtain ⟨⟨k', v'⟩, hm', he⟩ := List.mem_map.mp hkv
          cases he
          refine .inside _ c _ _ (fun hn => hnv.mp hn hm) ?_ hc (ih c ?_ _ _ hm')
          · intro hlim
            by_contra hf
            exact hcov ⟨hlim, by simpa using hf⟩
          · have := List.sizeOf_lt_of_mem hc
            have h2 := Die.mk.sizeOf_spec tag attrs children
            omega
  intro d k v
  refine ⟨fwd _ d (Nat.lt_succ_self _) k v, ?_⟩
  intro h
  induction h with
  | here v hv =>
    obtain ⟨tag, attrs, children⟩ := v
    have := (namedVariable_iff tag attrs children).mp hv
    rw [visList]
    split
    · simp
    · rename_i hm; exact absurd hm this
  | inside d c v k hn hlim hc _ ih =>
    obtain ⟨tag, attrs, children⟩ := d
    rw [visList]
    split
    · rename_i m hm
      exact absurd ((namedVariable_iff tag attrs children).mpr (by rw [hm]; simp)) hn
    · split
      · rename_i hcov
        rw [hlim hcov.1] at hcov
        cases hcov.2
      · rw [visListL_eq, List.mem_flatten]
        exact ⟨_, List.mem_map.mpr ⟨c, hc, rfl⟩, List.mem_map.mpr ⟨_, ih, rfl⟩⟩

theorem visible_named {a : Nat} {d v : Die} {k : Nat} (h : Visible a d k v) : v.NamedVariable := by
  induction h with
  | here _ h => exact h
  | inside _ _ _ _ _ _ _ _ ih => exact ih

theorem enter_find (l : List Die) (n : Str) : ∀ r : Map Str Die,
    (enter r l).find n = (l.reverse.find? (fun d => d.findName = some n)).or (r.find n) := by
  induction l with
  | nil => intro r; simp [enter]
  | cons d l ih =>
    intro r
    have : enter r (d :: l) = enter (match d.findName with | some n => r.assign n d | none => r) l := rfl
    rw [this, ih, List.reverse_cons, List.find?_append]
    cases hf : l.reverse.find? (fun d => decide (d.findName = some n)) with
    | some x => simp
    | none =>
      simp only [Option.none_or]
      by_cases hd : d.findName = some n
      · simp [hd]
      · cases hm : d.findName with
        | none => simp [hm]
        | some m =>
          have : ¬ m = n := by rintro rfl; exact hd hm
          have h2 : ¬ n = m := fun h => this h.symm
          simp [hm, this, h2]

theorem active_find (top : Die) (a : Nat) (n : Str) :
    (getActiveVariables (some top) a).find n =
      ((visList a top).map (·.2)).reverse.find? (fun d => d.findName = some n) := by
  show (findVariables a [] top).find n = _
  rw [findVariables_eq, enter_find]
  simp

/-- In a nested tree the visible variables are met in the order of their depth. -/
theorem nested_sorted (a : Nat) (d : Die) (h : Nested a d) : (visList a d).Pairwise (fun x y => x.1 ≤ y.1) := by
  induction h with
  | mk d hc hord ih =>
    obtain ⟨tag, attrs, children⟩ := d
    rw [visList]
    split
    · simp
    · split
      · simp
      · rw [visListL_eq, List.pairwise_flatten]
        refine ⟨?_, ?_⟩
        · intro l hl
          obtain ⟨c, hcm, rfl⟩ := List.mem_map.mp hl
          rw [List.pairwise_map]
          refine (ih c hcm).imp ?_
          intro x y hxy
          simpa using hxy
        · rw [List.pairwise_map]
          rw [List.pairwise_iff_forall_sublist]
          intro x y hs e1 he1 e2 he2
          -- x before y among the children
          obtain ⟨l, m, r, heq⟩ : ∃ l m r, children = l ++ x :: m ++ y :: r := by
            revert hs
            clear * -
            intro hs
            induction children with
            | nil => cases hs
            | cons z children ihc =>
              cases hs with
              | cons _ h => obtain ⟨l, m, r, rfl⟩ := ihc h; exact ⟨z :: l, m, r, by simp⟩
              | cons_cons _ h =>
                have hy : y ∈ children := h.subset List.mem_cons_self
                obtain ⟨m, r, rfl⟩ := List.append_of_mem hy
                exact ⟨[], m, r, by simp⟩
          obtain ⟨⟨k1, v1⟩, hm1, rfl⟩ := List.mem_map.mp he1
          obtain ⟨⟨k2, v2⟩, hm2, rfl⟩ := List.mem_map.mp he2
          by_cases hx : x.NamedVariable
          · have : k1 = 0 := by
              have := (visible_iff a x k1 v1).mp hm1
              cases this with
              | here => rfl
              | inside _ _ _ _ hn => exact absurd hx hn
            simp [this]
          · obtain ⟨_, hno⟩ := hord l x m y r heq hx
            exact absurd ((visible_iff a y k2 v2).mp hm2) (hno k1 k2 v1 v2 ((visible_iff a x k1 v1).mp hm1))

end Dbg

/-- **C39**: the variables found at an address are exactly the visible ones: for every name, one that is visible is found,
and what is found is visible. -/
theorem C39_visible (top : Die) (a : Nat) (n : Str) :
    (∀ k v, Visible a top k v → v.findName = some n → ∃ v', getVariableDie (some top) a n = some v') ∧
    (∀ v', getVariableDie (some top) a n = some v' → v'.findName = some n ∧ ∃ k, Visible a top k v') := by
  unfold getVariableDie
  rw [active_find]
  constructor
  · intro k v hv hn
    have hm := (visible_iff a top k v).mpr hv
    cases hf : ((visList a top).map (·.2)).reverse.find? (fun d => decide (d.findName = some n)) with
    | some v' => exact ⟨v', rfl⟩
    | none =>
      rw [List.find?_eq_none] at hf
      have := hf v (by simp; exact ⟨k, hm⟩)
      simp [hn] at this
  · intro v' h
    have h1 := List.find?_some h
    have h2 := List.mem_of_find?_eq_some h
    refine ⟨by simpa using h1, ?_⟩
    simp at h2
    obtain ⟨k, hk⟩ := h2
    exact ⟨k, (visible_iff a top k v').mp hk⟩

/-- **C39** in part: an inner declaration hides an outer one of the same name. Missing are trees where a scope declares a
variable after an inner scope (see `C39_outer_hides_inner`) or where scopes side by side overlap. -/
theorem C39_innermost_partial (top : Die) (a : Nat) (hnest : Nested a top) (n : Str) (k : Nat) (v : Die)
    (hv : Visible a top k v) (hn : v.findName = some n) :
    ∃ k' v', getVariableDie (some top) a n = some v' ∧ Visible a top k' v' ∧ k ≤ k' := by
  unfold getVariableDie
  rw [active_find]
  have hs := nested_sorted a top hnest
  have hm := (visible_iff a top k v).mpr hv
  cases hf : ((visList a top).map (·.2)).reverse.find? (fun d => decide (d.findName = some n)) with
  | none =>
    rw [List.find?_eq_none] at hf
    have := hf v (by simp; exact ⟨k, hm⟩)
    simp [hn] at this
  | some v' =>
    rw [← List.map_reverse, List.find?_map] at hf
    cases hf2 : (visList a top).reverse.find? ((fun d => decide (d.findName = some n)) ∘ fun x => x.2) with
    | none => rw [hf2] at hf; simp at hf
    | some e =>
      rw [hf2] at hf
      simp at hf
      obtain ⟨k', w⟩ := e
      simp at hf
      subst hf
      have hmem := List.mem_of_find?_eq_some hf2
      rw [List.mem_reverse] at hmem
      refine ⟨k', w, rfl, (visible_iff a top k' w).mp hmem, ?_⟩
      obtain ⟨_, l1, l2, hl, hnone⟩ := List.find?_eq_some_iff_append.mp hf2
      have hrev : visList a top = l2.reverse ++ (k', w) :: l1.reverse := by
        have := congrArg List.reverse hl
        simpa using this
      rw [hrev] at hs hm
      rcases List.mem_append.mp hm with h | h
      · rw [List.pairwise_append] at hs
        exact hs.2.2 _ h _ List.mem_cons_self
      · rcases List.mem_cons.mp h with h | h
        · cases h; exact Nat.le_refl _
        · rw [List.mem_reverse] at h
          have := hnone _ h
          simp [hn] at this

/-- The inner `i` at address 9, the outer one at address 13, nothing of `main` in `f`. -/
example : ((getVariableDie (some Sample.unit) 9 "i".toList).bind Die.findLocation) = some [.baseOffset (-2)] ∧
    ((getVariableDie (some Sample.unit) 13 "i".toList).bind Die.findLocation) = some [.baseOffset (-1)] ∧
    (getVariableDie (some Sample.unit) 3 "i".toList).isNone = true ∧
    (getVariableDie (some Sample.unit) 3 "g".toList).isSome = true := by decide

/-- A function with a variable and an inner scope is nested. -/
example : Nested 9 (.mk .function [.name "main".toList, .beginAddr 5, .endAddr 20] [
      .mk .variable [.name "i".toList, .location [.baseOffset (-1)]] [],
      .mk .scope [.beginAddr 8, .endAddr 12] [
        .mk .variable [.name "i".toList, .location [.baseOffset (-2)]] []]]) := by
  have leaf : ∀ t a, Nested 9 (.mk t a []) := fun t a => .mk _ (by simp [Die.children]) (by simp [Die.children])
  refine .mk _ ?_ ?_
  · intro c hc
    simp only [Die.children, List.mem_cons, List.not_mem_nil, or_false] at hc
    rcases hc with rfl | rfl
    · exact leaf _ _
    · refine .mk _ ?_ ?_
      · intro c hc
        simp only [Die.children, List.mem_cons, List.not_mem_nil, or_false] at hc
        subst hc
        exact leaf _ _
      · intro l x m y r h
        have := congrArg List.length h
        simp [Die.children] at this
        omega
  · intro l x m y r h hx
    have hl : l = [] := by
      have := congrArg List.length h
      simp [Die.children] at this
      exact List.length_eq_zero_iff.mp (by omega)
    subst hl
    simp [Die.children] at h
    exact absurd (by rw [← h.1]; exact ⟨rfl, by decide⟩) hx

/-- **C39** fails when a scope declares a variable after an inner scope: then the outer declaration hides the inner one. -/
theorem C39_outer_hides_inner : ∃ (top inner outer : Die) (a k k' : Nat) (n : Str),
    Visible a top k outer ∧ outer.findName = some n ∧ Visible a top k' inner ∧ inner.findName = some n ∧ k < k' ∧
    (getVariableDie (some top) a n).bind Die.findLocation = outer.findLocation ∧ outer.findLocation ≠ inner.findLocation := by
  let inner : Die := .mk .variable [.name ['i'], .location [.baseOffset 2]] []
  let outer : Die := .mk .variable [.name ['i'], .location [.baseOffset 1]] []
  let scope : Die := .mk .scope [.beginAddr 3, .endAddr 5] [inner]
  refine ⟨.mk .function [.beginAddr 0, .endAddr 9] [scope, outer], inner, outer, 4, 1, 2, ['i'],
    ?_, rfl, ?_, rfl, by omega, by decide, by decide⟩
  · refine .inside _ outer _ 0 (fun h => by cases h.1) (fun _ => rfl) (by simp [Die.children]) (.here _ ⟨rfl, by decide⟩)
  · refine .inside _ scope _ 1 (fun h => by cases h.1) (fun _ => rfl) (by simp [Die.children]) ?_
    exact .inside _ inner _ 0 (fun h => by cases h.1) (fun _ => rfl) (by simp [scope, Die.children]) (.here _ ⟨rfl, by decide⟩)

/-! ## C40: location expressions -/

namespace Dbg

theorem addS_ok {m : Mode} {x y w : Word} (h : addS m x y = .ok w) : w = x + y := by
  unfold addS sadd at h
  split at h
  · rename_i w' hw
    cases h
    split at hw
    · cases hw
    · cases hw; rfl
  · cases h

theorem addS_wrap (x y : Word) : addS .wrap x y = .ok (x + y) := by
  unfold addS sadd
  simp

theorem bind_ok {α β : Type} {x : Except Err α} {f : α → Except Err β} {y : β} (h : (x >>= f) = .ok y) :
    ∃ a, x = .ok a ∧ f a = .ok y := by
  cases x with
  | error e => cases h
  | ok a => exact ⟨a, rfl, h⟩

theorem locStep_doc (m : Mode) (v : View) (s s' : List Loc) (i : LocIns) (hi : i ≠ .deref)
    (h : locStep m v s i = .ok s') : docStep v s i = .ok s' := by
  cases i with
  | push x => exact h
  | add =>
    match s, h with
    | a :: b :: s, h =>
      obtain ⟨r, hr, h⟩ := bind_ok h
      obtain ⟨x, hx, hr⟩ := bind_ok hr
      obtain ⟨y, hy, hr⟩ := bind_ok hr
      obtain ⟨w, hw, hr⟩ := bind_ok hr
      cases h; cases hr
      simp only [docStep, hx, hy, addS_ok hw]
      rfl
  | baseOffset off =>
    obtain ⟨bp, hb, h⟩ := bind_ok h
    obtain ⟨w, hw, h⟩ := bind_ok h
    cases h
    simp only [docStep, hb, addS_ok hw]
    rfl
  | deref => exact absurd rfl hi

theorem docStep_loc (v : View) (s s' : List Loc) (i : LocIns) (hi : i ≠ .deref)
    (h : docStep v s i = .ok s') : locStep .wrap v s i = .ok s' := by
  cases i with
  | push x => exact h
  | add =>
    match s, h with
    | a :: b :: s, h =>
      obtain ⟨x, hx, h⟩ := bind_ok h
      obtain ⟨y, hy, h⟩ := bind_ok h
      cases h
      simp only [locStep, addOperands, hx, hy, addS_wrap]
      rfl
  | baseOffset off =>
    obtain ⟨bp, hb, h⟩ := bind_ok h
    cases h
    simp only [locStep, hb, addS_wrap]
    rfl
  | deref => exact absurd rfl hi

theorem locRun_doc (m : Mode) (v : View) (l : List LocIns) : (∀ i ∈ l, i ≠ .deref) → ∀ s s',
    locRun m v s l = .ok s' → docRun v s l = .ok s' := by
  induction l with
  | nil => intro _ s s' h; exact h
  | cons i l ih =>
    intro hl s s' h
    obtain ⟨t, ht, h⟩ := bind_ok h
    have h1 := locStep_doc m v s t i (hl i List.mem_cons_self) ht
    have h2 := ih (fun j hj => hl j (List.mem_cons_of_mem _ hj)) t s' h
    unfold docRun
    rw [h1]
    exact h2

theorem docRun_loc (v : View) (l : List LocIns) : (∀ i ∈ l, i ≠ .deref) → ∀ s s',
    docRun v s l = .ok s' → locRun .wrap v s l = .ok s' := by
  induction l with
  | nil => intro _ s s' h; exact h
  | cons i l ih =>
    intro hl s s' h
    obtain ⟨t, ht, h⟩ := bind_ok h
    have h1 := docStep_loc v s t i (hl i List.mem_cons_self) ht
    have h2 := ih (fun j hj => hl j (List.mem_cons_of_mem _ hj)) t s' h
    unfold locRun
    rw [h1]
    exact h2

theorem docRun_append (v : View) (l m : List LocIns) : ∀ s, docRun v s (l ++ m) = (docRun v s l >>= fun s => docRun v s m) := by
  induction l with
  | nil => intro s; rfl
  | cons i l ih =>
    intro s
    rw [List.cons_append, docRun, docRun]
    cases docStep v s i with
    | error e => rfl
    | ok t => exact ih t

theorem locRun_append (m : Mode) (v : View) (l k : List LocIns) :
    ∀ s, locRun m v s (l ++ k) = (locRun m v s l >>= fun s => locRun m v s k) := by
  induction l with
  | nil => intro s; rfl
  | cons i l ih =>
    intro s
    rw [List.cons_append, locRun, locRun]
    cases locStep m v s i with
    | error e => rfl
    | ok t => exact ih t

end Dbg

/-- **C40** in part: a location expression without DEREFERENCE that evaluates has the documented result; with wrapping
arithmetic it evaluates whenever the documented evaluation does. What is missing is DEREFERENCE other than of a register in
the end (see `C40_dereference_register_partial` and the counterexamples below). -/
theorem C40_location_partial (v : View) (l : List LocIns) (hl : ∀ i ∈ l, i ≠ .deref) (x : Loc) :
    (∀ m, interpret m v l = .ok x → docEval v l = .ok x) ∧ (docEval v l = .ok x → interpret .wrap v l = .ok x) := by
  constructor
  · intro m h
    obtain ⟨s, hs, h⟩ := bind_ok h
    unfold docEval
    rw [locRun_doc m v l hl _ _ hs]
    exact h
  · intro h
    obtain ⟨s, hs, h⟩ := bind_ok h
    unfold interpret
    rw [docRun_loc v l hl _ _ hs]
    exact h

/-- **C40** in part: DEREFERENCE of a register, as the last instruction, gives the cell the register points to, as documented. -/
theorem C40_dereference_register_partial (m : Mode) (v : View) (l : List LocIns) (hl : ∀ i ∈ l, i ≠ .deref) (r : Str) (x : Loc)
    (hr : interpret m v l = .ok (.reg r)) (h : interpret m v (l ++ [.deref]) = .ok x) : docEval v (l ++ [.deref]) = .ok x := by
  obtain ⟨s, hs, hr⟩ := bind_ok hr
  have hd := locRun_doc m v l hl _ _ hs
  match s, hr with
  | .reg r :: s, rfl =>
    obtain ⟨s2, h2, h⟩ := bind_ok h
    rw [locRun_append, hs] at h2
    obtain ⟨s3, h3, h2⟩ := bind_ok (show (locStep m v (.reg r :: s) .deref >>= fun s' => .ok s') = .ok s2 from h2)
    cases h2
    obtain ⟨idx, hi, h3⟩ := bind_ok h3
    obtain ⟨w, hw, h3⟩ := bind_ok h3
    cases h3
    cases h
    unfold docEval
    rw [docRun_append, hd]
    show (docRun v (.reg r :: s) [.deref] >>= _) = _
    have e : docStep v (.reg r :: s) .deref = .ok (.off w :: s) := by
      show (v.reg r >>= fun a => v.mem a >>= fun w => _) = _
      rw [hi]
      show (v.mem idx >>= fun w => _) = _
      rw [hw]
      rfl
    rw [docRun, e]
    rfl

namespace Sample
/-- A debuggee with BP = 100, other registers 7, and every cell holding its address plus one. -/
def view : View := ⟨fun n => if n = "BP".toList then .ok 100 else .ok 7, fun a => .ok (a + 1)⟩
end Sample

example : (interpret .strict Sample.view [.baseOffset (-3), .push (.reg "R1".toList), .add]).toOption = some (.off 104) := by decide
example : (interpret .strict Sample.view [.push (.reg "R1".toList), .deref]).toOption = some (.off 8) := by decide

/-- **C40** fails for DEREFERENCE of an address: the debugger looks up the cell twice. `BASE_REG_OFFSET -3; DEREFERENCE`
should give the content of cell 97, which is 98, but gives the content of cell 98. -/
theorem C40_dereference_address : ∃ v : View,
    (interpret .strict v [.baseOffset (-3), .deref]).toOption = some (.off 99) ∧
    (docEval v [.baseOffset (-3), .deref]).toOption = some (.off 98) := ⟨Sample.view, by decide, by decide⟩

/-- **C40** fails when the result of DEREFERENCE is used by ADD: the dereferenced operand stays on the stack. -/
theorem C40_dereference_keeps : ∃ v : View,
    (interpret .strict v [.push (.off 50), .push (.reg "R1".toList), .deref, .add]).toOption = some (.off 15) ∧
    (docEval v [.push (.off 50), .push (.reg "R1".toList), .deref, .add]).toOption = some (.off 58) :=
  ⟨Sample.view, by decide, by decide⟩

/-! ## C41: types -/

namespace Dbg

/-- The size with the depth of the arrays. -/
inductive SizeH (types : Types) : Nat → Nat → Nat → Prop
  | base (id : Nat) (s : Word) : (types.find id = some (.prim .float s) ∨ (∃ p, types.find id = some (.prim p s)) ∨
      (∃ t, types.find id = some (.ptr t s)) ∨ (∃ n ms, types.find id = some (.struct n s ms))) → SizeH types id 0 s.toNat
  | arr (id t h n : Nat) (cnt : Word) : types.find id = some (.arr t cnt) → SizeH types t h n →
      SizeH types id (h + 1) (n * cnt.toNat)

theorem SizeOf.height {types : Types} {id n : Nat} (h : SizeOf types id n) : ∃ k, SizeH types id k n := by
  induction h with
  | prim id p s h => exact ⟨0, .base id s (.inr (.inl ⟨p, h⟩))⟩
  | ptr id t s h => exact ⟨0, .base id s (.inr (.inr (.inl ⟨t, h⟩)))⟩
  | struct id n s ms h => exact ⟨0, .base id s (.inr (.inr (.inr ⟨n, ms, h⟩)))⟩
  | arr id t n cnt h _ ih => obtain ⟨k, hk⟩ := ih; exact ⟨k + 1, .arr id t k n cnt h hk⟩

theorem SizeH.inj {types : Types} {id k n : Nat} (h : SizeH types id k n) : ∀ {k' n'}, SizeH types id k' n' → k = k' ∧ n = n' := by
  induction h with
  | base id s h =>
    intro k' n' h'
    cases h' with
    | base _ s' h' =>
      refine ⟨rfl, ?_⟩
      rcases h with h | ⟨p, h⟩ | ⟨t, h⟩ | ⟨nn, ms, h⟩ <;> rcases h' with h' | ⟨p', h'⟩ | ⟨t', h'⟩ | ⟨nn', ms', h'⟩ <;>
        (rw [h] at h'; cases h'; try rfl)
    | arr _ t hh nn cnt h' _ =>
      rcases h with h | ⟨p, h⟩ | ⟨t, h⟩ | ⟨nn, ms, h⟩ <;> (rw [h] at h'; cases h')
  | arr id t hh nn cnt h _ ih =>
    intro k' n' h'
    cases h' with
    | base _ s' h' =>
      rcases h' with h' | ⟨p', h'⟩ | ⟨t', h'⟩ | ⟨nn', ms', h'⟩ <;> (rw [h] at h'; cases h')
    | arr _ t' hh' nn' cnt' h' hs' =>
      rw [h] at h'; cases h'
      obtain ⟨rfl, rfl⟩ := ih hs'
      exact ⟨rfl, rfl⟩

/-- The types an array goes through, which are all different. -/
theorem SizeH.chain {types : Types} {id k n : Nat} (h : SizeH types id k n) :
    ∃ l : List Nat, l.length = k + 1 ∧ l.Nodup ∧ (∀ x ∈ l, x ∈ types.map (·.1)) ∧ (∀ x ∈ l, ∃ j m, j ≤ k ∧ SizeH types x j m) := by
  have key : ∀ {i : Nat} {t : Ty}, types.find i = some t → i ∈ types.map (·.1) :=
    fun h => List.mem_map.mpr ⟨_, Map.mem_of_find h, rfl⟩
  induction h with
  | base id s h =>
    refine ⟨[id], rfl, by simp, ?_, ?_⟩
    · intro x hx
      rw [List.mem_singleton] at hx
      subst hx
      rcases h with h | ⟨p, h⟩ | ⟨t, h⟩ | ⟨nn, ms, h⟩ <;> exact key h
    · intro x hx
      rw [List.mem_singleton] at hx
      subst hx
      exact ⟨0, _, Nat.le_refl _, .base _ s h⟩
  | arr id t hh nn cnt h hs ih =>
    obtain ⟨l, h1, h2, h3, h4⟩ := ih
    refine ⟨id :: l, by simp [h1], ?_, ?_, ?_⟩
    · rw [List.nodup_cons]
      refine ⟨?_, h2⟩
      intro hm
      obtain ⟨j, m, hj, hx⟩ := h4 id hm
      have := (hx.inj (.arr id t hh nn cnt h hs)).1
      omega
    · intro x hx
      rcases List.mem_cons.mp hx with rfl | hx
      · exact key h
      · exact h3 x hx
    · intro x hx
      rcases List.mem_cons.mp hx with rfl | hx
      · exact ⟨hh + 1, _, Nat.le_refl _, .arr _ t hh nn cnt h hs⟩
      · obtain ⟨j, m, hj, hx⟩ := h4 x hx
        exact ⟨j, m, by omega, hx⟩

theorem SizeH.bound {types : Types} {id k n : Nat} (h : SizeH types id k n) : k + 1 ≤ types.length := by
  obtain ⟨l, h1, h2, h3, _⟩ := h.chain
  have := (List.subperm_of_subset h2 h3).length_le
  rw [List.length_map] at this
  omega

theorem typeSizeLoop_of_height {types : Types} {id k n : Nat} (h : SizeH types id k n) : ∀ fuel, k < fuel →
    typeSizeLoop types fuel id = .ok (BitVec.ofNat 64 n) := by
  induction h with
  | base id s h =>
    intro fuel hf
    obtain ⟨fuel, rfl⟩ : ∃ f, fuel = f + 1 := ⟨fuel - 1, by omega⟩
    unfold typeSizeLoop
    rcases h with h | ⟨p, h⟩ | ⟨t, h⟩ | ⟨nn, ms, h⟩ <;> rw [h] <;> simp
  | arr id t hh nn cnt h hs ih =>
    intro fuel hf
    obtain ⟨fuel, rfl⟩ : ∃ f, fuel = f + 1 := ⟨fuel - 1, by omega⟩
    unfold typeSizeLoop
    rw [h]
    show (typeSizeLoop types fuel t >>= fun sub => Except.ok (sub * cnt)) = _
    rw [ih fuel (by omega)]
    show Except.ok _ = _
    congr 1
    apply BitVec.eq_of_toNat_eq
    simp [BitVec.toNat_mul]

theorem sizeOf_of_loop {types : Types} : ∀ fuel id w, typeSizeLoop types fuel id = .ok w →
    ∃ n, SizeOf types id n ∧ w = BitVec.ofNat 64 n := by
  intro fuel
  induction fuel with
  | zero => intro id w h; cases h
  | succ fuel ih =>
    intro id w h
    unfold typeSizeLoop at h
    split at h
    · cases h
    · rename_i p s hf; cases h; exact ⟨_, .prim id p _ hf, by simp⟩
    · rename_i p s hf; cases h; exact ⟨_, .ptr id p _ hf, by simp⟩
    · rename_i p s ms hf; cases h; exact ⟨_, .struct id p _ ms hf, by simp⟩
    · rename_i t cnt hf
      obtain ⟨sub, hs, h⟩ := bind_ok h
      cases h
      obtain ⟨n, hn, rfl⟩ := ih t sub hs
      refine ⟨_, .arr id t n cnt hf hn, ?_⟩
      apply BitVec.eq_of_toNat_eq
      simp [BitVec.toNat_mul]

theorem loop_debugger {types : Types} : ∀ fuel id n, SizeOf types id n → typeSizeLoop types fuel id ≠ .error .debugger := by
  intro fuel
  induction fuel with
  | zero => intro id n _ h; cases h
  | succ fuel ih =>
    intro id n hs h
    unfold typeSizeLoop at h
    cases hs with
    | prim _ p s hf => rw [hf] at h; cases h
    | ptr _ t s hf => rw [hf] at h; cases h
    | struct _ nn s ms hf => rw [hf] at h; cases h
    | arr _ t nn cnt hf hs =>
      rw [hf] at h
      apply ih t nn hs
      cases hl : typeSizeLoop types fuel t with
      | ok w => simp only [hl] at h; cases h
      | error e => simp only [hl] at h; cases h; rfl

end Dbg

/-- **C41**: the size computed for a type is the declared one, for an array the number of elements times the size of an
element (as a 64-bit number, so exactly when it is below 2⁶⁴), whatever the nesting. -/
theorem C41_size (types : Types) (id n : Nat) (h : SizeOf types id n) : getTypeSize types id = .ok (BitVec.ofNat 64 n) := by
  obtain ⟨k, hk⟩ := h.height
  exact typeSizeLoop_of_height hk _ (by have := hk.bound; omega)

/-- **C41**: no other size is ever computed. -/
theorem C41_size_sound (types : Types) (id : Nat) (w : Word) (h : getTypeSize types id = .ok w) :
    ∃ n, SizeOf types id n ∧ w = BitVec.ofNat 64 n := sizeOf_of_loop _ _ _ h

/-- **C41**: the types are those the debugging information declares, the first one for each number, when every structure
with a number has a name, a size and members. -/
theorem C41_types (unit : Die) (h : ∀ d ∈ unit.children, d.tag = .structuredType → d.findId ≠ none →
      d.findName ≠ none ∧ d.findSize ≠ none ∧ d.findMembers ≠ none) :
    ∃ types, reconstructTypes (some unit) = .ok types ∧
      ∀ id, types.find id = ((unit.children.filterMap Die.declares).find? (·.1 = id)).map (·.2) := by
  show ∃ types, unit.children.foldlM addType [] = .ok types ∧ _
  have step : ∀ (types : Types) (d : Die), (d.tag = .structuredType → d.findId ≠ none →
      d.findName ≠ none ∧ d.findSize ≠ none ∧ d.findMembers ≠ none) →
      addType types d = .ok (match d.declares with | some (id, t) => types.emplace id t | none => types) := by
    intro types d hd
    unfold addType
    cases hid : d.findId with
    | none =>
      have : d.declares = none := by unfold Die.declares; rw [hid]; cases d.tag <;> rfl
      rw [this]
    | some id =>
      simp only
      cases hf : types.find id with
      | some t =>
        have : ∀ (o : Option (Nat × Ty)), (∀ i t', o = some (i, t') → i = id) →
            (Except.ok types : Except Err Types) = .ok (match o with | some (id, t) => types.emplace id t | none => types) := by
          intro o ho
          cases o with
          | none => rfl
          | some e =>
            obtain ⟨i, t'⟩ := e
            have := ho i t' rfl
            subst this
            simp [Map.emplace, hf]
        apply this
        intro i t' hdec
        unfold Die.declares at hdec
        rw [hid] at hdec
        cases ht : d.tag <;> rw [ht] at hdec <;> simp only at hdec
        all_goals try (cases hdec; done)
        all_goals (split at hdec <;> cases hdec; rfl)
      | none =>
        have hem : ∀ t, types.emplace id t = types.assign id t := by
          intro t
          unfold Map.emplace
          rw [hf]
          simp only
          unfold Map.assign Map.erase
          rw [List.filter_eq_self.mpr]
          intro e he
          simp only [ne_eq, decide_not, Bool.not_eq_eq_eq_not, Bool.not_true, decide_eq_false_iff_not]
          rintro rfl
          exact (Map.find_eq_none e.1).mp hf e.2 he
        unfold Die.declares
        rw [hid]
        cases ht : d.tag with
        | primitiveType =>
          cases hn : d.findName with
          | none => simp
          | some n =>
            cases hp : toPrimitive n with
            | none => simp [hp]
            | some p =>
              cases hs : d.findSize with
              | none => simp [hp]
              | some s => simp [hp, hem]
        | structuredType =>
          obtain ⟨h1, h2, h3⟩ := hd ht (by rw [hid]; simp)
          cases hn : d.findName with
          | none => exact absurd hn h1
          | some n =>
            cases hs : d.findSize with
            | none => exact absurd hs h2
            | some s =>
              cases hm : d.findMembers with
              | none => exact absurd hm h3
              | some ms => simp [hem]
        | pointerType =>
          cases hn : d.findType with
          | none => simp
          | some n =>
            cases hs : d.findSize with
            | none => simp
            | some s => simp [hem]
        | arrayType =>
          cases hn : d.findType with
          | none => simp
          | some n =>
            cases hs : d.findSize with
            | none => simp
            | some s => simp [hem]
        | _ => rfl
  have fold : ∀ (l : List Die) (types : Types), (∀ d ∈ l, d.tag = .structuredType → d.findId ≠ none →
      d.findName ≠ none ∧ d.findSize ≠ none ∧ d.findMembers ≠ none) →
      ∃ types', l.foldlM addType types = .ok types' ∧
        ∀ id, types'.find id = (types.find id).or (((l.filterMap Die.declares).find? (·.1 = id)).map (·.2)) := by
    intro l
    induction l with
    | nil => intro types _; exact ⟨types, rfl, fun id => by simp⟩
    | cons d l ih =>
      intro types hl
      rw [List.foldlM_cons, step types d (hl d List.mem_cons_self)]
      obtain ⟨types', h1, h2⟩ := ih (match d.declares with | some (id, t) => types.emplace id t | none => types)
        (fun d' hd' => hl d' (List.mem_cons_of_mem _ hd'))
      refine ⟨types', h1, fun id => ?_⟩
      rw [h2 id]
      cases hdec : d.declares with
      | none => simp [hdec]
      | some e =>
        obtain ⟨i, t⟩ := e
        simp only
        rw [Map.find_emplace, List.filterMap_cons_some hdec]
        by_cases hi : id = i
        · subst hi
          cases types.find id <;> simp
        · have : ¬ i = id := fun h => hi h.symm
          simp [hi, this]
  obtain ⟨types, h1, h2⟩ := fold unit.children [] h
  exact ⟨types, h1, fun id => by rw [h2 id]; simp⟩

/-- Seven arrays of three pairs. -/
example : (getTypeSize [(0, .prim .signed 1), (1, .struct "pair".toList 2 []), (2, .arr 1 3), (3, .arr 2 7), (4, .arr 4 2)] 3).toOption
    = some 42 ∧ getTypeSize [(4, .arr 4 2)] 4 = .error .diverge ∧ getTypeSize [(4, .arr 4 2)] 5 = .error .debugger :=
  ⟨rfl, rfl, rfl⟩
example : SizeOf [(0, .prim .signed 1), (1, .arr 0 3)] 1 3 := .arr 1 0 1 3 rfl (.prim 0 .signed 1 rfl)

end T86
