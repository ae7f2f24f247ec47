import Verif.Lemmas.Proc
import Verif.Lemmas.Map

/-! Register listings. -/

set_option linter.unusedSimpArgs false
set_option linter.unusedVariables false

namespace T86
open Dbg Str

theorem ofNat_inj {i j : Nat} (h : ofNat i = ofNat j) : i = j := by
  have := congrArg digits h
  rwa [ofNat_digits, ofNat_digits] at this

namespace Proc
open Link

/-- A word of a listing. -/
def Field (s : Str) : Prop := s ≠ [] ∧ ':' ∉ s ∧ '\n' ∉ s

theorem split_line {a b : Str} (ha : Field a) (hb : Field b) : split (a ++ ":".toList ++ b) ':' = [a, b] := by
  have := C25_split_join ':' [a, b] (by
    intro p hp
    rcases List.mem_cons.1 hp with rfl | hp
    · exact ⟨ha.1, ha.2.1⟩
    · rcases List.mem_cons.1 hp with rfl | hp
      · exact ⟨hb.1, hb.2.1⟩
      · cases hp)
  rw [C25_join] at this
  simpa [List.intercalate, List.intersperse] using this

theorem regLine_eq {num : Str → Option Word} {a b : Str} {v : Word} (ha : Field a) (hb : Field b) (hv : num b = some v) :
    regLine num (a ++ ":".toList ++ b) = .ok (a, v) := by
  unfold regLine
  rw [split_line ha hb]
  simp only [Proto.at', List.getElem?_cons_zero, List.getElem?_cons_succ, bind, Except.bind, hv, Proto.deref]
  rfl

theorem mapM_regLine {num : Str → Option Word} {t : Word → Str} (ht : ∀ v, Field (t v) ∧ num (t v) = some v) :
    ∀ {l : List (Str × Word)}, (∀ p ∈ l, Field p.1) → (l.map fun p => p.1 ++ ":".toList ++ t p.2).mapM (regLine num) = .ok l
  | [], _ => rfl
  | p :: l, h => by
    rw [List.map_cons, List.mapM_cons, regLine_eq (h p (by simp)) (ht p.2).1 (ht p.2).2, mapM_regLine ht fun q hq => h q (by simp [hq])]
    rfl

theorem fold_assign : ∀ {l m : Map Str Word}, (m ++ l).Ok → l.foldl (fun m p => m.assign p.1 p.2) m = m ++ l
  | [], m, _ => by simp
  | p :: l, m, h => by
    have hp : m.assign p.1 p.2 = m ++ [p] := by
      unfold Map.assign Map.erase
      rw [List.filter_eq_self.2]
      intro q hq
      unfold Map.Ok at h
      rw [List.map_append, List.map_cons, List.nodup_append] at h
      have := h.2.2 q.1 (List.mem_map_of_mem (f := (·.1)) hq) p.1 (by simp)
      simpa using this
    rw [List.foldl_cons, hp, fold_assign (by simpa using h)]
    simp

theorem regMap_eq {num : Str → Option Word} {t : Word → Str} (ht : ∀ v, Field (t v) ∧ num (t v) = some v)
    {l : List (Str × Word)} (hl : ∀ p ∈ l, Field p.1) (hd : Map.Ok l) :
    regMap num (Proto.lines (l.map fun p => p.1 ++ ":".toList ++ t p.2)) = .ok l := by
  unfold regMap Proto.lines
  rw [show "\n".toList = ['\n'] from rfl, C25_split_terminated '\n' _ (by
    intro p hp
    obtain ⟨q, hq, rfl⟩ := List.mem_map.1 hp
    have h1 := (hl q hq).2.2
    have h2 := (ht q.2).1.2.2
    exact ⟨by simp, by simp [h1, h2]⟩), mapM_regLine ht hl]
  change Except.ok _ = Except.ok _
  rw [fold_assign (m := []) (by simpa using hd)]
  rfl

theorem field_digits {s : Str} (h1 : s ≠ []) (h : ∀ c ∈ s, isDigit c = true) : Field s :=
  ⟨h1, fun hc => absurd (h _ hc) (by decide), fun hc => absurd (h _ hc) (by decide)⟩

theorem field_ofNat (n : Nat) : Field (ofNat n) := field_digits (ofNat_ne_nil n) (ofNat_isDigit n)

theorem Field.cons {c : Char} (h1 : c ≠ ':') (h2 : c ≠ '\n') {s : Str} (h : Field s) : Field (c :: s) :=
  ⟨by simp, by simp [h.2.1, h1.symm], by simp [h.2.2, h2.symm]⟩

theorem field_ofInt (n : Int) : Field (ofInt n) := by
  unfold ofInt
  split
  · exact (field_ofNat _).cons (by decide) (by decide)
  · exact field_ofNat _

theorem field_debugName (i : Nat) : Field (Arch.debugName i) := (field_ofNat i).cons (by decide) (by decide)

theorem field_reg (r : Reg) : Field r.print := by
  cases r with
  | gp i => exact (field_ofNat i).cons (by decide) (by decide)
  | _ => exact ⟨List.cons_ne_nil _ _, by decide, by decide⟩

theorem debugName_inj {i j : Nat} (h : Arch.debugName i = Arch.debugName j) : i = j :=
  ofNat_inj (List.cons.inj h).2

theorem unsigned_text (v : Word) : Field (ofNat v.toNat) ∧ unsigned (ofNat v.toNat) = some v := by
  refine ⟨field_ofNat _, ?_⟩
  unfold unsigned
  rw [Proto.unsigned_nat v.isLt]
  simp

theorem signed_text (v : Word) : Field (ofInt v.toInt) ∧ signed (ofInt v.toInt) = some v := by
  refine ⟨field_ofInt _, ?_⟩
  unfold signed
  rw [Proto.signed_word]
  simp

/-- The debug registers under their names. -/
def listing : Nat → List Word → Map Str Word
  | _, [] => []
  | i, v :: l => (Arch.debugName i, v) :: listing (i + 1) l

theorem numberedLines_eq : ∀ (i : Nat) (l : List Word), Proto.numberedLines 'D' i (l.map fun w => ofNat w.toNat) =
    (listing i l).map fun p => p.1 ++ ":".toList ++ ofNat p.2.toNat
  | _, [] => rfl
  | i, v :: l => by
    rw [List.map_cons, Proto.numberedLines, numberedLines_eq, listing, List.map_cons]
    rfl

theorem mem_listing : ∀ {i : Nat} {l : List Word} {p : Str × Word}, p ∈ listing i l →
    ∃ j, i ≤ j ∧ j < i + l.length ∧ p.1 = Arch.debugName j
  | i, [], p, h => by cases h
  | i, v :: l, p, h => by
    rcases List.mem_cons.1 h with rfl | h
    · exact ⟨i, Nat.le_refl _, by simp, rfl⟩
    · obtain ⟨j, h1, h2, h3⟩ := mem_listing h
      exact ⟨j, by omega, by simp at h2 ⊢; omega, h3⟩

theorem listing_ok : ∀ (i : Nat) (l : List Word), Map.Ok (listing i l)
  | _, [] => List.nodup_nil
  | i, v :: l => by
    unfold Map.Ok listing
    rw [List.map_cons, List.nodup_cons]
    refine ⟨?_, listing_ok (i + 1) l⟩
    intro h
    obtain ⟨p, hp, e⟩ := List.mem_map.1 h
    obtain ⟨j, h1, _, h3⟩ := mem_listing hp
    rw [h3] at e
    have := debugName_inj e
    omega

theorem find_listing : ∀ (i : Nat) (l : List Word) (j : Nat), Map.find (listing i l) (Arch.debugName (i + j)) = l[j]?
  | _, [], j => by simp [listing]
  | i, v :: l, 0 => by simp [listing, Map.find_cons]
  | i, v :: l, j + 1 => by
    rw [listing, Map.find_cons, if_neg (fun h => by have := debugName_inj h; omega)]
    have := find_listing (i + 1) l j
    rw [show i + 1 + j = i + (j + 1) by omega] at this
    rw [this]
    rfl

theorem fetchDebugs_eq {h : Host} {l l' : Link} (hl : l.At) {r : Map Str Word} (hr : fetchDebugRegisters h l = (.ok r, l')) :
    l' = l ∧ r = listing 0 l.vm.cpu.dbg := by
  obtain ⟨h1, h2⟩ := fetchDebugs_ok hl hr
  refine ⟨h1, ?_⟩
  rw [numberedLines_eq, regMap_eq unsigned_text (fun p hp => by
    obtain ⟨j, _, _, e⟩ := mem_listing hp
    rw [e]
    exact field_debugName j) (listing_ok _ _)] at h2
  cases h2
  rfl

theorem setDebugs_ok {h : Host} : ∀ {m : Map Str Word} {l l' : Link}, l.At → m.Ok →
    (∀ p ∈ m, ∃ i, i < 5 ∧ p.1 = Arch.debugName i) → setDebugRegisters h m l = (.ok (), l') →
    ∃ D, l' = withDbg l D ∧ D.length = l.vm.cpu.dbg.length ∧
      ∀ i, i < l.vm.cpu.dbg.length → D.getD i 0 = (m.find (Arch.debugName i)).getD (l.vm.cpu.dbg.getD i 0)
  | [], l, l', hl, _, _, hr => by
    cases hr
    exact ⟨l.vm.cpu.dbg, rfl, rfl, fun i hi => rfl⟩
  | (name, v) :: m, l, l', hl, hm, hk, hr => by
    obtain ⟨i, hi, e⟩ := hk (name, v) (by simp)
    simp only at e
    subst e
    obtain ⟨h1, h2⟩ := setDebugs_cons hl (by omega) hr
    have hm' : Map.Ok m := (List.nodup_cons.1 hm).2
    have hn : Map.find m (Arch.debugName i) = none := by
      rw [Map.find_eq_none]
      intro w hw
      exact (List.nodup_cons.1 hm).1 (List.mem_map_of_mem (f := (·.1)) hw)
    obtain ⟨D, rfl, h4, h5⟩ := setDebugs_ok h1 hm' (fun p hp => hk p (by simp [hp])) h2
    have h6 : (withDbg l (l.vm.cpu.dbg.set i v)).vm.cpu.dbg = l.vm.cpu.dbg.set i v := rfl
    rw [h6] at h4 h5
    refine ⟨D, rfl, by simpa using h4, fun j hj => ?_⟩
    rw [h5 j (by simpa using hj), Map.find_cons]
    by_cases hij : i = j
    · subst hij
      rw [hn, if_pos rfl]
      simp [List.getD, hj]
    · rw [if_neg (fun h => hij (debugName_inj h))]
      congr 1
      simp [List.getD, hij]

end Proc
end T86
