import Verif.Props.CliData
import Verif.Props.Source

/-! # C63: listings of the text and of the source on the command line -/

set_option linter.unusedSimpArgs false
set_option maxRecDepth 100000

namespace T86
open Dbg Str
namespace Cli
open Job Isa Native

theorem typed_disassemble (e : Env) {ws : List Str} (hw : ∀ v ∈ ws, IsWord v) {s : Cli} (hp : s.process.isSome) :
    typed e (line ("disassemble".toList :: ws)) s = caught (onDisassemble e ws s) := by
  rw [typed_line e (by unfold IsWord; decide) hw (k := some .disassemble) (by decide) (by simp) (by simp) (by simp) hp]
  have : perform e (some .disassemble) (line ws) s = onDisassemble e ws s := by
    refine (bind_eq (process_eq hp)).trans ?_
    rw [split_line hw]
  rw [this]

theorem typed_source (e : Env) {ws : List Str} (hw : ∀ v ∈ ws, IsWord v) {s : Cli} (hp : s.process.isSome) :
    typed e (line ("source".toList :: ws)) s = caught (onSource ws s) := by
  rw [typed_line e (by unfold IsWord; decide) hw (k := some .source) (by decide) (by simp) (by simp) (by simp) hp]
  have : perform e (some .source) (line ws) s = onSource ws s := by
    refine (bind_eq (process_eq hp)).trans ?_
    rw [split_line hw]
  rw [this]

/-- The lines of the text `P` for the addresses from `a` to before `a + m`: each has its address and the instruction as the debuggee
prints it, whether a breakpoint is there and enabled, and whether it is the next one. -/
def listing (h : Host) (P : List Instr) (n : Native) (pc : Word) (a m : Nat) : List Out :=
  ((P.drop a).take m).mapIdx fun j i =>
    .text ((n.bps.find (BitVec.ofNat 64 (a + j))).map (·.enabled)) (decide (BitVec.ofNat 64 (a + j) = pc)) (a + j) (i.print h.ftos)

theorem parseAddress_ofNat {a : Nat} (ha : a < 2 ^ 63) : parseAddress (ofNat a) = .ok (BitVec.ofNat 64 a) := by
  have e1 : (BitVec.ofNat 64 a).toInt = a := by
    rw [BitVec.toInt_eq_toNat_of_lt (by rw [BitVec.toNat_ofNat, Nat.mod_eq_of_lt (by omega)]; omega), BitVec.toNat_ofNat, Nat.mod_eq_of_lt (by omega)]
  have e2 : ofInt (a : Int) = ofNat a := by
    unfold ofInt
    rw [if_neg (by omega)]
    rfl
  have := signed_ofInt (BitVec.ofNat 64 a)
  rw [e1, e2] at this
  unfold parseAddress
  rw [this]
  simp only
  rw [if_neg (by omega), BitVec.ofInt_natCast]

theorem address_eq {l : List Str} {i a : Nat} (hl : l[i]? = some (ofNat a)) (ha : a < 2 ^ 63) (s : Cli) :
    address l i s = (.ok (BitVec.ofNat 64 a), s) := by
  unfold address
  have : sub l i = .ok (ofNat a) := by
    unfold sub Proto.at'
    rw [hl]
  refine (bind_eq (x := Job.ofExcept (sub l i)) (a := ofNat a) (t := s) (by rw [this]; rfl)).trans ?_
  rw [parseAddress_ofNat ha]
  rfl

theorem textLines_eq (bps : Map Word Bp) (ip : Word) : ∀ {l : List Str} {a : Nat} (_ : a + l.length ≤ 2 ^ 64),
    textLines bps ip (BitVec.ofNat 64 a) l = l.mapIdx fun j t =>
      .text ((bps.find (BitVec.ofNat 64 (a + j))).map (·.enabled)) (decide (BitVec.ofNat 64 (a + j) = ip)) (a + j) t
  | [], _, _ => rfl
  | w :: l, a, ha => by
    simp only [List.length_cons] at ha
    rw [List.mapIdx_cons]
    unfold textLines
    rw [BitVec.toNat_ofNat, Nat.mod_eq_of_lt (by omega)]
    have : BitVec.ofNat 64 a + 1 = BitVec.ofNat 64 (a + 1) := by
      apply BitVec.eq_of_toNat_eq
      simp
    rw [this, textLines_eq bps ip (by omega)]
    simp only [mark, Nat.add_zero]
    congr 2
    funext j w
    rw [show a + 1 + j = a + (j + 1) by omega]

section
variable {h : Host} {c : Client} {prog P : List Instr} {data : List Word} {inp : List (BitVec 8)} {n : Native} {st : State} {s : Cli}

theorem getIP_shows (hs : Native.Shows h n st) : getIP h n = (.ok st.pc, n) :=
  (C49_read_register hs).1 .pc (by simp [shown])

theorem printText_eq (hn : s.process = some n) (hh : s.host = h) (hs : Native.Shows h n st) {a : Nat} {l : List Str} (hl : a + l.length ≤ 2 ^ 64) :
    printText (BitVec.ofNat 64 a) l s = (.ok (), { s with out := s.out ++ l.mapIdx (fun j t =>
      Out.text ((n.bps.find (BitVec.ofNat 64 (a + j))).map (fun x => x.enabled)) (decide (BitVec.ofNat 64 (a + j) = st.pc)) (a + j) t) }) := by
  obtain ⟨ho, cl, pr, src, ru, ou, inp⟩ := s
  cases hn
  cases hh
  unfold printText
  rw [bind_eq (call_eq (x := fun h _ => Native.getIP h) rfl (getIP_shows hs)), ← textLines_eq _ _ hl]
  rfl

variable (hl : prog.length < 2 ^ 63) (hp : ∀ i ∈ prog, Plain h i)
  (hx : Session h c (fun s i => s = i.print h.ftos ∧ Plain h i) prog data inp P n)
include hl hp hx

theorem session_size : P.length < 2 ^ 63 := (session_good (texts_print h) hl hp hx).text.size

theorem readText_shows (hs : Native.Shows h n st) {a m : Nat} (hm : a + m ≤ P.length) :
    readText h (BitVec.ofNat 64 a) (BitVec.ofNat 64 m) n = (.ok (((P.drop a).take m).map (·.print h.ftos)), n) := by
  have := session_size hl hp hx
  have e1 : (BitVec.ofNat 64 a).toNat = a := by rw [BitVec.toNat_ofNat, Nat.mod_eq_of_lt (by omega)]
  have e2 : (BitVec.ofNat 64 m).toNat = m := by rw [BitVec.toNat_ofNat, Nat.mod_eq_of_lt (by omega)]
  obtain ⟨r, hr⟩ := C28_total (texts_print h) hl hp hx hs.live (a := BitVec.ofNat 64 a) (m := BitVec.ofNat 64 m) (by rw [e1, e2]; exact hm)
  have h2 := (C28_letter_partial hl hp hx hr).2.2
  rw [e1, e2] at h2
  rw [hr, h2]

theorem textSize_shows (hs : Native.Shows h n st) : textSize h n = (.ok (BitVec.ofNat 64 P.length), n) := by
  have hg := session_good (texts_print h) hl hp hx
  have := Proc.textSize_eq (h := h) hs.live (by rw [hg.text.length]; have := hg.text.size; omega)
  rw [hg.text.length] at this
  unfold textSize proc
  rw [this]

/-- Reading and printing a part of the text. -/
theorem show_eq (hn : s.process = some n) (hh : s.host = h) (hs : Native.Shows h n st) {a m : Nat} (hm : a + m ≤ P.length) :
    (do let l ← call fun h _ => Native.readText h (BitVec.ofNat 64 a) (BitVec.ofNat 64 m); printText (BitVec.ofNat 64 a) l : C Unit) s =
      (.ok (), { s with out := s.out ++ listing h P n st.pc a m }) := by
  have h63 := session_size hl hp hx
  refine (bind_eq (call_eq hn (by rw [hh]; exact readText_shows hl hp hx hs hm))).trans ?_
  have : ({ s with process := some n } : Cli) = s := by
    obtain ⟨ho, cl, pr, src, ru, ou, inp⟩ := s
    cases hn
    rfl
  rw [this, printText_eq hn hh hs (by
    rw [List.length_map, List.length_take, List.length_drop]
    omega)]
  unfold listing
  congr 3
  apply List.ext_getElem? 
  intro j
  simp only [List.getElem?_mapIdx, List.getElem?_map, Option.map_map]
  rfl

/-- C63: `disassemble range a b` prints the text from `a` to before `b`, and changes nothing. -/
theorem C63_range (e : Env) (hn : s.process = some n) (hh : s.host = h) (hs : Native.Shows h n st) {a b : Nat} (hab : a ≤ b) (hb : b ≤ P.length) :
    typed e (line ["disassemble".toList, "range".toList, ofNat a, ofNat b]) s =
      (.ok (), { s with out := s.out ++ listing h P n st.pc a (b - a) }) := by
  have h63 := session_size hl hp hx
  rw [typed_disassemble e (words_three (by unfold IsWord; decide) a b) (by rw [hn]; rfl)]
  have : onDisassemble e ["range".toList, ofNat a, ofNat b] s = (.ok (), { s with out := s.out ++ listing h P n st.pc a (b - a) }) := by
    change disassembleRange ["range".toList, ofNat a, ofNat b] s = _
    unfold disassembleRange
    refine (bind_eq (address_eq (a := a) rfl (by omega) s)).trans ?_
    refine (bind_eq (address_eq (a := b) rfl (by omega) s)).trans ?_
    have : BitVec.ofNat 64 b - BitVec.ofNat 64 a = BitVec.ofNat 64 (b - a) := by
      apply BitVec.eq_of_toNat_eq
      rw [BitVec.toNat_sub_of_le (by rw [BitVec.le_def]; simp; omega)]
      simp
      omega
    rw [this]
    exact show_eq hl hp hx hn hh hs (by omega)
  rw [this]
  rfl

/-- C63: `disassemble from a m` prints `m` instructions from `a` on, and `disassemble from a` all of them. -/
theorem C63_from (e : Env) (hn : s.process = some n) (hh : s.host = h) (hs : Native.Shows h n st) {a : Nat} (ha : a < P.length) :
    (∀ m, a + m ≤ P.length → typed e (line ["disassemble".toList, "from".toList, ofNat a, ofNat m]) s =
      (.ok (), { s with out := s.out ++ listing h P n st.pc a m })) ∧
    typed e (line ["disassemble".toList, "from".toList, ofNat a]) s =
      (.ok (), { s with out := s.out ++ listing h P n st.pc a (P.length - a) }) := by
  have h63 := session_size hl hp hx
  have key : ∀ (ws : List Str) (m : Nat), ws[1]? = some (ofNat a) → a + m ≤ P.length →
      (∀ t, amountText ws (BitVec.ofNat 64 P.length - BitVec.ofNat 64 a) t = (.ok (BitVec.ofNat 64 m), t)) →
      disassembleFrom ws s = (.ok (), { s with out := s.out ++ listing h P n st.pc a m }) := by
    intro ws m hws hm ht
    unfold disassembleFrom
    refine (bind_eq (address_eq (a := a) hws (by omega) s)).trans ?_
    refine (bind_eq (call_eq hn (by rw [hh]; exact textSize_shows hl hp hx hs))).trans ?_
    have : ({ s with process := some n } : Cli) = s := by
      obtain ⟨ho, cl, pr, src, ru, ou, inp⟩ := s
      cases hn
      rfl
    rw [this, if_neg (by simp only [BitVec.toNat_ofNat]; rw [Nat.mod_eq_of_lt (by omega), Nat.mod_eq_of_lt (by omega)]; omega)]
    refine (bind_eq (ht s)).trans ?_
    exact show_eq hl hp hx hn hh hs hm
  constructor
  · intro m hm
    rw [typed_disassemble e (words_three (by unfold IsWord; decide) a m) (by rw [hn]; rfl)]
    change caught (disassembleFrom ["from".toList, ofNat a, ofNat m] s) = _
    rw [key ["from".toList, ofNat a, ofNat m] m rfl hm (fun t => address_eq (a := m) rfl (by omega) t)]
    rfl
  · rw [typed_disassemble e (words_two (by unfold IsWord; decide) (isWord_ofNat a)) (by rw [hn]; rfl)]
    change caught (disassembleFrom ["from".toList, ofNat a] s) = _
    rw [key ["from".toList, ofNat a] (P.length - a) rfl (by omega) (fun t => ?_)]
    · rfl
    · have : BitVec.ofNat 64 P.length - BitVec.ofNat 64 a = BitVec.ofNat 64 (P.length - a) := by
        apply BitVec.eq_of_toNat_eq
        rw [BitVec.toNat_sub_of_le (by rw [BitVec.le_def]; simp; omega)]
        simp
        omega
      rw [this]
      rfl

/-- C63: `disassemble function f` prints the text of the function, for the only function of this name. -/
theorem C63_function (e : Env) (hn : s.process = some n) (hh : s.host = h) (hs : Native.Shows h n st) {unit d : Die} {f : Str} {b en : Nat}
    (hu : s.source.top = some unit) (hd : d ∈ unit.children) (ht : d.tag = .function) (hf : d.findName = some f) (hw : IsWord f)
    (hb : d.findBegin = some b) (he : d.findEnd = some en)
    (hother : ∀ d' ∈ unit.children, d'.tag = .function → d'.findName = some f → d' = d) (hbe : b ≤ en) (hP : en ≤ P.length) :
    typed e (line ["disassemble".toList, "function".toList, f]) s =
      (.ok (), { s with out := s.out ++ listing h P n st.pc b (en - b) }) := by
  have h63 := session_size hl hp hx
  rw [typed_disassemble e (words_two (by unfold IsWord; decide) hw) (by rw [hn]; rfl)]
  have : onDisassemble e ["function".toList, f] s = (.ok (), { s with out := s.out ++ listing h P n st.pc b (en - b) }) := by
    change disassembleFunction ["function".toList, f] s = _
    unfold disassembleFunction
    refine (bind_eq (x := Job.ofExcept (Cli.sub ["function".toList, f] 1)) (a := f) (t := s) rfl).trans ?_
    refine (bind_eq (x := Job.get) (a := s) (t := s) rfl).trans ?_
    rw [hu, C38_range unit d f b en hd ht hf hb he hother]
    have : BitVec.ofNat 64 en - BitVec.ofNat 64 b = BitVec.ofNat 64 (en - b) := by
      apply BitVec.eq_of_toNat_eq
      rw [BitVec.toNat_sub_of_le (by rw [BitVec.le_def]; simp; omega)]
      simp
      omega
    simp only [this]
    exact show_eq hl hp hx hn hh hs (by omega)
  rw [this]
  rfl

omit hl hp hx in
/-- What is printed above a listing: the function of the address `a`, its extent and the names of the variables in scope. -/
theorem printFunction_eq (e : Env) (s : Cli) (a : Word) : ∃ F, printFunction e a false s = (.ok (), { s with out := s.out ++ F }) ∧
    (getFunctionNameByAddress s.source.top a.toNat = none → F = []) ∧
    ∀ f b d, getFunctionNameByAddress s.source.top a.toNat = some f → getFunctionAddrByName s.source.top f = some (b, d) →
      F = [.print ("function ".toList ++ f ++ " at ".toList ++ ofNat b ++ "-".toList ++ ofNat d ++
        activeVariables (Src.scopedVariables s.source a.toNat))] := by
  unfold printFunction
  rw [bind_eq (x := Job.get) (a := s) (t := s) rfl]
  cases h1 : getFunctionNameByAddress s.source.top a.toNat with
  | none => exact ⟨[], by simp only [List.append_nil]; rfl, fun _ => rfl, fun f b d hf => by cases hf⟩
  | some f =>
    simp only
    cases h2 : getFunctionAddrByName s.source.top f with
    | none => exact ⟨[], by simp only [List.append_nil]; rfl, fun _ => rfl, fun f' b d hf h3 => by cases hf; rw [h2] at h3; cases h3⟩
    | some p =>
      refine ⟨_, rfl, fun hf => (by cases hf), fun f' b d hf h3 => ?_⟩
      cases hf
      rw [h2] at h3
      cases h3
      rfl

theorem prettyText_eq (e : Env) (hn : s.process = some n) (hh : s.host = h) (hs : Native.Shows h n st) (hpc : st.pc.toNat < P.length) {F : List Out}
    (h1 : printFunction e st.pc false s = (.ok (), { s with out := s.out ++ F })) :
    prettyText e st.pc s = (.ok (), { s with
      out := s.out ++ F ++ listing h P n st.pc (st.pc.toNat - 2) (min P.length (st.pc.toNat + 3) - (st.pc.toNat - 2)) }) := by
  have h63 := session_size hl hp hx
  have hsame : ({ s with process := some n } : Cli) = s := by
    obtain ⟨ho, cl, pr, src, ru, ou, inp⟩ := s
    cases hn
    rfl
  have hsz : (BitVec.ofNat 64 P.length).toNat = P.length := by rw [BitVec.toNat_ofNat, Nat.mod_eq_of_lt (by omega)]
  unfold prettyText
  refine (bind_eq (call_eq hn (by rw [hh]; exact textSize_shows hl hp hx hs))).trans ?_
  rw [hsame, if_neg (by rw [hsz]; omega)]
  have hb : (if st.pc.toNat < 2 then (0 : Word) else st.pc - 2) = BitVec.ofNat 64 (st.pc.toNat - 2) := by
    split
    · rename_i h
      rw [show st.pc.toNat - 2 = 0 by omega]
      rfl
    · rename_i h
      apply BitVec.eq_of_toNat_eq
      rw [BitVec.toNat_sub_of_le (by rw [BitVec.le_def]; simp; omega)]
      simp
      omega
  have hp3 : (st.pc + 2 + 1).toNat = st.pc.toNat + 3 := by
    rw [BitVec.toNat_add, BitVec.toNat_add]
    simp
    omega
  have hd : (if (BitVec.ofNat 64 P.length).toNat ≤ (st.pc + 2 + 1).toNat then BitVec.ofNat 64 P.length else st.pc + 2 + 1) =
      BitVec.ofNat 64 (min P.length (st.pc.toNat + 3)) := by
    rw [hsz, hp3]
    split
    · rename_i h
      rw [Nat.min_eq_left h]
    · rename_i h
      rw [Nat.min_eq_right (by omega)]
      apply BitVec.eq_of_toNat_eq
      rw [hp3, BitVec.toNat_ofNat, Nat.mod_eq_of_lt (by omega)]
  simp only [hb, hd]
  have hsub : BitVec.ofNat 64 (min P.length (st.pc.toNat + 3)) - BitVec.ofNat 64 (st.pc.toNat - 2) =
      BitVec.ofNat 64 (min P.length (st.pc.toNat + 3) - (st.pc.toNat - 2)) := by
    apply BitVec.eq_of_toNat_eq
    rw [BitVec.toNat_sub_of_le (by rw [BitVec.le_def]; simp; omega)]
    simp
    omega
  rw [hsub]
  have hm : st.pc.toNat - 2 + (min P.length (st.pc.toNat + 3) - (st.pc.toNat - 2)) ≤ P.length := by omega
  refine (bind_eq (call_eq hn (by rw [hh]; exact readText_shows hl hp hx hs hm))).trans ?_
  rw [hsame]
  refine (bind_eq h1).trans ?_
  have := show_eq hl hp hx (s := { s with out := s.out ++ F }) hn hh hs hm
  rw [← this]
  symm
  refine (bind_eq (call_eq (s := { s with out := s.out ++ F }) hn (by simp only; rw [hh]; exact readText_shows hl hp hx hs hm))).trans ?_
  obtain ⟨ho, cl, pr, src, ru, ou, inp⟩ := s
  cases hn
  rfl

/-- C63: `disassemble` prints the text around the next instruction: two instructions before it and two after it, as far as there are
any. Above them it prints the function `F`, if there is one. -/
theorem C63_here (e : Env) (hn : s.process = some n) (hh : s.host = h) (hs : Native.Shows h n st) (hpc : st.pc.toNat < P.length) :
    ∃ F : List Out, typed e "disassemble".toList s = (.ok (), { s with
        out := s.out ++ F ++ listing h P n st.pc (st.pc.toNat - 2) (min P.length (st.pc.toNat + 3) - (st.pc.toNat - 2)) }) ∧
      (getFunctionNameByAddress s.source.top st.pc.toNat = none → F = []) ∧
      ∀ f b d, getFunctionNameByAddress s.source.top st.pc.toNat = some f → getFunctionAddrByName s.source.top f = some (b, d) →
        F = [.print ("function ".toList ++ f ++ " at ".toList ++ ofNat b ++ "-".toList ++ ofNat d ++
          activeVariables (Src.scopedVariables s.source st.pc.toNat))] := by
  obtain ⟨F, h1, h2, h3⟩ := printFunction_eq e s st.pc
  refine ⟨F, ?_, h2, h3⟩
  have := typed_disassemble e (ws := []) (by simp) (s := s) (by rw [hn]; rfl)
  refine Eq.trans this ?_
  have hsame : ({ s with process := some n } : Cli) = s := by
    obtain ⟨ho, cl, pr, src, ru, ou, inp⟩ := s
    cases hn
    rfl
  have key : onDisassemble e [] s = prettyText e st.pc s := by
    change (do
      let ip ← call fun h _ => Native.getIP h
      prettyText e ip : C Unit) s = _
    refine (bind_eq (call_eq hn (by rw [hh]; exact getIP_shows hs))).trans ?_
    rw [hsame]
  rw [key, prettyText_eq hl hp hx e hn hh hs hpc h1]
  rfl

end

/-! ## Source code -/

/-- The lines of the source from `b` on (counted from zero), at most `m`: each has its number, counted from one, whether a breakpoint is
there and enabled, and whether it is the line of the next instruction. -/
def sourceListing (src : Src.Source) (L : List Str) (n : Native) (pc : Word) (b m : Nat) : List Out :=
  ((L.drop b).take m).mapIdx fun j t =>
    .code (markLine src n.bps (b + j)) (decide (addrToLine src.lines pc.toNat = some (b + j))) (b + j + 1) t

theorem codeLines_eq {src : Src.Source} {L : List Str} (hf : src.file = some L) (bps : Map Word Bp) (cur : Option Nat) :
    ∀ (m b : Nat), codeLines src bps cur m b = ((L.drop b).take m).mapIdx fun j t =>
      .code (markLine src bps (b + j)) (cur == some (b + j)) (b + j + 1) t
  | 0, b => by simp [codeLines]
  | m + 1, b => by
    unfold codeLines
    have : lineOf src b = L[b]? := by
      unfold lineOf
      rw [hf]
      exact C37_line L b
    rw [this, codeLines_eq hf bps cur m (b + 1)]
    cases hL : L[b]? with
    | none =>
      have := List.getElem?_eq_none_iff.1 hL
      simp [List.drop_eq_nil_of_le this, List.drop_eq_nil_of_le (Nat.le_succ_of_le this)]
    | some l =>
      obtain ⟨hb, hl⟩ := List.getElem?_eq_some_iff.1 hL
      rw [List.drop_eq_getElem_cons hb, List.take_succ_cons, List.mapIdx_cons, hl]
      simp only [Nat.add_zero]
      congr 2
      funext j t
      rw [show b + 1 + j = b + (j + 1) by omega]

/-- C63: the mark of a line says whether there is a breakpoint, and whether it is enabled, at the address of the line; only the last of
several lines with the same address has it. -/
theorem C63_mark {src : Src.Source} {t : List (Nat × Nat)} (hl : src.lines = some (.ofEntries t)) (bps : Map Word Bp) (i : Nat) (x : Bool) :
    markLine src bps i = some x ↔
      ∃ a, entryOf t i = some a ∧ (∀ i', entryOf t i' = some a → i' ≤ i) ∧ ∃ bp, bps.find (BitVec.ofNat 64 a) = some bp ∧ bp.enabled = x := by
  unfold markLine
  rw [hl, C36_line]
  cases ha : entryOf t i with
  | none => simp
  | some a =>
    simp only
    have := C36_address t a i
    split
    · rename_i h
      rw [this] at h
      unfold mark
      constructor
      · intro hm
        obtain ⟨bp, h1, h2⟩ := Option.map_eq_some_iff.1 hm
        exact ⟨a, rfl, h.2, bp, h1, h2⟩
      · rintro ⟨a', h1, _, bp, h2, h3⟩
        cases h1
        rw [h2, ← h3]
        rfl
    · rename_i h
      rw [this] at h
      constructor
      · intro hm; cases hm
      · rintro ⟨a', h1, h2, _⟩
        cases h1
        exact absurd ⟨ha, h2⟩ h

section
variable {h : Host} {n : Native} {st : State} {s : Cli}

theorem printCode_eq (hn : s.process = some n) (hh : s.host = h) (hs : Native.Shows h n st) {L : List Str} (hf : s.source.file = some L) (b d : Nat) :
    printCode b d s = (.ok (), { s with out := s.out ++ sourceListing s.source L n st.pc b (d - b) }) := by
  obtain ⟨ho, cl, pr, src, ru, ou, inp⟩ := s
  cases hn
  cases hh
  unfold printCode
  rw [bind_eq (call_eq (x := fun h _ => Native.getIP h) rfl (getIP_shows hs))]
  unfold sourceListing
  have := codeLines_eq hf n.bps (addrToLine src.lines st.pc.toNat) (d - b) b
  simp only at this
  change (Except.ok (), _) = (Except.ok (), _)
  simp only [Cli.breakpoints]
  rw [this]
  simp only [beq_eq_decide]

/-- C63: `source` prints the line of the next instruction, two lines before it and two after it, as far as there are any. If there is no
such line, this is an error. -/
theorem C63_source (e : Env) (hn : s.process = some n) (hh : s.host = h) (hs : Native.Shows h n st) :
    (∀ L l, s.source.file = some L → addrToLine s.source.lines st.pc.toNat = some l → typed e "source".toList s =
      (.ok (), { s with out := s.out ++ sourceListing s.source L n st.pc (l - 2) (l + 3 - (l - 2)) })) ∧
    (addrToLine s.source.lines st.pc.toNat = none → typed e "source".toList s = (.ok (), { s with out := s.out ++ [.error] })) := by
  have := typed_source e (ws := []) (by simp) (s := s) (by rw [hn]; rfl)
  have hsame : ({ s with process := some n } : Cli) = s := by
    obtain ⟨ho, cl, pr, src, ru, ou, inp⟩ := s
    cases hn
    rfl
  have key : onSource [] s = (match addrToLine s.source.lines st.pc.toNat with
      | none => error
      | some l => printCode (l - 2) (l + 2 + 1) : C Unit) s := by
    change sourceHere s = _
    unfold sourceHere
    refine (bind_eq (call_eq hn (by rw [hh]; exact getIP_shows hs))).trans ?_
    rw [hsame]
    exact bind_eq (x := Job.get) (a := s) (t := s) rfl
  constructor
  · intro L l hf hl
    refine Eq.trans this ?_
    rw [key, hl]
    simp only
    rw [printCode_eq hn hh hs hf]
    rfl
  · intro hl
    refine Eq.trans this ?_
    rw [key, hl]
    rfl

/-- C63: `source from i m` prints `m` lines from line `i` on (counted from one), and `source from i` all of them. -/
theorem C63_source_from (e : Env) (hn : s.process = some n) (hh : s.host = h) (hs : Native.Shows h n st) {L : List Str}
    (hf : s.source.file = some L) {i : Nat} (hi : 0 < i) (hi2 : i ≤ L.length) (hL : L.length < 2 ^ 63) :
    (∀ m, m < 2 ^ 63 → typed e (line ["source".toList, "from".toList, ofNat i, ofNat m]) s =
      (.ok (), { s with out := s.out ++ sourceListing s.source L n st.pc (i - 1) m })) ∧
    typed e (line ["source".toList, "from".toList, ofNat i]) s =
      (.ok (), { s with out := s.out ++ sourceListing s.source L n st.pc (i - 1) (L.length - (i - 1)) }) := by
  have hsub : ∀ {x y : Nat}, x ≤ y → y < 2 ^ 64 → BitVec.ofNat 64 y - BitVec.ofNat 64 x = BitVec.ofNat 64 (y - x) := by
    intro x y hx hy
    apply BitVec.eq_of_toNat_eq
    rw [BitVec.toNat_sub_of_le (by rw [BitVec.le_def]; simp; omega)]
    simp
    omega
  have e1 : BitVec.ofNat 64 i - 1 = BitVec.ofNat 64 (i - 1) := hsub (x := 1) (by omega) (by omega)
  have key : ∀ (ws : List Str) (m : Nat), ws[1]? = some (ofNat i) → m < 2 ^ 63 →
      amountFrom ws (BitVec.ofNat 64 (i - 1)) s = (.ok (BitVec.ofNat 64 m), s) →
      sourceFrom ws s = (.ok (), { s with out := s.out ++ sourceListing s.source L n st.pc (i - 1) m }) := by
    intro ws m hws hm ht
    unfold sourceFrom
    refine (bind_eq (address_eq (a := i) hws (by omega) s)).trans ?_
    rw [if_neg (by
      intro h0
      have := congrArg BitVec.toNat h0
      rw [BitVec.toNat_ofNat, Nat.mod_eq_of_lt (by omega)] at this
      simp at this
      omega), e1]
    refine (bind_eq ht).trans ?_
    have e2 : (BitVec.ofNat 64 (i - 1)).toNat = i - 1 := by rw [BitVec.toNat_ofNat, Nat.mod_eq_of_lt (by omega)]
    have e3 : (BitVec.ofNat 64 (i - 1) + BitVec.ofNat 64 m).toNat = i - 1 + m := by
      rw [← BitVec.ofNat_add, BitVec.toNat_ofNat, Nat.mod_eq_of_lt (by omega)]
    rw [e2, e3, printCode_eq hn hh hs hf, Nat.add_sub_cancel_left]
  constructor
  · intro m hm
    rw [typed_source e (words_three (by unfold IsWord; decide) i m) (by rw [hn]; rfl)]
    change caught (sourceFrom ["from".toList, ofNat i, ofNat m] s) = _
    rw [key ["from".toList, ofNat i, ofNat m] m rfl hm (address_eq (a := m) rfl (by omega) s)]
    rfl
  · rw [typed_source e (words_two (by unfold IsWord; decide) (isWord_ofNat i)) (by rw [hn]; rfl)]
    change caught (sourceFrom ["from".toList, ofNat i] s) = _
    rw [key ["from".toList, ofNat i] (L.length - (i - 1)) rfl (by omega)]
    · rfl
    · unfold amountFrom
      rw [if_neg (by simp)]
      refine (bind_eq (x := Job.get) (a := s) (t := s) rfl).trans ?_
      rw [hf, ← hsub (x := i - 1) (y := L.length) (by omega) (by omega)]
      rfl

end
/-! ## What does not hold -/

/-- C63, the documentation: `disassemble range 1 3` does not print the instruction at 3 ("from b to e inclusive"). -/
theorem C63_range_exclusive : (exAfter ["disassemble range 1 3"]).out =
    [.text none false 1 "CALL 6".toList, .text none false 2 "MOV [8], R0".toList] := by decide +kernel

/-- C63: a range whose end is before its beginning is reported as an error, but it also ends the debuggee, so that the next step is
undefined. Without it the step works. -/
theorem C63_range_reversed : (exAfter ["disassemble range 3 1"]).out = [.error] ∧
    (typed exEnv "istep".toList (exAfter ["disassemble range 3 1"])).1 = .error .ub ∧
    (typed exEnv "istep".toList (exAfter [])).1 = .ok () := by decide +kernel

/-! ## Examples -/

/-- A debugger with a source of five lines, of which three have an address. -/
def exSource : Cli := { exCli with source := { lines := some (.ofEntries [(0, 0), (2, 1), (4, 2)]), file := some ["a".toList, "b".toList, "c".toList, "d".toList, "e".toList] } }

/-- Listings with breakpoints and the next instruction. -/
example : (["istep", "br iset 2", "source", "disassemble"].foldl (fun s x => (typed exEnv x.toList s).2) exSource).out.drop 5 =
    [.code none false 1 "a".toList, .code none false 2 "b".toList, .code none true 3 "c".toList, .code none false 4 "d".toList,
     .code (some true) false 5 "e".toList, .text none false 0 "MOV R0, 3".toList, .text none true 1 "CALL 6".toList,
     .text (some true) false 2 "MOV [8], R0".toList, .text none false 3 "MOV R1, [8]".toList] := by decide +kernel

/-- The theorems apply, for example, after the history of `Verif/Props/Native.lean`. -/
example : ∃ s : Cli, ∃ n st, s.process = some n ∧ s.host = Sample.host ∧ Native.Shows Sample.host n st ∧
    Session Sample.host Sample.client (fun s i => s = i.print Sample.host.ftos ∧ Plain Sample.host i) Sample.calls [] [] Sample.calls n ∧
    st.pc.toNat < Sample.calls.length := by
  obtain ⟨st, hs⟩ := Sample.calls_shows
  refine ⟨{ host := Sample.host, client := Sample.client, process := some _ }, _, st, rfl, rfl, hs, Sample.history_careful.session, ?_⟩
  have h1 := getIP_shows hs
  have h2 : (getIP Sample.host (Sample.after (Sample.started Sample.calls) Sample.history)).1 = .ok 4 := by decide +kernel
  rw [h1] at h2
  injection h2 with h2
  rw [h2]
  decide

end Cli
end T86
