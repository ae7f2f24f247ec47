import Verif.Lemmas.NativeTotal
import Verif.Props.Sample
import Verif.Props.Asm

/-! # Breakpoints, watchpoints and the text of the debuggee (C28, C29, C30, C32, C35)

A `Session` (`Verif/Spec/Native.lean`) is any sequence of calls: breakpoints, text, registers, memory, watchpoints, stepping
and continuing. `P` is what the text should be: the program that was loaded, changed by the user's own writes. -/

set_option linter.unusedSimpArgs false
set_option linter.unusedVariables false
set_option maxRecDepth 100000

namespace T86
open Dbg Str Native

section
variable {h : Host} {c : Client} {prog P : List Instr} {data : List Word} {inp : List (BitVec 8)} {n : Native}

theorem texts_means (h : Host) : Texts h (Means h) := ⟨id, fun hp => hp.means⟩

theorem texts_print (h : Host) : Texts h (fun s i => s = i.print h.ftos ∧ Plain h i) :=
  ⟨fun ⟨e, hp⟩ => e ▸ hp.means, fun hp => ⟨rfl, hp⟩⟩

/-! ## C28 -/

/-- C28 (except for writes over disabled breakpoints). Whatever has been done in the session, a read of the text that
succeeds is within the text, changes nothing, and shows the original instructions: every line is read back as the instruction
of the original text at its address. -/
theorem C28_text_partial (hs : prog.length < 2 ^ 63) (hp : ∀ i ∈ prog, Plain h i) (hx : Session h c (Means h) prog data inp P n)
    {a m : Word} {r : List Str} {n' : Native} (hr : readText h a m n = (.ok r, n')) :
    n' = n ∧ a.toNat + m.toNat ≤ P.length ∧ List.Forall₂ (Means h) r ((P.drop a.toNat).take m.toNat) := by
  obtain ⟨h1, h2, h3, h4⟩ := readText_ok (texts_means h) (session_good (texts_means h) hs hp hx) hr
  refine ⟨h1, h2, List.forall₂_iff_get.2 ⟨by rw [List.length_take, List.length_drop]; omega, ?_⟩⟩
  intro j hj1 hj2
  rw [h3] at hj1
  obtain ⟨s, hs1, hs2⟩ := h4 j P[a.toNat + j] hj1 (List.getElem?_eq_getElem (by omega))
  obtain ⟨_, hs1⟩ := List.getElem?_eq_some_iff.1 hs1
  simp only [List.get_eq_getElem, List.getElem_take, List.getElem_drop, hs1]
  exact hs2

/-- C28 (except for writes over disabled breakpoints), to the letter. If what the user writes is spelt as the debuggee prints
it, every line of the text that is read is the original instruction as the debuggee prints it. -/
theorem C28_letter_partial (hs : prog.length < 2 ^ 63) (hp : ∀ i ∈ prog, Plain h i)
    (hx : Session h c (fun s i => s = i.print h.ftos ∧ Plain h i) prog data inp P n)
    {a m : Word} {r : List Str} {n' : Native} (hr : readText h a m n = (.ok r, n')) :
    n' = n ∧ a.toNat + m.toNat ≤ P.length ∧ r = ((P.drop a.toNat).take m.toNat).map (·.print h.ftos) := by
  obtain ⟨h1, h2, h3, h4⟩ := readText_ok (texts_print h) (session_good (texts_print h) hs hp hx) hr
  refine ⟨h1, h2, List.ext_getElem (by rw [List.length_map, List.length_take, List.length_drop]; omega) ?_⟩
  intro j hj1 hj2
  rw [h3] at hj1
  obtain ⟨s, hs1, hs2, _⟩ := h4 j P[a.toNat + j] hj1 (List.getElem?_eq_getElem (by omega))
  obtain ⟨_, hs1⟩ := List.getElem?_eq_some_iff.1 hs1
  simp only [List.getElem_map, List.getElem_take, List.getElem_drop, hs1]
  exact hs2

/-- C28, reads succeed: at a stop, every read within the text returns, and changes nothing. -/
theorem C28_total {Tx : Str → Instr → Prop} (ht : Texts h Tx) (hs : prog.length < 2 ^ 63) (hp : ∀ i ∈ prog, Plain h i)
    (hx : Session h c Tx prog data inp P n) (hl : n.link.Live) {a m : Word} (ha : a.toNat + m.toNat ≤ P.length) :
    ∃ r, readText h a m n = (.ok r, n) :=
  readText_total (session_good ht hs hp hx) hl ha

/-- Is the operation a write of text? -/
def Op.isWrite : Op → Bool
  | .write _ _ => true
  | _ => false

/-- A session in which no text is written. -/
inductive Unwritten (h : Host) (c : Client) (prog : List Instr) (data : List Word) (inp : List (BitVec 8)) : Native → Prop
  | begin {n : Native} {e : Event} : Native.waitEvent h c (Native.connect h prog data inp) = (.ok e, n) →
      Unwritten h c prog data inp n
  | call {n n' : Native} (o : Op) : Unwritten h c prog data inp n → o.isWrite = false → o.run h c n = (.ok (), n') →
      Unwritten h c prog data inp n'

theorem Unwritten.session {Tx : Str → Instr → Prop} (hx : Unwritten h c prog data inp n) : Session h c Tx prog data inp prog n := by
  induction hx with
  | begin hb => exact .begin hb
  | call o _ hw hr ih => exact .call o ih hr (by cases o <;> first | rfl | cases hw)

/-- C28, in full for the sessions in which no text is written: reading the text shows the program that was loaded. -/
theorem C28_original (hs : prog.length < 2 ^ 63) (hp : ∀ i ∈ prog, Plain h i) (hx : Unwritten h c prog data inp n)
    {a m : Word} {r : List Str} {n' : Native} (hr : readText h a m n = (.ok r, n')) :
    n' = n ∧ a.toNat + m.toNat ≤ prog.length ∧ r = ((prog.drop a.toNat).take m.toNat).map (·.print h.ftos) :=
  C28_letter_partial hs hp hx.session hr

/-! ## C29 -/

/-- C29 (except for writes over disabled breakpoints). When every breakpoint has been removed or disabled, the text of the
debuggee is the original text, changed by the user's own writes. -/
theorem C29_restored_partial {Tx : Str → Instr → Prop} (ht : Texts h Tx) (hs : prog.length < 2 ^ 63) (hp : ∀ i ∈ prog, Plain h i)
    (hx : Session h c Tx prog data inp P n) (hd : ∀ a bp, n.bps.find a = some bp → bp.enabled = false) :
    n.link.vm.cpu.prog = P := by
  have hg := (session_good ht hs hp hx).text
  refine List.ext_getElem? fun j => ?_
  by_cases hj : j < 2 ^ 64
  · have := hg.clear (BitVec.ofNat 64 j) (hd _)
    rwa [BitVec.toNat_ofNat, Nat.mod_eq_of_lt hj] at this
  · have := hg.size
    have := hg.length
    rw [List.getElem?_eq_none (by omega), List.getElem?_eq_none (by omega)]

/-- C29, in full for the sessions in which no text is written. -/
theorem C29_original (hs : prog.length < 2 ^ 63) (hp : ∀ i ∈ prog, Plain h i) (hx : Unwritten h c prog data inp n)
    (hd : ∀ a bp, n.bps.find a = some bp → bp.enabled = false) : n.link.vm.cpu.prog = prog :=
  C29_restored_partial (texts_means h) hs hp hx.session hd

/-- C29, disabling and removing succeed at every stop, for every breakpoint that exists. -/
theorem C29_total {Tx : Str → Instr → Prop} (ht : Texts h Tx) (hs : prog.length < 2 ^ 63) (hp : ∀ i ∈ prog, Plain h i)
    (hx : Session h c Tx prog data inp P n) (hl : n.link.Live) {a : Word} {bp : Bp} (hf : n.bps.find a = some bp) :
    (∃ n', Native.disable h a n = (.ok (), n') ∧ n'.link.Live ∧ n'.bps.find a = some { bp with enabled := false }) ∧
    (∃ n', unsetBreakpoint h a n = (.ok (), n') ∧ n'.link.Live ∧ n'.bps.find a = none) :=
  ⟨disable_total ht (session_good ht hs hp hx) hl hf, unset_total ht (session_good ht hs hp hx) hl hf⟩

/-! ## C30 -/

/-- C30 (except for writes over disabled breakpoints). The debuggee's text has BKPT at an address exactly when the debugger
has an enabled breakpoint there or the original text has BKPT there. -/
theorem C30_armed_partial {Tx : Str → Instr → Prop} (ht : Texts h Tx) (hs : prog.length < 2 ^ 63) (hp : ∀ i ∈ prog, Plain h i)
    (hx : Session h c Tx prog data inp P n) (a : Word) :
    n.link.vm.cpu.prog[a.toNat]? = some .bkpt ↔
      (∃ bp, n.bps.find a = some bp ∧ bp.enabled = true) ∨ P[a.toNat]? = some .bkpt := by
  have hg := (session_good ht hs hp hx).text
  by_cases he : ∃ bp, n.bps.find a = some bp ∧ bp.enabled = true
  · obtain ⟨bp, h1, h2⟩ := he
    exact ⟨fun _ => .inl ⟨bp, h1, h2⟩, fun _ => hg.armed a bp h1 h2⟩
  · have := hg.clear a fun bp hf => by
      cases hb : bp.enabled with
      | true => exact absurd ⟨bp, hf, hb⟩ he
      | false => rfl
    rw [this]
    exact ⟨.inr, fun h => h.resolve_left he⟩

/-- C30, in full for the sessions in which no text is written. -/
theorem C30_original (hs : prog.length < 2 ^ 63) (hp : ∀ i ∈ prog, Plain h i) (hx : Unwritten h c prog data inp n) (a : Word) :
    n.link.vm.cpu.prog[a.toNat]? = some .bkpt ↔
      (∃ bp, n.bps.find a = some bp ∧ bp.enabled = true) ∨ prog[a.toNat]? = some .bkpt :=
  C30_armed_partial (texts_means h) hs hp hx.session a

/-- C30, setting: at a stop, a breakpoint can be set at every address of the text where there is none. -/
theorem C30_set {Tx : Str → Instr → Prop} (ht : Texts h Tx) (hs : prog.length < 2 ^ 63) (hp : ∀ i ∈ prog, Plain h i)
    (hx : Session h c Tx prog data inp P n) (hl : n.link.Live) {a : Word} (ha : a.toNat < P.length) (hf : n.bps.find a = none) :
    ∃ s n', setBreakpoint h a n = (.ok (), n') ∧ n'.bps = n.bps ++ [(a, ⟨s, true⟩)] ∧ n'.link.Live ∧
      n'.link.vm.cpu.prog = n.link.vm.cpu.prog.set a.toNat .bkpt := by
  obtain ⟨s, e⟩ := setBreakpoint_total (session_good ht hs hp hx) hl ha hf
  exact ⟨s, _, e, rfl, ⟨hl.1, hl.2, hl.3, hl.4⟩, rfl⟩

/-- C30, enabling succeeds at every stop, for every breakpoint that exists. -/
theorem C30_enable {Tx : Str → Instr → Prop} (ht : Texts h Tx) (hs : prog.length < 2 ^ 63) (hp : ∀ i ∈ prog, Plain h i)
    (hx : Session h c Tx prog data inp P n) (hl : n.link.Live) {a : Word} {bp : Bp} (hf : n.bps.find a = some bp) :
    ∃ n', Native.enable h a n = (.ok (), n') ∧ n'.link.Live ∧ ∃ s, n'.bps.find a = some ⟨s, true⟩ :=
  enable_total (session_good ht hs hp hx) hl hf

/-- C30, rejections. A second breakpoint at an address is rejected, and so are enabling, disabling and removing a breakpoint
that does not exist; nothing changes. -/
theorem C30_rejected (h : Host) (n : Native) (a : Word) :
    ((n.bps.find a).isSome → setBreakpoint h a n = (.error .debugger, n)) ∧
    (n.bps.find a = none → Native.enable h a n = (.error .debugger, n) ∧ Native.disable h a n = (.error .debugger, n) ∧
      unsetBreakpoint h a n = (.error .debugger, n)) := by
  refine ⟨fun hs => ?_, fun hf => ?_⟩
  · obtain ⟨bp, hf⟩ := Option.isSome_iff_exists.1 hs
    unfold setBreakpoint
    rw [Job.bind_eq (x := Job.get) (t := n) (a := n) rfl]
    simp only [hf]
    rfl
  · have e1 : Native.disable h a n = (.error .debugger, n) := by
      unfold Native.disable
      rw [Job.bind_eq (x := Job.get) (t := n) (a := n) rfl]
      simp only [hf]
      rfl
    refine ⟨?_, e1, ?_⟩
    · unfold Native.enable
      rw [Job.bind_eq (x := Job.get) (t := n) (a := n) rfl]
      simp only [hf]
      rfl
    · unfold unsetBreakpoint
      rw [Job.bind_error e1]

/-! ## C32 -/

/-- C32. Every watchpoint of a session has its own debug register (of the four), which holds its address and is active; no
address has two watchpoints; there are at most four. -/
theorem C32_registers {Tx : Str → Instr → Prop} (ht : Texts h Tx) (hs : prog.length < 2 ^ 63) (hp : ∀ i ∈ prog, Plain h i)
    (hx : Session h c Tx prog data inp P n) :
    (∀ w ∈ n.wps, w.2 < 4 ∧ n.link.vm.cpu.dbg.getD w.2 0 = w.1 ∧ (n.link.vm.cpu.dbg.getD 4 0).getLsbD w.2 = true) ∧
    (n.wps.map (·.2)).Nodup ∧ (n.wps.map (·.1)).Nodup ∧ n.wps.length ≤ 4 := by
  have hw := (session_good ht hs hp hx).watch
  refine ⟨fun w hm => ⟨hw.small w hm, hw.addr w hm, hw.active w hm⟩, hw.own, hw.ok, ?_⟩
  have : n.wps.map (·.2) ⊆ List.range 4 := by
    intro i hi
    obtain ⟨w, h1, rfl⟩ := List.mem_map.1 hi
    exact List.mem_range.2 (hw.small w h1)
  have := (List.subperm_of_subset hw.own this).length_le
  simpa using this

theorem bit_ofNat (i j : Nat) (h : i < 64) : (BitVec.ofNat 64 (2 ^ i)).getLsbD j = decide (i = j) := by
  rw [BitVec.getLsbD_ofNat, Nat.testBit_two_pow]
  by_cases e : i = j
  · subst e; simp [h]
  · simp [e]

/-- C32, the control register. Activating a debug register sets its bit of the control register and no other, deactivating one
clears its bit and no other; the other registers stay. -/
theorem C32_control {regs regs' : Map Str Word} {i : Nat} (hi : i < 4) :
    (Arch.activate i regs = .ok regs' → ∃ v v', regs.find "D4".toList = some v ∧ regs'.find "D4".toList = some v' ∧
      (∀ j, v'.getLsbD j = (v.getLsbD j || decide (i = j))) ∧ ∀ r, r ≠ "D4".toList → regs'.find r = regs.find r) ∧
    (Arch.deactivate i regs = .ok regs' → ∃ v v', regs.find "D4".toList = some v ∧ regs'.find "D4".toList = some v' ∧
      (∀ j, v'.getLsbD j = (v.getLsbD j && !decide (i = j))) ∧ ∀ r, r ≠ "D4".toList → regs'.find r = regs.find r) := by
  have hb := bit_ofNat i
  constructor <;>
  · intro hr
    first | unfold Arch.activate Arch.at' at hr | unfold Arch.deactivate Arch.at' at hr
    cases hf : regs.find "D4".toList with
    | none => simp only [hf] at hr; cases hr
    | some v =>
      simp only [hf] at hr
      cases hr
      refine ⟨v, _, rfl, by rw [Map.find_assign, if_pos rfl], fun j => ?_, fun r h => by rw [Map.find_assign, if_neg h]⟩
      first
      | rw [BitVec.getLsbD_or, hb j (by omega)]
      | rw [BitVec.getLsbD_and, BitVec.getLsbD_not, hb j (by omega)]
        by_cases hj : j < 64
        · simp [hj]
        · have : v.getLsbD j = false := BitVec.getLsbD_of_ge _ _ (by omega)
          simp [this]

example : (Arch.deactivate 2 [("D4".toList, 7)]).map (fun m => m.find "D4".toList) = .ok (some 3) := rfl

/-- C32, rejections. When there are four watchpoints a fifth is rejected, and so is a second one for an address; nothing
changes. -/
theorem C32_rejected {Tx : Str → Instr → Prop} (ht : Texts h Tx) (hs : prog.length < 2 ^ 63) (hp : ∀ i ∈ prog, Plain h i)
    (hx : Session h c Tx prog data inp P n) (a : Word) (ha : n.wps.length = 4 ∨ (n.wps.find a).isSome) :
    setWatchpoint h a n = (.error .debugger, n) := by
  unfold setWatchpoint
  rw [Job.bind_eq (x := Job.get) (t := n) (a := n) rfl]
  cases hf : n.wps.find a with
  | some i => rfl
  | none =>
    rw [hf] at ha
    have ha := ha.resolve_right (by simp)
    cases hr : freeRegister n.wps with
    | none => rfl
    | some i =>
      exfalso
      have hw := (session_good ht hs hp hx).watch
      obtain ⟨h1, h2⟩ := freeRegister_some hr
      have hnd : (i :: n.wps.map (·.2)).Nodup := List.nodup_cons.2 ⟨fun hm => by
        obtain ⟨w, g1, g2⟩ := List.mem_map.1 hm
        exact h2 w g1 g2, hw.own⟩
      have hsub : i :: n.wps.map (·.2) ⊆ List.range 4 := by
        intro j hj
        rcases List.mem_cons.1 hj with rfl | hj
        · exact List.mem_range.2 h1
        · obtain ⟨w, g1, rfl⟩ := List.mem_map.1 hj
          exact List.mem_range.2 (hw.small w g1)
      have := (List.subperm_of_subset hnd hsub).length_le
      simp at this
      omega

/-- C32, setting. A watchpoint that is set takes a debug register that no watchpoint has, and changes no other address. -/
theorem C32_set {Tx : Str → Instr → Prop} (ht : Texts h Tx) (hs : prog.length < 2 ^ 63) (hp : ∀ i ∈ prog, Plain h i)
    (hx : Session h c Tx prog data inp P n) {a : Word} {n' : Native} (hr : setWatchpoint h a n = (.ok (), n')) :
    n.wps.find a = none ∧ ∃ i, i < 4 ∧ (∀ w ∈ n.wps, w.2 ≠ i) ∧ n'.wps = n.wps ++ [(a, i)] ∧
      n'.link.vm.cpu.dbg.getD i 0 = a ∧ (n'.link.vm.cpu.dbg.getD 4 0).getLsbD i = true ∧
      ∀ j, j < 4 → j ≠ i → n'.link.vm.cpu.dbg.getD j 0 = n.link.vm.cpu.dbg.getD j 0 ∧
        (n'.link.vm.cpu.dbg.getD 4 0).getLsbD j = (n.link.vm.cpu.dbg.getD 4 0).getLsbD j := by
  have hg := session_good ht hs hp hx
  obtain ⟨h1, i, D, h2, h3, h4, h5, h6⟩ := setWatchpoint_ok hg.rest hg.watch hr
  obtain ⟨g1, g2⟩ := freeRegister_some h2
  refine ⟨h1, i, g1, g2, by rw [h6], ?_, ?_, fun j hj hne => ⟨?_, ?_⟩⟩
  · rw [h6]
    show D.getD i 0 = a
    rw [h4 i g1, if_pos rfl]
  · rw [h6]
    show (D.getD 4 0).getLsbD i = true
    rw [h5, getLsbD_or_pow]
    simp
    omega
  · rw [h6]
    show D.getD j 0 = _
    rw [h4 j hj, if_neg hne]
  · rw [h6]
    show (D.getD 4 0).getLsbD j = _
    rw [h5, getLsbD_or_pow]
    simp
    omega

/-- C32, setting succeeds: at a stop, with fewer than four watchpoints, every address without one can get one. -/
theorem C32_total {Tx : Str → Instr → Prop} (ht : Texts h Tx) (hs : prog.length < 2 ^ 63) (hp : ∀ i ∈ prog, Plain h i)
    (hx : Session h c Tx prog data inp P n) (hl : n.link.Live) {a : Word} (hf : n.wps.find a = none) (hn : n.wps.length < 4) :
    ∃ n', setWatchpoint h a n = (.ok (), n') ∧ n'.link.Live :=
  setWatchpoint_total (session_good ht hs hp hx) hl hf hn

/-! ## C35 -/

/-- C35 (as long as the end of the range is an address), text. A read or write of text that is not completely within the text
is rejected, and nothing changes. -/
theorem C35_text_partial {Tx : Str → Instr → Prop} (ht : Texts h Tx) (hs : prog.length < 2 ^ 63) (hp : ∀ i ∈ prog, Plain h i)
    (hx : Session h c Tx prog data inp P n) (hl : n.link.Live) {a : Word} :
    (∀ m : Word, P.length < a.toNat + m.toNat → a.toNat + m.toNat < 2 ^ 64 → readText h a m n = (.error .debugger, n)) ∧
    (∀ l : List Str, P.length < a.toNat + l.length → a.toNat + l.length < 2 ^ 64 → writeText h a l n = (.error .debugger, n)) := by
  have hg := session_good ht hs hp hx
  refine ⟨fun m h1 h2 => ?_, fun l h1 h2 => ?_⟩
  · refine outside_eq hg hl ?_ _
    rw [BitVec.toNat_add, Nat.mod_eq_of_lt h2]
    exact h1
  · refine outside_eq hg hl ?_ _
    rw [toNat_add h2]
    exact h1

/-- C35 (as long as the end of the range is an address), memory. A read or write of memory that is not completely within the
memory the debugger believes in is rejected, and nothing changes. -/
theorem C35_memory_partial (h : Host) (c : Client) (n : Native) {a : Word} :
    (∀ m : Word, c.size < a.toNat + m.toNat → a.toNat + m.toNat < 2 ^ 64 → readMemory h c a m n = (.error .debugger, n)) ∧
    (∀ l : List Word, c.size < a.toNat + l.length → a.toNat + l.length < 2 ^ 64 → setMemory h c a l n = (.error .debugger, n)) := by
  refine ⟨fun m h1 h2 => ?_, fun l h1 h2 => ?_⟩
  · unfold readMemory Native.proc Proc.readMemory
    rw [BitVec.toNat_add, Nat.mod_eq_of_lt h2, if_pos h1]
    rfl
  · unfold setMemory Native.proc Proc.writeMemory
    rw [toNat_add h2, if_pos h1]
    rfl

end

/-! ## Examples and counterexamples -/

namespace Sample

/-- A host for the samples. -/
def host : Host := ⟨cfg, 8, 1024, exStod, exFtos, exFtos, fun _ => none, 64⟩

/-- What the debugger believes in: three registers, one float register, 16 words of memory. -/
def client : Client := ⟨10, 4, 16⟩

/-- The state after some calls. -/
def after (n : Native) (l : List Op) : Native := l.foldl (fun n o => (o.run host client n).2) n

/-- The debugger at the start of a program. -/
def started (p : List Instr) : Native := (Native.waitEvent host client (Native.connect host p [] [])).2

/-- Do these calls succeed? -/
def succeed (n : Native) : List Op → Bool
  | [] => true
  | o :: l => decide ((o.run host client n).1 = .ok ()) && succeed (o.run host client n).2 l

end Sample

/-- Calls other than writes of text make a session. -/
theorem Sample.unwritten {p : List Instr} : ∀ {l : List Op} {n : Native}, Unwritten Sample.host Sample.client p [] [] n →
    l.all (fun o => !o.isWrite) = true → Sample.succeed n l = true → Unwritten Sample.host Sample.client p [] [] (Sample.after n l)
  | [], _, hn, _, _ => hn
  | o :: l, n, hn, hw, hs => by
    simp only [List.all_cons, Bool.and_eq_true, Bool.not_eq_true', Sample.succeed, decide_eq_true_eq] at hw hs
    exact Sample.unwritten (l := l) (.call o hn hw.1 (Prod.ext hs.1 rfl)) hw.2 hs.2

namespace Sample

/-- A program with a call, a store and a load, all of which can be written in the assembly language. -/
def calls : List Instr :=
  [.mov (.val (.reg (.gp 0))) (.imm 3),
   .call (.imm 6),
   .mov (.memImm 8) (.val (.reg (.gp 0))),
   .mov (.val (.reg (.gp 1))) (.memImm 8),
   .putnum (.gp 1),
   .halt,
   .bin .add false (.gp 0) (.gp 0) (.imm 4),
   .ret]

theorem calls_plain : ∀ i ∈ calls, Plain host i := by
  intro i hi
  simp only [calls, List.mem_cons, List.not_mem_nil, or_false] at hi
  rcases hi with rfl | rfl | rfl | rfl | rfl | rfl | rfl | rfl <;>
    simp [Plain, Instr.Writable, Instr.Shape, MovShape, Operand.isImmReg, Operand.isMem, Instr.shown, Operand.Named,
      RegExpr.Named, Reg.Named, Operand.Legible, Word.Literal]

/-- Breakpoints set, hit, disabled, enabled and removed, a step, a watchpoint hit, a step over. -/
def history : List Op :=
  [.set 1, .set 4, .go, .set 6, .disable 1, .step, .watch 8, .go, .unset 4, .enable 1, .over 5 true, .registers]

end Sample

theorem Sample.begun {p : List Instr} (hb : ((Native.waitEvent Sample.host Sample.client (Native.connect Sample.host p [] [])).1 = .ok .begin)) :
    Unwritten Sample.host Sample.client p [] [] (Sample.started p) := .begin (Prod.ext hb rfl)

/-- Non-vacuity: the history is a session without writes of text, so the theorems above apply to it. -/
theorem Sample.history_unwritten :
    Unwritten Sample.host Sample.client Sample.calls [] [] (Sample.after (Sample.started Sample.calls) Sample.history) :=
  Sample.unwritten (Sample.begun (by decide +kernel)) (by decide) (by decide +kernel)

/-- What it has come to: breakpoints at 6 and 1, which the text has and a read of the text does not show; one watchpoint. -/
example :
    (Sample.after (Sample.started Sample.calls) Sample.history).bps =
      [(6, ⟨"ADD R0, 4".toList, true⟩), (1, ⟨"CALL 6".toList, true⟩)] ∧
    (Sample.after (Sample.started Sample.calls) Sample.history).link.vm.cpu.prog[6]? = some .bkpt ∧
    (Native.readText Sample.host 5 3 (Sample.after (Sample.started Sample.calls) Sample.history)).1 =
      .ok ["HALT".toList, "ADD R0, 4".toList, "RET".toList] ∧
    (Sample.after (Sample.started Sample.calls) Sample.history).wps = [(8, 0)] ∧
    (Sample.after (Sample.started Sample.calls) Sample.history).link.vm.cpu.dbg = [8, 0, 0, 0, 0x101] := by
  decide +kernel

example : (Sample.after (Sample.started Sample.calls) Sample.history).link.Live :=
  ⟨by decide +kernel, by decide +kernel, by decide +kernel, ⟨.singleStep, by decide +kernel⟩⟩

/-- Non-vacuity, with a write over an enabled breakpoint: the user has written `NOP` at 4, the debuggee's text has BKPT. -/
example : ∃ n, Session Sample.host Sample.client (fun s i => s = i.print Sample.host.ftos ∧ Plain Sample.host i) Sample.calls [] []
      (Sample.calls.set 4 .nop) n ∧ n.link.vm.cpu.prog[4]? = some .bkpt ∧
      (Native.readText Sample.host 4 1 n).1 = .ok ["NOP".toList] := by
  have h1 : Session Sample.host Sample.client (fun s i => s = i.print Sample.host.ftos ∧ Plain Sample.host i) Sample.calls [] []
      Sample.calls (Sample.after (Sample.started Sample.calls) [.set 4]) :=
    (Sample.unwritten (l := [.set 4]) (Sample.begun (by decide +kernel)) (by decide) (by decide +kernel)).session
  generalize hn : Sample.after (Sample.started Sample.calls) [.set 4] = n at h1
  have e : n.bps = [(4, ⟨"PUTNUM R1".toList, true⟩)] := by rw [← hn]; decide +kernel
  have hp : Plain Sample.host .nop := by simp [Plain, Instr.Writable, Instr.Shape, Instr.shown]
  refine ⟨(Op.run Sample.host Sample.client (.write 4 ["NOP".toList]) n).2, .call (.write 4 ["NOP".toList]) h1
    (Prod.ext (by rw [← hn]; decide +kernel) rfl) ?_, by rw [← hn]; decide +kernel, by rw [← hn]; decide +kernel⟩
  refine ⟨[.nop], .cons ⟨rfl, hp⟩ .nil, ?_, rfl, ?_⟩
  · intro i hi
    rw [List.mem_singleton.1 hi]
    exact hp
  · intro b bp hb _ _
    rw [e, Map.find_cons] at hb
    split at hb <;> cases hb
    rfl

/-- C30 and C29 fail for writes over a disabled breakpoint. Set a breakpoint at 3 and disable it, then write `NOP` there: no
breakpoint is enabled, the user has written `NOP`, but the text of the debuggee has BKPT. When the breakpoint is enabled
again, BKPT is taken for the original instruction and C28 fails, too: a read shows BKPT, where the user has written `NOP`. -/
theorem C30_write_disabled :
    ∃ n, n = Sample.after (Sample.started Sample.calls) [.set 3, .disable 3, .write 3 ["NOP".toList]] ∧
      Sample.succeed (Sample.started Sample.calls) [.set 3, .disable 3, .write 3 ["NOP".toList], .enable 3] = true ∧
      n.bps = [(3, ⟨"NOP".toList, false⟩)] ∧ n.link.vm.cpu.prog = Sample.calls.set 3 .bkpt ∧
      (Native.readText Sample.host 3 1 n).1 = .ok ["NOP".toList] ∧
      (Native.readText Sample.host 3 1 (Sample.after n [.enable 3])).1 = .ok ["BKPT".toList] := by
  refine ⟨_, rfl, ?_⟩
  decide +kernel

/-- C35 fails when the end of the range is not an address: a read of one word at the last address passes the check, and the
message ends the debuggee. The same happens to a read of text. -/
theorem C35_wraps :
    (Native.readMemory Sample.host Sample.client (-1) 1 (Sample.started Sample.calls)).2.link.dead = true ∧
    (Native.readText Sample.host (-1) 1 (Sample.started Sample.calls)).2.link.dead = true ∧
    (Native.setMemory Sample.host Sample.client (-1) [7] (Sample.started Sample.calls)).2.link.dead = true := by
  decide +kernel

/-- The addresses of breakpoints are not checked: a breakpoint after the end of the text ends the debuggee. -/
theorem C35_breakpoint_outside :
    (Native.setBreakpoint Sample.host 8 (Sample.started Sample.calls)).2.link.dead = true := by
  decide +kernel

/-- The size of the memory is not asked for: when the debuggee has less memory than the debugger believes, a read passes the
check and ends the debuggee. -/
theorem C35_believed_size :
    (Native.readMemory Sample.host Client.default 16 1 (Sample.started Sample.calls)).2.link.dead = true := by
  decide +kernel

/-- A write of text that is rejected because a line is not an instruction has already written the lines before it. -/
theorem C35_write_applied :
    (Native.writeText Sample.host 3 ["NOP".toList, "NONSENSE".toList] (Sample.started Sample.calls)).1 = .error .debugger ∧
    (Native.writeText Sample.host 3 ["NOP".toList, "NONSENSE".toList] (Sample.started Sample.calls)).2.link.vm.cpu.prog =
      Sample.calls.set 3 .nop := by
  decide +kernel

/-- Non-vacuity of C35: reads and writes outside. -/
example : (Native.readMemory Sample.host Sample.client 15 2 (Sample.started Sample.calls)).1 = .error .debugger ∧
    (Native.readMemory Sample.host Sample.client 15 1 (Sample.started Sample.calls)).1 = .ok [0] ∧
    (Native.readText Sample.host 7 2 (Sample.started Sample.calls)).1 = .error .debugger ∧
    (Native.readText Sample.host 7 1 (Sample.started Sample.calls)).1 = .ok ["RET".toList] := by
  decide +kernel

/-- Setting all breakpoints at once fails when one is already there, since the old ones are disabled but not removed. -/
theorem setAll_rejects :
    (Native.setAllBreakpoints Sample.host [(3, ⟨[], true⟩)] (Sample.after (Sample.started Sample.calls) [.set 3])).1 =
      .error .debugger := by
  decide +kernel

/-- After setting all breakpoints at once, a read of the text at a disabled one shows an empty line. -/
theorem setAll_forgets :
    (Native.setAllBreakpoints Sample.host [(3, ⟨[], false⟩)] (Sample.started Sample.calls)).1 = .ok () ∧
    (Native.readText Sample.host 3 1 (Native.setAllBreakpoints Sample.host [(3, ⟨[], false⟩)] (Sample.started Sample.calls)).2).1 =
      .ok [[]] := by
  decide +kernel

end T86
