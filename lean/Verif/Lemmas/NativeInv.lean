import Verif.Lemmas.RegMap
import Verif.Spec.Native

/-! What holds throughout a session. -/

set_option linter.unusedSimpArgs false
set_option linter.unusedVariables false

namespace T86
open Dbg Str

theorem Plain.means {h : Host} {i : Instr} (hp : Plain h i) : Means h (i.print h.ftos) i := by
  obtain ⟨hw, hl⟩ := hp
  have hp := prints_instr hw hl [] [] (.nil (.gap .nil)) (by intro c r hc; cases hc)
  rw [List.append_nil, List.append_nil] at hp
  refine ⟨?_, fun hc => ((clean_print hl).1 _ hc).2 rfl⟩
  rw [Reader.run_layout Asm.all_oneInstruction hp]
  exact Asm.back_oneInstruction hw fun o ho => (hl o ho).short

theorem Plain.clean {h : Host} {i : Instr} (hp : Plain h i) : i.print h.ftos ≠ [] ∧ '\n' ∉ i.print h.ftos :=
  ⟨(clean_print hp.2).2, fun hc => ((clean_print hp.2).1 _ hc).1 rfl⟩

theorem plain_bkpt (h : Host) : Plain h .bkpt := ⟨⟨trivial, by intro o ho; cases ho⟩, by intro o ho; cases ho⟩

theorem print_bkpt (h : Host) : Instr.print h.ftos .bkpt = Arch.breakpointOpcode := rfl

/-- The text of the debuggee `Q`, of which the user knows `P`. -/
structure Shape (h : Host) (Tx : Str → Instr → Prop) (P : List Instr) (bps : Map Word Bp) (Q : List Instr) : Prop where
  size : P.length < 2 ^ 63
  plain : ∀ i ∈ P, Plain h i
  length : Q.length = P.length
  saved : ∀ a bp, bps.find a = some bp → ∃ i, P[a.toNat]? = some i ∧ Tx bp.data i
  armed : ∀ a bp, bps.find a = some bp → bp.enabled = true → Q[a.toNat]? = some .bkpt
  clear : ∀ a : Word, (∀ bp, bps.find a = some bp → bp.enabled = false) → Q[a.toNat]? = P[a.toNat]?

/-- Every watchpoint has its own debug register, which holds its address and is active. -/
structure Watched (D : List Word) (wps : Map Word Nat) : Prop where
  length : D.length = 5
  ok : wps.Ok
  own : (wps.map (·.2)).Nodup
  small : ∀ w ∈ wps, w.2 < 4
  addr : ∀ w ∈ wps, D.getD w.2 0 = w.1
  active : ∀ w ∈ wps, (D.getD 4 0).getLsbD w.2 = true

theorem Watched.marks {D D' : List Word} {wps : Map Word Nat} (h : Watched D wps) (hm : Marks D D') : Watched D' wps :=
  ⟨hm.length.trans h.length, h.ok, h.own, h.small, fun w hw => (hm.addr _ (h.small w hw)).trans (h.addr w hw),
    fun w hw => (hm.active _ (by have := h.small w hw; omega)).trans (h.active w hw)⟩

theorem Shape.plainQ {h : Host} {Tx : Str → Instr → Prop} {P : List Instr} {bps : Map Word Bp} {Q : List Instr}
    (hs : Shape h Tx P bps Q) {a : Word} {i : Instr} (hi : Q[a.toNat]? = some i) : Plain h i := by
  cases hb : bps.find a with
  | none =>
    rw [hs.clear a (by rw [hb]; intro bp hc; cases hc)] at hi
    exact hs.plain _ (List.mem_of_getElem? hi)
  | some bp =>
    cases he : bp.enabled with
    | true =>
      rw [hs.armed a bp hb he] at hi
      cases hi
      exact plain_bkpt h
    | false =>
      rw [hs.clear a (by rw [hb]; intro bp' hc; cases hc; exact he)] at hi
      exact hs.plain _ (List.mem_of_getElem? hi)

/-- At a stop. -/
structure Good (h : Host) (Tx : Str → Instr → Prop) (P : List Instr) (n : Native) : Prop where
  rest : n.link.At
  text : Shape h Tx P n.bps n.link.vm.cpu.prog
  watch : Watched n.link.vm.cpu.dbg n.wps
  fresh : n.cached = none

/-- Between `ContinueExecution` and `WaitForDebugEvent`. -/
structure Gone (h : Host) (Tx : Str → Instr → Prop) (P : List Instr) (n : Native) : Prop where
  away : (n.cached = none ∧ Proc.Away n.link.vm.cpu.prog n.link.vm.cpu.dbg n.link) ∨ n.link.At
  text : Shape h Tx P n.bps n.link.vm.cpu.prog
  watch : Watched n.link.vm.cpu.dbg n.wps

namespace Native
open Proc Job
variable {h : Host} {c : Client} {Tx : Str → Instr → Prop} {P : List Instr}

theorem proc_ok {α : Type} {x : Job Link α} {n n' : Native} {a : α} (hr : proc x n = (.ok a, n')) :
    x n.link = (.ok a, n'.link) ∧ n' = { n with link := n'.link } := by
  unfold proc at hr
  simp only [Prod.mk.injEq] at hr
  obtain ⟨h1, rfl⟩ := hr
  refine ⟨?_, rfl⟩
  rw [← h1]

theorem proc_eq {α : Type} {x : Job Link α} {n : Native} {l : Link} {a : α} (hr : x n.link = (.ok a, l)) :
    proc x n = (.ok a, { n with link := l }) := by
  unfold proc
  simp only [hr]

theorem same_good {n : Native} {l : Link} (hg : Good h Tx P n) (hs : Proc.Same n.link l) : Good h Tx P { n with link := l } := by
  obtain ⟨⟨h1, h2⟩, h3, h4⟩ := hs
  exact ⟨h1, by rw [h3]; exact hg.text, by rw [h4]; exact hg.watch, hg.fresh⟩

/-! ## Calls that change nothing -/

theorem getRegisters_ok {n n' : Native} {r : Map Str Word} (hl : n.link.At) (hr : getRegisters h n = (.ok r, n')) : n' = n := by
  obtain ⟨h1, h2⟩ := proc_ok hr
  have := (fetchRegisters_ok hl h1).1
  rw [h2, this]

theorem getRegister_ok {n n' : Native} {s : Str} {v : Word} (hl : n.link.At) (hr : getRegister h s n = (.ok v, n')) : n' = n := by
  obtain ⟨r, t, h1, h2⟩ := bind_ok hr
  have := getRegisters_ok hl h1
  subst this
  cases hf : r.find s with
  | none => rw [hf] at h2; cases h2
  | some w => rw [hf] at h2; cases h2; rfl

theorem getIP_ok {n n' : Native} {v : Word} (hl : n.link.At) (hr : getIP h n = (.ok v, n')) : n' = n := getRegister_ok hl hr

theorem getFloats_ok {n n' : Native} {r : Map Str Word} (hl : n.link.At) (hr : getFloatRegisters h n = (.ok r, n')) : n' = n := by
  obtain ⟨h1, h2⟩ := proc_ok hr
  have := fetchFloats_ok hl h1
  rw [h2, this]

theorem textSize_ok {n n' : Native} {w : Word} (hl : n.link.At) (hr : textSize h n = (.ok w, n')) :
    n' = n ∧ n.link.vm.cpu.prog.length < 2 ^ 64 ∧ w = BitVec.ofNat 64 n.link.vm.cpu.prog.length := by
  obtain ⟨h1, h2⟩ := proc_ok hr
  have := Proc.textSize_ok hl h1
  exact ⟨by rw [h2, this.1], this.2⟩

theorem readMemory_ok {n n' : Native} {a m : Word} {r : List Word} (hl : n.link.At) (hr : readMemory h c a m n = (.ok r, n')) : n' = n := by
  obtain ⟨h1, h2⟩ := proc_ok hr
  have := Proc.readMemory_ok hl h1
  rw [h2, this]

/-! ## Text -/

theorem peekText_eq {cpu : Cpu} {a n : Nat} (hn : a + n ≤ cpu.prog.length) (h64 : cpu.prog.length ≤ 2 ^ 64) :
    cpu.peekText a n = (cpu.prog.drop a).take n := by
  unfold Cpu.peekText
  apply List.ext_getElem
  · simp; omega
  · intro j h1 h2
    simp at h1 h2
    simp only [List.getElem_map, List.getElem_range, fetchAt, BitVec.toNat_ofNat, List.getElem_take, List.getElem_drop]
    rw [Nat.mod_eq_of_lt (by omega), List.getD_eq_getElem?_getD, List.getElem?_eq_getElem (by omega)]
    rfl

theorem procReadText_ok {n n' : Native} {a m : Word} {r : List Str} (hl : n.link.At) (hr : proc (Proc.readText h a m) n = (.ok r, n')) :
    n' = n ∧ a.toNat < 2 ^ 63 ∧ m.toNat < 2 ^ 63 ∧
      r = split (Proto.lines ((n.link.vm.cpu.peekText a.toNat m.toNat).map (·.print h.ftos))) '\n' := by
  obtain ⟨h1, h2⟩ := proc_ok hr
  have := Proc.readText_ok hl h1
  exact ⟨by rw [h2, this.1], this.2⟩

/-- The texts of instructions in a reply. -/
theorem split_lines {l : List Instr} (hl : ∀ i ∈ l, Plain h i) :
    split (Proto.lines (l.map (·.print h.ftos))) '\n' = l.map (·.print h.ftos) := by
  unfold Proto.lines
  exact C25_split_terminated '\n' _ (by
    intro p hp
    obtain ⟨i, hi, rfl⟩ := List.mem_map.1 hp
    exact (hl i hi).clean)

/-- The link with another program. -/
abbrev setProg (n : Native) (Q : List Instr) : Native := { n with link := withProg n.link Q }

theorem procWriteOne_ok {n n' : Native} {a : Word} {s : Str} (hl : n.link.At) (hq : '"' ∉ s)
    (hr : proc (Proc.writeText h a [s]) n = (.ok (), n')) :
    ∃ i, Asm.oneInstruction.run h.stod s = .ok i ∧ a.toNat < n.link.vm.cpu.prog.length ∧
      n' = setProg n (n.link.vm.cpu.prog.set a.toNat i) := by
  obtain ⟨h1, h2⟩ := proc_ok hr
  obtain ⟨i, e1, e2, e3, e4⟩ := writeText_cons hl hq h1
  have e5 : withProg n.link (n.link.vm.cpu.prog.set a.toNat i) = n'.link := congrArg Prod.snd e4
  exact ⟨i, e1, e2, by rw [h2, ← e5]⟩

theorem first_ok {n n' : Native} {l : List Str} {s : Str} (hr : first l n = (.ok s, n')) : n' = n ∧ ∃ t, l = s :: t := by
  have h1 : Proto.at' l 0 = .ok s := congrArg Prod.fst hr
  have h2 : n = n' := congrArg Prod.snd hr
  refine ⟨h2.symm, ?_⟩
  cases l with
  | nil => cases h1
  | cons x t => cases h1; exact ⟨t, rfl⟩

theorem readOne_ok {n n' : Native} {a : Word} {r : List Str} (hl : n.link.At)
    (hp : ∀ i, n.link.vm.cpu.prog[a.toNat]? = some i → Plain h i)
    (hr : proc (Proc.readText h a 1) n = (.ok r, n')) :
    n' = n ∧ r = [(fetchAt n.link.vm.cpu.prog a).print h.ftos] := by
  obtain ⟨h1, h2, h3, h4⟩ := procReadText_ok hl hr
  refine ⟨h1, ?_⟩
  have e : n.link.vm.cpu.peekText a.toNat (1 : Word).toNat = [fetchAt n.link.vm.cpu.prog a] := by
    unfold Cpu.peekText
    simp
  rw [h4, e]
  refine split_lines (l := [fetchAt n.link.vm.cpu.prog a]) ?_
  intro i hi
  simp only [List.mem_singleton] at hi
  subst hi
  unfold fetchAt
  rw [List.getD_eq_getElem?_getD]
  cases hq : n.link.vm.cpu.prog[a.toNat]? with
  | none => exact ⟨⟨trivial, by intro o ho; cases ho⟩, by intro o ho; cases ho⟩
  | some i => exact hp i hq

theorem create_ok {n n' : Native} {a : Word} {bp : Bp} (hl : n.link.At)
    (hp : ∀ i, n.link.vm.cpu.prog[a.toNat]? = some i → Plain h i) (hr : create h a n = (.ok bp, n')) :
    ∃ i, n.link.vm.cpu.prog[a.toNat]? = some i ∧ bp = ⟨i.print h.ftos, true⟩ ∧
      n' = setProg n (n.link.vm.cpu.prog.set a.toNat .bkpt) := by
  unfold create at hr
  obtain ⟨r1, n1, h1, hr⟩ := bind_ok hr
  obtain ⟨rfl, rfl⟩ := readOne_ok hl hp h1
  obtain ⟨s1, n2, h2, hr⟩ := bind_ok hr
  obtain ⟨rfl, t, ht⟩ := first_ok h2
  obtain ⟨rfl, rfl⟩ := List.cons.inj ht
  obtain ⟨u, n3, h3, hr⟩ := bind_ok hr
  obtain ⟨i, hi, hlt, rfl⟩ := procWriteOne_ok hl (by decide) h3
  have hb := (plain_bkpt h).means.1
  rw [print_bkpt, hi] at hb
  cases hb
  obtain ⟨r4, n4, h4, hr⟩ := bind_ok hr
  have hset : (n2.link.vm.cpu.prog.set a.toNat .bkpt)[a.toNat]? = some .bkpt := by simp [hlt]
  have hp' : ∀ i, (setProg n2 (n2.link.vm.cpu.prog.set a.toNat .bkpt)).link.vm.cpu.prog[a.toNat]? = some i → Plain h i := by
    intro i hi
    change (n2.link.vm.cpu.prog.set a.toNat .bkpt)[a.toNat]? = _ at hi
    rw [hset] at hi
    cases hi
    exact plain_bkpt h
  have hat : (setProg n2 (n2.link.vm.cpu.prog.set a.toNat .bkpt)).link.At := ⟨hl.1, hl.2, hl.3⟩
  obtain ⟨rfl, rfl⟩ := readOne_ok hat hp' h4
  obtain ⟨s5, n5, h5, hr⟩ := bind_ok hr
  obtain ⟨rfl, t, ht⟩ := first_ok h5
  split at hr
  · cases hr
  · cases hr
    refine ⟨_, List.getElem?_eq_getElem hlt, ?_, rfl⟩
    rw [show fetchAt n2.link.vm.cpu.prog a = n2.link.vm.cpu.prog[a.toNat] by
      unfold fetchAt
      rw [List.getD_eq_getElem?_getD, List.getElem?_eq_getElem hlt]
      rfl]

theorem getElem_set_word {Q : List Instr} {a b : Word} {i : Instr} (hne : b ≠ a) : (Q.set a.toNat i)[b.toNat]? = Q[b.toNat]? := by
  rw [List.getElem?_set_ne]
  intro hc
  exact hne (BitVec.eq_of_toNat_eq hc.symm)

theorem setBreakpoint_ok {n n' : Native} {a : Word} (hl : n.link.At)
    (hp : ∀ i, n.link.vm.cpu.prog[a.toNat]? = some i → Plain h i) (hr : setBreakpoint h a n = (.ok (), n')) :
    n.bps.find a = none ∧ ∃ i, n.link.vm.cpu.prog[a.toNat]? = some i ∧
      n' = { setProg n (n.link.vm.cpu.prog.set a.toNat .bkpt) with bps := n.bps.emplace a ⟨i.print h.ftos, true⟩ } := by
  unfold setBreakpoint at hr
  obtain ⟨m, n1, h1, hr⟩ := bind_ok hr
  cases h1
  cases hf : n.bps.find a with
  | some bp => rw [hf] at hr; cases hr
  | none =>
    rw [hf] at hr
    obtain ⟨bp, n2, h2, hr⟩ := bind_ok hr
    obtain ⟨i, h3, rfl, rfl⟩ := create_ok hl hp h2
    cases hr
    exact ⟨rfl, i, h3, rfl⟩

theorem shape_set {bps : Map Word Bp} {Q : List Instr} {a : Word} {i : Instr} (ht : Texts h Tx) (hs : Shape h Tx P bps Q)
    (hd : ∀ bp, bps.find a = some bp → bp.enabled = false) (hi : Q[a.toNat]? = some i) {bps' : Map Word Bp}
    (hb : ∀ b, bps'.find b = if b = a then some ⟨i.print h.ftos, true⟩ else bps.find b) :
    Shape h Tx P bps' (Q.set a.toNat .bkpt) := by
  have hP : P[a.toNat]? = some i := by rw [← hs.clear a hd]; exact hi
  have hlt : a.toNat < Q.length := (List.getElem?_eq_some_iff.1 hi).1
  refine ⟨hs.size, hs.plain, by simp [hs.length], ?_, ?_, ?_⟩
  · intro b bp hbp
    rw [hb] at hbp
    split at hbp
    · rename_i e
      cases hbp
      subst e
      exact ⟨i, hP, ht.print (hs.plainQ hi)⟩
    · exact hs.saved b bp hbp
  · intro b bp hbp he
    rw [hb] at hbp
    split at hbp
    · rename_i e
      subst e
      simp [hlt]
    · rename_i e
      rw [getElem_set_word e]
      exact hs.armed b bp hbp he
  · intro b hbp
    by_cases e : b = a
    · subst e
      have := hbp ⟨i.print h.ftos, true⟩ (by rw [hb, if_pos rfl])
      cases this
    · rw [getElem_set_word e]
      exact hs.clear b (by intro bp hf; exact hbp bp (by rw [hb, if_neg e]; exact hf))

theorem set_good (ht : Texts h Tx) {a : Word} : Triple (Good h Tx P) (setBreakpoint h a) (fun _ => Good h Tx P) := by
  intro n u n' hg hr
  obtain ⟨hf, i, hi, rfl⟩ := setBreakpoint_ok hg.rest (fun i hi => hg.text.plainQ hi) hr
  refine ⟨⟨hg.rest.1, hg.rest.2, hg.rest.3⟩, ?_, hg.watch, hg.fresh⟩
  refine shape_set ht hg.text (by intro bp hb; rw [hf] at hb; cases hb) hi ?_
  intro b
  change (n.bps.emplace a _).find b = _
  rw [Map.find_emplace, hf]
  rfl

theorem enable_ok {n n' : Native} {a : Word} (hl : n.link.At)
    (hp : ∀ i, n.link.vm.cpu.prog[a.toNat]? = some i → Plain h i) (hr : enable h a n = (.ok (), n')) :
    ∃ bp, n.bps.find a = some bp ∧ ((bp.enabled = true ∧ n' = n) ∨ (bp.enabled = false ∧ ∃ i, n.link.vm.cpu.prog[a.toNat]? = some i ∧
      n' = { setProg n (n.link.vm.cpu.prog.set a.toNat .bkpt) with bps := n.bps.assign a ⟨i.print h.ftos, true⟩ })) := by
  unfold enable at hr
  obtain ⟨m, n1, h1, hr⟩ := bind_ok hr
  cases h1
  cases hf : n.bps.find a with
  | none => rw [hf] at hr; cases hr
  | some bp =>
    rw [hf] at hr
    refine ⟨bp, rfl, ?_⟩
    simp only at hr
    split at hr
    · rename_i he
      cases hr
      exact .inl ⟨he, rfl⟩
    · rename_i he
      obtain ⟨bp, n2, h2, hr⟩ := bind_ok hr
      obtain ⟨i, h3, rfl, rfl⟩ := create_ok hl hp h2
      cases hr
      exact .inr ⟨by simpa using he, i, h3, rfl⟩

theorem enable_good (ht : Texts h Tx) {a : Word} : Triple (Good h Tx P) (enable h a) (fun _ => Good h Tx P) := by
  intro n u n' hg hr
  obtain ⟨bp, hf, ⟨_, rfl⟩ | ⟨he, i, hi, rfl⟩⟩ := enable_ok hg.rest (fun i hi => hg.text.plainQ hi) hr
  · exact hg
  refine ⟨⟨hg.rest.1, hg.rest.2, hg.rest.3⟩, ?_, hg.watch, hg.fresh⟩
  refine shape_set ht hg.text (by intro bp' hb; rw [hf] at hb; cases hb; exact he) hi ?_
  intro b
  change (n.bps.assign a _).find b = _
  rw [Map.find_assign]

theorem disable_ok {n n' : Native} {a : Word} (hl : n.link.At)
    (hp : ∀ bp, n.bps.find a = some bp → '"' ∉ bp.data) (hr : disable h a n = (.ok (), n')) :
    ∃ bp, n.bps.find a = some bp ∧ ((bp.enabled = false ∧ n' = n) ∨ (bp.enabled = true ∧ a.toNat < n.link.vm.cpu.prog.length ∧
      ∃ i, Asm.oneInstruction.run h.stod bp.data = .ok i ∧
      n' = { setProg n (n.link.vm.cpu.prog.set a.toNat i) with bps := n.bps.assign a { bp with enabled := false } })) := by
  unfold disable at hr
  obtain ⟨m, n1, h1, hr⟩ := bind_ok hr
  cases h1
  cases hf : n.bps.find a with
  | none => rw [hf] at hr; cases hr
  | some bp =>
    rw [hf] at hr
    refine ⟨bp, rfl, ?_⟩
    simp only at hr
    split at hr
    · rename_i he
      obtain ⟨u, n2, h2, hr⟩ := bind_ok hr
      obtain ⟨i, h3, h4, rfl⟩ := procWriteOne_ok hl (hp bp hf) h2
      cases hr
      exact .inr ⟨he, h4, i, h3, rfl⟩
    · rename_i he
      cases hr
      exact .inl ⟨by simpa using he, rfl⟩

theorem shape_disable {bps : Map Word Bp} {Q : List Instr} {a : Word} {bp : Bp} (hs : Shape h Tx P bps Q)
    (hf : bps.find a = some bp) {i : Instr} (hi : P[a.toNat]? = some i) {bps' : Map Word Bp}
    (hb : ∀ b, b ≠ a → bps'.find b = bps.find b) (ha : ∀ bp', bps'.find a = some bp' → bp' = { bp with enabled := false }) :
    Shape h Tx P bps' (Q.set a.toNat i) := by
  have hlt : a.toNat < P.length := (List.getElem?_eq_some_iff.1 hi).1
  refine ⟨hs.size, hs.plain, by simp [hs.length], ?_, ?_, ?_⟩
  · intro b bp' hbp
    by_cases e : b = a
    · subst e
      have := ha bp' hbp
      subst this
      exact hs.saved _ bp hf
    · rw [hb b e] at hbp
      exact hs.saved b bp' hbp
  · intro b bp' hbp he
    by_cases e : b = a
    · subst e
      have := ha bp' hbp
      subst this
      cases he
    · rw [hb b e] at hbp
      rw [getElem_set_word e]
      exact hs.armed b bp' hbp he
  · intro b hbp
    by_cases e : b = a
    · subst e
      rw [hi]
      simp [hs.length, hlt]
    · rw [getElem_set_word e]
      exact hs.clear b (by intro bp' hf'; exact hbp bp' (by rw [hb b e]; exact hf'))

theorem disable_good (ht : Texts h Tx) {a : Word} : Triple (Good h Tx P) (disable h a) (fun _ => Good h Tx P) := by
  intro n u n' hg hr
  obtain ⟨bp, hf, ⟨_, rfl⟩ | ⟨he, hlt, i, hi, rfl⟩⟩ := disable_ok hg.rest (fun bp hf => by
    obtain ⟨i, _, hx⟩ := hg.text.saved a bp hf
    exact (ht.means hx).2) hr
  · exact hg
  refine ⟨⟨hg.rest.1, hg.rest.2, hg.rest.3⟩, ?_, hg.watch, hg.fresh⟩
  obtain ⟨j, hj, hx⟩ := hg.text.saved a bp hf
  have := (ht.means hx).1
  rw [hi] at this
  cases this
  refine shape_disable hg.text hf hj ?_ ?_
  · intro b hne
    change (n.bps.assign a _).find b = _
    rw [Map.find_assign, if_neg hne]
  · intro bp' hbp
    change (n.bps.assign a _).find a = _ at hbp
    rw [Map.find_assign, if_pos rfl] at hbp
    cases hbp
    rfl

theorem disabled_after {n n' : Native} {a : Word} {u : Unit} (hr : disable h a n = (.ok u, n')) :
    ∃ bp, n'.bps.find a = some bp ∧ bp.enabled = false := by
  unfold disable at hr
  obtain ⟨m, n1, h1, hr⟩ := bind_ok hr
  cases h1
  cases hf : n.bps.find a with
  | none => rw [hf] at hr; cases hr
  | some bp =>
    rw [hf] at hr
    simp only at hr
    split at hr
    · rename_i he
      obtain ⟨u, n2, h2, hr⟩ := bind_ok hr
      cases hr
      exact ⟨{ bp with enabled := false }, by simp, rfl⟩
    · rename_i he
      cases hr
      exact ⟨bp, hf, by simpa using he⟩

theorem shape_erase {bps : Map Word Bp} {Q : List Instr} {a : Word} (hs : Shape h Tx P bps Q)
    (hf : ∀ bp, bps.find a = some bp → bp.enabled = false) : Shape h Tx P (bps.erase a) Q := by
  refine ⟨hs.size, hs.plain, hs.length, ?_, ?_, ?_⟩
  · intro b bp hb
    rw [Map.find_erase] at hb
    split at hb
    · cases hb
    · exact hs.saved b bp hb
  · intro b bp hb he
    rw [Map.find_erase] at hb
    split at hb
    · cases hb
    · exact hs.armed b bp hb he
  · intro b hb
    by_cases e : b = a
    · subst e
      exact hs.clear b hf
    · refine hs.clear b fun bp hbp => hb bp ?_
      rw [Map.find_erase, if_neg e]
      exact hbp

theorem unset_good (ht : Texts h Tx) {a : Word} : Triple (Good h Tx P) (unsetBreakpoint h a) (fun _ => Good h Tx P) := by
  intro n u n' hg hr
  unfold unsetBreakpoint at hr
  obtain ⟨u, n1, h1, hr⟩ := bind_ok hr
  have hg1 := disable_good ht _ _ _ hg h1
  obtain ⟨bp, hf, he⟩ := disabled_after h1
  cases hr
  exact ⟨hg1.rest, shape_erase hg1.text (by intro bp' hb; rw [hf] at hb; cases hb; exact he), hg1.watch, hg1.fresh⟩

end Native
end T86
