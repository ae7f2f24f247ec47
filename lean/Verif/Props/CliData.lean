import Verif.Props.Cli
import Verif.Props.Access

/-! # C61, C62: memory, registers and strings on the command line -/

set_option linter.unusedSimpArgs false
set_option maxRecDepth 100000

namespace T86
open Dbg Str
namespace Cli
open Job Isa Native

/-! ## Lines that begin with `memory` and `register` -/

theorem typed_memory (e : Env) {ws : List Str} (hw : ∀ v ∈ ws, IsWord v) {s : Cli} (hp : s.process.isSome) :
    typed e (line ("memory".toList :: ws)) s = caught (onMemory ws s) := by
  rw [typed_line e (by unfold IsWord; decide) hw (k := some .memory) (by decide) (by simp) (by simp) (by simp) hp]
  have : perform e (some .memory) (line ws) s = onMemory ws s := by
    refine (bind_eq (process_eq hp)).trans ?_
    rw [split_line hw]
  rw [this]

theorem typed_register (e : Env) {ws : List Str} (hw : ∀ v ∈ ws, IsWord v) {s : Cli} (hp : s.process.isSome) :
    typed e (line ("register".toList :: ws)) s = caught (onRegister ws s) := by
  rw [typed_line e (by unfold IsWord; decide) hw (k := some .register) (by decide) (by simp) (by simp) (by simp) hp]
  have : perform e (some .register) (line ws) s = onRegister ws s := by
    refine (bind_eq (process_eq hp)).trans ?_
    rw [split_line hw]
  rw [this]

/-- What is printed of cells. -/
def cellLine (a : Nat) (w : Word) : Out := .print (ofNat a ++ ":".toList ++ ofInt w.toInt)

theorem cellLines_eq : ∀ {l : List Word} {a : Nat} (_ : a + l.length ≤ 2 ^ 64),
    cellLines (BitVec.ofNat 64 a) l = l.mapIdx fun j w => cellLine (a + j) w
  | [], _, _ => rfl
  | w :: l, a, ha => by
    simp only [List.length_cons] at ha
    rw [List.mapIdx_cons]
    unfold cellLines
    rw [BitVec.toNat_ofNat, Nat.mod_eq_of_lt (by omega)]
    have : BitVec.ofNat 64 a + 1 = BitVec.ofNat 64 (a + 1) := by
      apply BitVec.eq_of_toNat_eq
      simp
    rw [this, cellLines_eq (by omega)]
    simp only [cellLine, Nat.add_zero]
    congr 2
    funext j w
    rw [show a + 1 + j = a + (j + 1) by omega]

section
variable {h : Host} {c : Client} {n : Native} {st : State} {s : Cli}

theorem readCells {a m : Nat} (hs : Native.Shows h n st) (hin : a + m ≤ c.size) (hsz : c.size < 2 ^ 63)
    (hm : ∀ j, j < m → (st.mem (BitVec.ofNat 64 (a + j))).isSome = true) :
    ∃ l, readMemory h c (BitVec.ofNat 64 a) (BitVec.ofNat 64 m) n = (.ok l, n) ∧ l.length = m ∧
      ∀ j, j < m → l[j]? = st.mem (BitVec.ofNat 64 (a + j)) := by
  have e1 : (BitVec.ofNat 64 a).toNat = a := by rw [BitVec.toNat_ofNat, Nat.mod_eq_of_lt (by omega)]
  have e2 : (BitVec.ofNat 64 m).toNat = m := by rw [BitVec.toNat_ofNat, Nat.mod_eq_of_lt (by omega)]
  have e3 : ∀ j, BitVec.ofNat 64 a + BitVec.ofNat 64 j = BitVec.ofNat 64 (a + j) := fun j => by rw [BitVec.ofNat_add]
  have := C49_read_memory (c := c) hs (BitVec.ofNat 64 a) (BitVec.ofNat 64 m) (by rw [e1, e2]; exact hin) hsz
    (by rw [e2]; intro j hj; rw [e3]; exact hm j hj)
  rw [e2] at this
  simpa only [e3] using this

theorem getCells_eq {sub : Str} {a m : Nat} (ha : a < 2 ^ 64) (hm : m < 2 ^ 64) {l : List Word} (hn : s.process = some n)
    (hr : readMemory s.host s.client (BitVec.ofNat 64 a) (BitVec.ofNat 64 m) n = (.ok l, n)) :
    getCells [sub, ofNat a, ofNat m] s = (.ok (), { s with out := s.out ++
      (if isPrefixOf "gets".toList sub then [.print (cellsText l)] else cellLines (BitVec.ofNat 64 a) l) }) := by
  unfold getCells
  refine (bind_eq (x := Job.ofExcept (Cli.sub [sub, ofNat a, ofNat m] 1)) (a := ofNat a) (t := s) rfl).trans ?_
  refine (bind_eq (x := Job.ofExcept (Cli.sub [sub, ofNat a, ofNat m] 2)) (a := ofNat m) (t := s) rfl).trans ?_
  rw [unsigned_ofNat ha, unsigned_ofNat hm]
  refine (bind_eq (call_eq hn hr)).trans ?_
  refine (bind_eq (x := Job.ofExcept (Cli.sub [sub, ofNat a, ofNat m] 0)) (a := sub) rfl).trans ?_
  cases isPrefixOf "gets".toList sub with
  | true =>
    obtain ⟨_, _, _, _, _, _, _⟩ := s
    cases hn
    rfl
  | false =>
    obtain ⟨_, _, _, _, _, _, _⟩ := s
    cases hn
    rfl

theorem words_three {sub : Str} (hsub : IsWord sub) (a m : Nat) : ∀ v ∈ [sub, ofNat a, ofNat m], IsWord v := by
  intro v hv
  simp only [List.mem_cons, List.not_mem_nil, or_false] at hv
  rcases hv with rfl | rfl | rfl
  · exact hsub
  · exact isWord_ofNat _
  · exact isWord_ofNat _

/-- C61: `memory get a m` prints the `m` cells from `a` on, each after its address, and changes nothing. -/
theorem C61_get (e : Env) (hn : s.process = some n) (hh : s.host = h) (hc : s.client = c) (hs : Native.Shows h n st) {a m : Nat}
    (hin : a + m ≤ c.size) (hsz : c.size < 2 ^ 63) (hm : ∀ j, j < m → (st.mem (BitVec.ofNat 64 (a + j))).isSome = true) :
    ∃ l : List Word, l.length = m ∧ (∀ j, j < m → l[j]? = st.mem (BitVec.ofNat 64 (a + j))) ∧
      typed e (line ["memory".toList, "get".toList, ofNat a, ofNat m]) s =
        (.ok (), { s with out := s.out ++ l.mapIdx fun j w => .print (ofNat (a + j) ++ ":".toList ++ ofInt w.toInt) }) := by
  obtain ⟨l, h1, h2, h3⟩ := readCells hs hin hsz hm
  refine ⟨l, h2, h3, ?_⟩
  rw [typed_memory e (words_three (by unfold IsWord; decide) a m) (by rw [hn]; rfl)]
  have : onMemory ["get".toList, ofNat a, ofNat m] s = getCells ["get".toList, ofNat a, ofNat m] s := rfl
  rw [this, getCells_eq (by omega) (by omega) hn (by rw [hh, hc]; exact h1), cellLines_eq (by omega)]
  rfl

theorem cellsText_eq : ∀ {l : List Word} (hl : l ≠ []),
    cellsText l = (l.map fun w => Src.charOf (w.truncate 8)) ++ (if l.getLast hl = 10 then [] else "\\%\n".toList)
  | [w], _ => by
    unfold cellsText
    split
    · rename_i h
      subst h
      rfl
    · rename_i h
      rw [List.getLast_singleton, if_neg h]
      rfl
  | w :: v :: l, _ => by
    change Src.charOf _ :: cellsText (v :: l) = _
    rw [cellsText_eq (l := v :: l) (by simp)]
    rw [List.getLast_cons (a := w) (l := v :: l) (by simp)]
    rfl

/-- C61: `memory getstr a m` prints the `m` cells from `a` on as characters, with a mark at the end if the last one does not end a line. -/
theorem C61_getstr (e : Env) (hn : s.process = some n) (hh : s.host = h) (hc : s.client = c) (hs : Native.Shows h n st) {a m : Nat}
    (hin : a + m ≤ c.size) (hsz : c.size < 2 ^ 63) (hm : ∀ j, j < m → (st.mem (BitVec.ofNat 64 (a + j))).isSome = true) (h0 : 0 < m) :
    ∃ l : List Word, ∃ hl : l ≠ [], l.length = m ∧ (∀ j, j < m → l[j]? = st.mem (BitVec.ofNat 64 (a + j))) ∧
      typed e (line ["memory".toList, "getstr".toList, ofNat a, ofNat m]) s =
        (.ok (), { s with out := s.out ++ [.print ((l.map fun w => Char.ofNat (w.toNat % 256)) ++
          (if l.getLast hl = 10 then [] else "\\%\n".toList))] }) := by
  obtain ⟨l, h1, h2, h3⟩ := readCells hs hin hsz hm
  have hl : l ≠ [] := by rintro rfl; simp at h2; omega
  refine ⟨l, hl, h2, h3, ?_⟩
  rw [typed_memory e (words_three (by unfold IsWord; decide) a m) (by rw [hn]; rfl)]
  have : onMemory ["getstr".toList, ofNat a, ofNat m] s = getCells ["getstr".toList, ofNat a, ofNat m] s := rfl
  rw [this, getCells_eq (by omega) (by omega) hn (by rw [hh, hc]; exact h1), cellsText_eq hl]
  have hc : ∀ w : Word, Src.charOf (w.truncate 8) = Char.ofNat (w.toNat % 256) := fun w => by
    unfold Src.charOf
    congr 1
  simp only [hc]
  rfl

theorem values_eq : ∀ l : List Word, values (l.map fun w => ofInt w.toInt) = .ok l
  | [] => rfl
  | w :: l => by
    rw [List.map_cons]
    unfold values
    rw [signed_ofInt, values_eq l]
    change Except.ok (BitVec.ofInt 64 w.toInt :: l) = _
    rw [BitVec.ofInt_toInt]

/-- C61: `memory set a v...` replaces exactly the cells from `a` on by the values. -/
theorem C61_set (e : Env) (hn : s.process = some n) (hh : s.host = h) (hc : s.client = c) (hs : Native.Shows h n st) {a : Nat} {l : List Word}
    (h0 : l ≠ []) (hin : a + l.length ≤ c.size) (hsz : c.size < 2 ^ 63)
    (hm : ∀ j, j < l.length → (st.mem (BitVec.ofNat 64 (a + j))).isSome = true) :
    ∃ n', typed e (line ("memory".toList :: "set".toList :: ofNat a :: l.map fun w => ofInt w.toInt)) s = (.ok (), { s with process := some n' }) ∧
      Native.Shows h n' (st.write (BitVec.ofNat 64 a) l) ∧ n'.bps = n.bps ∧ n'.wps = n.wps := by
  have hl := List.length_pos_iff.2 h0
  have e1 : (BitVec.ofNat 64 a).toNat = a := by rw [BitVec.toNat_ofNat, Nat.mod_eq_of_lt (by omega)]
  have e3 : ∀ j, BitVec.ofNat 64 a + BitVec.ofNat 64 j = BitVec.ofNat 64 (a + j) := fun j => by rw [BitVec.ofNat_add]
  obtain ⟨n', h1, h2, h3, h4⟩ := C49_write_memory (c := c) hs (BitVec.ofNat 64 a) l (by rw [e1]; exact hin) hsz
    (by intro j hj; rw [e3]; exact hm j hj)
  refine ⟨n', ?_, h2, h3, h4⟩
  have hw : ∀ v ∈ "set".toList :: ofNat a :: l.map fun w => ofInt w.toInt, IsWord v := by
    intro v hv
    simp only [List.mem_cons, List.mem_map] at hv
    rcases hv with rfl | rfl | ⟨w, _, rfl⟩
    · unfold IsWord; decide
    · exact isWord_ofNat _
    · exact isWord_ofInt _
  rw [typed_memory e hw (by rw [hn]; rfl)]
  have hk : onMemory ("set".toList :: ofNat a :: l.map fun w => ofInt w.toInt) s =
      setCells ("set".toList :: ofNat a :: l.map fun w => ofInt w.toInt) s := by
    cases l with
    | nil => contradiction
    | cons w l => rfl
  rw [hk]
  have : setCells ("set".toList :: ofNat a :: l.map fun w => ofInt w.toInt) s = (.ok (), { s with process := some n' }) := by
    unfold setCells
    refine (bind_eq (x := Job.ofExcept (Cli.sub ("set".toList :: ofNat a :: l.map fun w => ofInt w.toInt) 1)) (a := ofNat a) (t := s) rfl).trans ?_
    refine (bind_eq (x := Job.ofExcept (values (("set".toList :: ofNat a :: l.map fun w => ofInt w.toInt).drop 2))) (a := l) (t := s) ?_).trans ?_
    · change Job.ofExcept (values (l.map fun w => ofInt w.toInt)) s = _
      rw [values_eq]
      rfl
    · rw [unsigned_ofNat (by omega)]
      exact call_eq hn (by rw [hh, hc]; exact h1)
  rw [this]
  rfl

/-- C61: cells outside of memory are refused, and nothing is changed. -/
theorem C61_outside (e : Env) (hn : s.process = some n) {a m : Nat} (hin : s.client.size < a + m) (h64 : a + m < 2 ^ 64) :
    (∀ sub ∈ ["get".toList, "getstr".toList], typed e (line ["memory".toList, sub, ofNat a, ofNat m]) s =
      (.ok (), { s with out := s.out ++ [.error] })) ∧
    ∀ l : List Word, l.length = m → 0 < m → typed e (line ("memory".toList :: "set".toList :: ofNat a :: l.map fun w => ofInt w.toInt)) s =
      (.ok (), { s with out := s.out ++ [.error] }) := by
  have hsum : ¬ (BitVec.ofNat 64 a + BitVec.ofNat 64 m).toNat ≤ s.client.size := by
    rw [← BitVec.ofNat_add, BitVec.toNat_ofNat, Nat.mod_eq_of_lt h64]
    omega
  obtain ⟨ho, cl, pr, src, ru, ou, inp⟩ := s
  cases hn
  constructor
  · intro sub hsub
    have hw : IsWord sub := by
      simp only [List.mem_cons, List.not_mem_nil, or_false] at hsub
      rcases hsub with rfl | rfl <;> unfold IsWord <;> decide
    rw [typed_memory e (words_three hw a m) rfl]
    have hk : ∀ t, onMemory [sub, ofNat a, ofNat m] t = getCells [sub, ofNat a, ofNat m] t := by
      intro t
      simp only [List.mem_cons, List.not_mem_nil, or_false] at hsub
      rcases hsub with rfl | rfl <;> rfl
    have hr : readMemory ho cl (BitVec.ofNat 64 a) (BitVec.ofNat 64 m) n = (.error .debugger, n) := by
      unfold readMemory proc Proc.readMemory
      rw [if_pos (by simpa using hsum)]
      rfl
    rw [hk]
    unfold getCells
    rw [bind_eq (x := Job.ofExcept (Cli.sub [sub, ofNat a, ofNat m] 1)) (a := ofNat a) rfl,
      bind_eq (x := Job.ofExcept (Cli.sub [sub, ofNat a, ofNat m] 2)) (a := ofNat m) rfl, unsigned_ofNat (by omega), unsigned_ofNat (by omega)]
    simp only
    rw [bind_error (call_eq rfl hr)]
    rfl
  · intro l hl h0
    have hw : ∀ v ∈ "set".toList :: ofNat a :: l.map fun w => ofInt w.toInt, IsWord v := by
      intro v hv
      simp only [List.mem_cons, List.mem_map] at hv
      rcases hv with rfl | rfl | ⟨w, _, rfl⟩
      · unfold IsWord; decide
      · exact isWord_ofNat _
      · exact isWord_ofInt _
    rw [typed_memory e hw rfl]
    have hk : ∀ t, onMemory ("set".toList :: ofNat a :: l.map fun w => ofInt w.toInt) t =
        setCells ("set".toList :: ofNat a :: l.map fun w => ofInt w.toInt) t := by
      intro t
      cases l with
      | nil => simp at hl; omega
      | cons w l => rfl
    have hr : setMemory ho cl (BitVec.ofNat 64 a) l n = (.error .debugger, n) := by
      unfold setMemory proc Proc.writeMemory
      rw [hl, if_pos (by simpa using hsum)]
      rfl
    rw [hk]
    unfold setCells
    rw [bind_eq (x := Job.ofExcept (Cli.sub ("set".toList :: ofNat a :: l.map fun w => ofInt w.toInt) 1)) (a := ofNat a) rfl]
    rw [bind_eq (x := Job.ofExcept (values (("set".toList :: ofNat a :: l.map fun w => ofInt w.toInt).drop 2))) (a := l) (by
      change Job.ofExcept (values (l.map fun w => ofInt w.toInt)) _ = _
      rw [values_eq]
      rfl)]
    rw [unsigned_ofNat (by omega)]
    simp only
    rw [call_eq (x := fun h c => setMemory h c (BitVec.ofNat 64 a) l) rfl hr]
    rfl

/-! ## Registers -/

theorem isWord_reg (r : Reg) : IsWord r.print := by
  cases r with
  | gp i =>
    refine ⟨by simp [Reg.print], fun c hc => ?_⟩
    rcases List.mem_cons.1 hc with rfl | hc
    · decide
    · exact (isWord_ofNat i).2 c hc
  | _ => unfold IsWord; decide

theorem words_two {sub x : Str} (h1 : IsWord sub) (h2 : IsWord x) : ∀ v ∈ [sub, x], IsWord v := by
  intro v hv
  simp only [List.mem_cons, List.not_mem_nil, or_false] at hv
  rcases hv with rfl | rfl
  · exact h1
  · exact h2

/-- C61: `register get r` prints the value of the register, for the registers of the machine, and refuses other names. Nothing is changed. -/
theorem C61_register_get (e : Env) (hn : s.process = some n) (hh : s.host = h) (hs : Native.Shows h n st) :
    (∀ r ∈ shown h.cfg, typed e (line ["register".toList, "get".toList, r.print]) s =
      (.ok (), { s with out := s.out ++ [.print (ofInt (st.look (.int r)).toInt)] })) ∧
    ∀ name, IsWord name → (∀ r ∈ shown h.cfg, name ≠ r.print) → typed e (line ["register".toList, "get".toList, name]) s =
      (.ok (), { s with out := s.out ++ [.error] }) := by
  obtain ⟨ho, cl, pr, src, ru, ou, inp⟩ := s
  cases hn
  cases hh
  have h1 := C49_read_register hs
  constructor
  · intro r hr
    rw [typed_register e (words_two (by unfold IsWord; decide) (isWord_reg r)) rfl]
    have : ∀ t, onRegister ["get".toList, r.print] t = (do
      let v ← call fun h _ => Native.getRegister h r.print
      put (.print (ofInt v.toInt)) : C Unit) t := fun t => rfl
    rw [this, bind_eq (call_eq (x := fun h _ => Native.getRegister h r.print) rfl (h1.1 r hr))]
    rfl
  · intro name hw hr
    rw [typed_register e (words_two (by unfold IsWord; decide) hw) rfl]
    have : ∀ t, onRegister ["get".toList, name] t = (do
      let v ← call fun h _ => Native.getRegister h name
      put (.print (ofInt v.toInt)) : C Unit) t := fun t => rfl
    rw [this, bind_error (call_eq (x := fun h _ => Native.getRegister h name) rfl (h1.2 name hr))]
    rfl

/-- C61: `register set r v` replaces exactly this register. -/
theorem C61_register_set (e : Env) {Tx : Str → Instr → Prop} {prog P : List Instr} {data : List Word} {inp : List (BitVec 8)} (ht : Texts h Tx)
    (hl : prog.length < 2 ^ 63) (hp : ∀ i ∈ prog, Plain h i) (hset : Setup h.cfg prog data) (hx : Careful h c Tx prog data inp P n)
    (hn : s.process = some n) (hh : s.host = h) (hc : s.client = c) (hs : Native.Shows h n st) (hg : h.cfg.nreg ≤ c.gp) (h64 : h.cfg.nreg ≤ 2 ^ 64)
    (r : Reg) (hr : r ∈ shown h.cfg) (v : Word) :
    ∃ n', typed e (line ["register".toList, "set".toList, r.print, ofInt v.toInt]) s = (.ok (), { s with process := some n' }) ∧
      Native.Shows h n' (st.poke (.int r) v) ∧ n'.bps = n.bps ∧ n'.wps = n.wps ∧ Careful h c Tx prog data inp P n' := by
  obtain ⟨n', h1, h2⟩ := C49_write_register ht hl hp hset hx hs hg h64 r hr v
  refine ⟨n', ?_, h2⟩
  obtain ⟨ho, cl, pr, src, ru, ou, inp⟩ := s
  cases hn
  cases hh
  cases hc
  have hw : ∀ x ∈ ["set".toList, r.print, ofInt v.toInt], IsWord x := by
    intro x hv
    simp only [List.mem_cons, List.not_mem_nil, or_false] at hv
    rcases hv with rfl | rfl | rfl
    · unfold IsWord; decide
    · exact isWord_reg r
    · exact isWord_ofInt _
  rw [typed_register e hw rfl]
  have : ∀ t, onRegister ["set".toList, r.print, ofInt v.toInt] t = Cli.setRegister ["set".toList, r.print, ofInt v.toInt] t := fun t => rfl
  rw [this]
  unfold Cli.setRegister
  rw [bind_eq (x := Job.ofExcept (Cli.sub ["set".toList, r.print, ofInt v.toInt] 1)) (a := r.print) rfl,
    bind_eq (x := Job.ofExcept (Cli.sub ["set".toList, r.print, ofInt v.toInt] 2)) (a := ofInt v.toInt) rfl, signed_ofInt]
  simp only [BitVec.ofInt_toInt]
  rw [call_eq (x := fun h c => Native.setRegister h c r.print v) rfl h1]
  rfl

theorem insertKey_perm {α : Type} (k : Str) (x : α) : ∀ l : List (Str × α), (Src.insertKey k x l).Perm ((k, x) :: l)
  | [] => .refl _
  | p :: l => by
    unfold Src.insertKey
    split
    · exact .refl _
    · exact ((insertKey_perm k x l).cons p).trans (.swap _ _ _)

theorem foldKeys_perm {α : Type} : ∀ (m l : List (Str × α)), (m.foldl (fun l p => Src.insertKey p.1 p.2 l) l).Perm (m ++ l)
  | [], l => .refl _
  | p :: m, l => by
    refine (foldKeys_perm m _).trans ?_
    refine ((insertKey_perm p.1 p.2 l).append_left m).trans ?_
    exact List.perm_middle

theorem perm_of_map {α β : Type} {f : α → β} {k m : List β} (hp : k.Perm m) : ∀ {l : List α}, m = l.map f → ∃ l' : List α, l'.Perm l ∧ k = l'.map f := by
  induction hp with
  | nil =>
    intro l hl
    exact ⟨[], by rw [List.map_eq_nil_iff.1 hl.symm], rfl⟩
  | cons x _ ih =>
    intro l hl
    cases l with
    | nil => cases hl
    | cons a l =>
      injection hl with h1 h2
      obtain ⟨l', h3, h4⟩ := ih h2
      exact ⟨a :: l', h3.cons a, by rw [List.map_cons, h1, h4]⟩
  | swap x y r =>
    intro l hl
    match l, hl with
    | a :: b :: l, hl =>
      injection hl with h1 h2
      injection h2 with h2 h3
      exact ⟨b :: a :: l, .swap a b l, by rw [List.map_cons, List.map_cons, h1, h2, h3]⟩
  | trans _ _ ih1 ih2 =>
    intro l hl
    obtain ⟨l1, h1, h2⟩ := ih2 hl
    obtain ⟨l2, h3, h4⟩ := ih1 h2
    exact ⟨l2, h3.trans h1, h4⟩

/-- C61: `register` prints each register of the machine with its value, once, and changes nothing. -/
theorem C61_registers (e : Env) (hn : s.process = some n) (hh : s.host = h) (hs : Native.Shows h n st) :
    ∃ l : List Reg, l.Perm (shown h.cfg) ∧ typed e "register".toList s =
      (.ok (), { s with out := s.out ++ l.map fun r => .print (r.print ++ ":".toList ++ ofInt (st.look (.int r)).toInt) }) := by
  obtain ⟨ho, cl, pr, src, ru, ou, inp⟩ := s
  cases hn
  cases hh
  have h1 := getRegisters_shows hs.live hs.machine
  have hperm : (Src.sortKeys (listed ho.cfg st)).Perm (listed ho.cfg st) := by
    have := foldKeys_perm (listed ho.cfg st) []
    rwa [List.append_nil] at this
  obtain ⟨l, hl1, hl2⟩ : ∃ l : List Reg, l.Perm (shown ho.cfg) ∧ Src.sortKeys (listed ho.cfg st) = l.map fun r => (r.print, st.look (.int r)) := by
    generalize Src.sortKeys (listed ho.cfg st) = k at hperm
    unfold listed at hperm
    exact perm_of_map hperm rfl
  refine ⟨l, hl1, ?_⟩
  have := typed_register e (ws := []) (by simp) (s := { host := ho, client := cl, process := some n, source := src, running := ru, out := ou, input := inp }) rfl
  rw [show line ["register".toList] = "register".toList from rfl] at this
  rw [this]
  have hk : ∀ t, onRegister [] t = listRegisters t := fun t => rfl
  rw [hk]
  unfold listRegisters
  rw [bind_eq (call_eq (x := fun h _ => Native.getRegisters h) rfl h1)]
  simp only [Job.modify, caught, hl2, List.map_map]
  rfl

end

/-! ## C62: strings -/

/-- What a text between quotation marks stands for. -/
inductive Quoted : Str → Str → Prop
  | nil : Quoted [] []
  | char {c : Char} {t v : Str} : c ≠ '\\' → Quoted t v → Quoted (c :: t) (c :: v)
  | newline {t v : Str} : Quoted t v → Quoted ('\\' :: 'n' :: t) ('\n' :: v)
  | tab {t v : Str} : Quoted t v → Quoted ('\\' :: 't' :: t) ('\t' :: v)
  | zero {t v : Str} : Quoted t v → Quoted ('\\' :: '0' :: t) (Char.ofNat 0 :: v)

theorem ebind {α β : Type} (a : α) (f : α → Except Err β) : ((Except.ok a : Except Err α) >>= f) = f a := rfl

theorem stringLoop_sound : ∀ {k : Nat} {t : Str}, t.length ≤ k → ∀ {p : Char} {r : Str}, t ++ ['"'] = p :: r →
    (∃ v, Quoted t v ∧ stringLoop p r = .ok v) ∨ (∀ v, ¬ Quoted t v) ∧ stringLoop p r = .error .debugger
  | k, [], _, p, r, hpr => by
    cases hpr
    exact .inl ⟨[], .nil, rfl⟩
  | k + 1, c :: t, hk, p, r, hpr => by
    simp only [List.length_cons] at hk
    injection hpr with h1 h2
    subst h1
    by_cases hc : c = '\\'
    · subst hc
      cases t with
      | nil =>
        have h2 : ['"'] = r := h2
        subst h2
        exact .inr ⟨fun v hv => by cases hv; contradiction, rfl⟩
      | cons d t =>
        simp only [List.length_cons] at hk
        have h2 : d :: (t ++ ['"']) = r := h2
        subst h2
        cases ht : t ++ ['"'] with
        | nil => cases t <;> cases ht
        | cons p r =>
          have ih := stringLoop_sound (k := k) (t := t) (by omega) ht
          unfold stringLoop
          rw [if_pos rfl]
          by_cases h1 : d = 'n'
          · subst h1
            rcases ih with ⟨v, hv, e⟩ | ⟨hv, e⟩
            · exact .inl ⟨_, .newline hv, by simp only [if_true]; rw [e]; rfl⟩
            · exact .inr ⟨fun v hq => by
                cases hq with
                | char h _ => contradiction
                | newline hq => exact hv _ hq, by simp only [if_true]; rw [e]; rfl⟩
          · by_cases h2 : d = 't'
            · subst h2
              rcases ih with ⟨v, hv, e⟩ | ⟨hv, e⟩
              · exact .inl ⟨_, .tab hv, by simp; rw [e]; rfl⟩
              · exact .inr ⟨fun v hq => by
                  cases hq with
                  | char h _ => contradiction
                  | tab hq => exact hv _ hq, by simp; rw [e]; rfl⟩
            · by_cases h3 : d = '0'
              · subst h3
                rcases ih with ⟨v, hv, e⟩ | ⟨hv, e⟩
                · exact .inl ⟨_, .zero hv, by simp; rw [e]; rfl⟩
                · exact .inr ⟨fun v hq => by
                    cases hq with
                    | char h _ => contradiction
                    | zero hq => exact hv _ hq, by simp; rw [e]; rfl⟩
              · refine .inr ⟨fun v hq => ?_, by simp [h1, h2, h3]⟩
                cases hq with
                | char h _ => contradiction
                | newline _ => contradiction
                | tab _ => contradiction
                | zero _ => contradiction
    · cases ht : t ++ ['"'] with
      | nil => cases t <;> cases ht
      | cons p r' =>
        have ih := stringLoop_sound (k := k) (t := t) (by omega) ht
        have h2 : t ++ ['"'] = r := h2
        rw [ht] at h2
        subst h2
        unfold stringLoop
        rw [if_neg hc]
        rcases ih with ⟨v, hv, e⟩ | ⟨hv, e⟩
        · exact .inl ⟨_, .char hc hv, by rw [e]; rfl⟩
        · exact .inr ⟨fun v hq => by
            cases hq with
            | char h hq => exact hv _ hq
            | _ => contradiction, by rw [e]; rfl⟩

/-- C62: a string is accepted exactly if it is between quotation marks and each backslash is followed by `n`, `t` or `0`. Anything else is
reported. -/
theorem C62_literal (x : Str) :
    (∃ t v, x = '"' :: (t ++ ['"']) ∧ Quoted t v ∧ parseString x = .ok v) ∨
    (¬ ∃ t v, x = '"' :: (t ++ ['"']) ∧ Quoted t v) ∧ parseString x = .error .debugger := by
  by_cases hx : x.length < 2 ∨ x.head? ≠ some '"' ∨ x.getLast? ≠ some '"'
  · refine .inr ⟨?_, by unfold parseString; rw [if_pos hx]⟩
    rintro ⟨t, v, rfl, _⟩
    rcases hx with hx | hx | hx
    · simp at hx
      omega
    · exact hx rfl
    · rw [← List.cons_append, List.getLast?_append] at hx
      exact hx rfl
  · simp only [not_or, not_lt, not_not] at hx
    obtain ⟨h1, h2, h3⟩ := hx
    match x, h1, h2, h3 with
    | a :: y, h1, h2, h3 =>
      cases h2
      simp only [List.length_cons] at h1
      have hy : y ≠ [] := by rintro rfl; simp at h1
      obtain ⟨t, b, rfl⟩ : ∃ t b, y = t ++ [b] := ⟨y.dropLast, y.getLast hy, (List.dropLast_append_getLast hy).symm⟩
      have hb : b = '"' := by
        rw [← List.cons_append, List.getLast?_append] at h3
        simpa using h3
      subst hb
      have hps : ∀ p r, t ++ ['"'] = p :: r → parseString ('"' :: (t ++ ['"'])) = stringLoop p r := by
        intro p r hpr
        unfold parseString
        rw [if_neg (by simp; omega)]
        rw [List.drop_succ_cons, List.drop_zero, hpr]
      cases ht : t ++ ['"'] with
      | nil => cases t <;> cases ht
      | cons p r =>
        rw [← ht, hps p r ht]
        rcases stringLoop_sound (Nat.le_refl t.length) ht with ⟨v, hv, e⟩ | ⟨hv, e⟩
        · exact .inl ⟨t, v, rfl, hv, e⟩
        · refine .inr ⟨?_, e⟩
          rintro ⟨t', v, h4, h5⟩
          injection h4 with _ h4
          have := (List.append_inj' h4 rfl).1
          subst this
          exact hv v h5

/-- What a text stands for is unique. -/
theorem C62_unique {t v w : Str} (h1 : Quoted t v) (h2 : Quoted t w) : v = w := by
  induction h1 generalizing w with
  | nil => cases h2; rfl
  | char h _ ih => cases h2 <;> first | contradiction | (rename_i h2; rw [ih h2])
  | newline _ ih => cases h2 <;> first | contradiction | (rename_i h2; rw [ih h2])
  | tab _ ih => cases h2 <;> first | contradiction | (rename_i h2; rw [ih h2])
  | zero _ ih => cases h2 <;> first | contradiction | (rename_i h2; rw [ih h2])

example : parseString "\"a\\n b\"".toList = .ok "a\n b".toList := by decide +kernel
example : Quoted "a\\n b".toList "a\n b".toList := .char (by decide) (.newline (.char (by decide) (.char (by decide) .nil)))

section
variable {h : Host} {c : Client} {n : Native} {st : State} {s : Cli}

/-- C62: `memory setstr a "t"` stores the characters for which `t` stands, and a zero, from `a` on. The words of `t` are separated by single
blanks, see `C62_blanks`. -/
theorem C62_setstr_partial (e : Env) (hn : s.process = some n) (hh : s.host = h) (hc : s.client = c) (hs : Native.Shows h n st) {a : Nat}
    {ws : List Str} {t v : Str} (hws : ∀ w ∈ ws, IsWord w) (ht : line ws = '"' :: (t ++ ['"'])) (hq : Quoted t v)
    (hin : a + (v.length + 1) ≤ c.size) (hsz : c.size < 2 ^ 63)
    (hm : ∀ j, j < v.length + 1 → (st.mem (BitVec.ofNat 64 (a + j))).isSome = true) :
    ∃ n', typed e (line ("memory".toList :: "setstr".toList :: ofNat a :: ws)) s = (.ok (), { s with process := some n' }) ∧
      Native.Shows h n' (st.write (BitVec.ofNat 64 a) (v.map Asm.cell ++ [0])) ∧ n'.bps = n.bps ∧ n'.wps = n.wps := by
  have e1 : (BitVec.ofNat 64 a).toNat = a := by rw [BitVec.toNat_ofNat, Nat.mod_eq_of_lt (by omega)]
  have e3 : ∀ j, BitVec.ofNat 64 a + BitVec.ofNat 64 j = BitVec.ofNat 64 (a + j) := fun j => by rw [BitVec.ofNat_add]
  obtain ⟨n', h1, h2, h3, h4⟩ := C49_write_memory (c := c) hs (BitVec.ofNat 64 a) (v.map Asm.cell ++ [0]) (by rw [e1]; simpa using hin) hsz
    (by intro j hj; rw [e3]; exact hm j (by simpa using hj))
  refine ⟨n', ?_, h2, h3, h4⟩
  have hw : ∀ v ∈ "setstr".toList :: ofNat a :: ws, IsWord v := by
    intro v hv
    simp only [List.mem_cons] at hv
    rcases hv with rfl | rfl | hv
    · unfold IsWord; decide
    · exact isWord_ofNat _
    · exact hws v hv
  have hp : parseString (line ws) = .ok v := by
    rcases C62_literal (line ws) with ⟨t', v', h5, h6, h7⟩ | ⟨h5, _⟩
    · rw [ht] at h5
      injection h5 with _ h5
      have := (List.append_inj' h5 rfl).1
      subst this
      rw [h7, C62_unique h6 hq]
    · exact absurd ⟨t, v, ht, hq⟩ h5
  obtain ⟨ho, cl, pr, src, ru, ou, inp⟩ := s
  cases hn
  cases hh
  cases hc
  rw [typed_memory e hw rfl]
  have hk : ∀ x, onMemory ("setstr".toList :: ofNat a :: ws) x = setString ("setstr".toList :: ofNat a :: ws) x := by
    intro x
    cases ws with
    | nil => cases ht
    | cons w l => rfl
  rw [hk]
  unfold setString
  rw [bind_eq (x := Job.ofExcept (Cli.sub ("setstr".toList :: ofNat a :: ws) 1)) (a := ofNat a) rfl, unsigned_ofNat (by omega)]
  simp only
  rw [bind_eq (x := Job.ofExcept (parseString (join " ".toList (List.drop 2 ("setstr".toList :: ofNat a :: ws))))) (a := v) (by
    rw [C25_join]
    change Job.ofExcept (parseString (line ws)) _ = _
    rw [hp]
    rfl)]
  rw [call_eq (x := fun h c => setMemory h c (BitVec.ofNat 64 a) (v.map Asm.cell ++ [0])) rfl h1]
  rfl

end

/-- C62, not for repeated blanks: of two blanks in a string one is lost. -/
theorem C62_blanks (e : Env) : typed e "memory setstr 3 \"a  b\"".toList = typed e "memory setstr 3 \"a b\"".toList :=
  (C57_blanks e (raw := "memory setstr 3 \"a  b\"".toList) (by decide)).trans
    (C57_blanks e (raw := "memory setstr 3 \"a b\"".toList) (by decide)).symm

/-! ## Examples -/

/-- Cells and registers are written and read. -/
example : (exAfter ["memory set 3 65 -1", "memory get 3 2", "mem sets 4 \"b\\n c\"", "mem gets 3 5", "memory get 20 1", "reg set R2 -7", "reg get R2",
      "reg get R9"]).out =
    [.print "3:65".toList, .print "4:-1".toList, .print "Ab\n c\\%\n".toList, .error, .print "-7".toList, .error] := by decide +kernel

/-- The theorems apply, for example, after the history of `Verif/Props/Native.lean`. -/
example : ∃ s : Cli, ∃ n st, s.process = some n ∧ s.host = Sample.host ∧ s.client = Sample.client ∧ Native.Shows Sample.host n st ∧
    3 + 2 ≤ Sample.client.size ∧ ∀ j, j < 2 → (st.mem (BitVec.ofNat 64 (3 + j))).isSome = true := by
  obtain ⟨st, hs⟩ := Sample.calls_shows
  refine ⟨{ host := Sample.host, client := Sample.client, process := some _ }, _, st, rfl, rfl, rfl, hs, by decide, ?_⟩
  intro j hj
  rw [← hs.machine.mem]
  have : j = 0 ∨ j = 1 := by omega
  rcases this with rfl | rfl <;> decide +kernel

end Cli
end T86
