import Verif.Lemmas.SourceStep
import Verif.Props.Source

/-! # Debugging on the level of the source (C52, C53)

`src.lines` is the line table; `entryOf t l = some a` (`Verif/Spec/Source.lean`): by the table `t`, line `l` begins at the
instruction with the address `a`. `Isa.LineStep`, `Isa.PassesLine` and `Isa.PassesOut` (`Verif/Spec/SourceDbg.lean`) say in terms
of the sequential machine where a step by lines, a step over a line and a step out of a function should lead. -/

set_option linter.unusedSimpArgs false
set_option linter.unusedVariables false
set_option maxRecDepth 100000

namespace T86
open Dbg Str Native Isa

section
variable {h : Host} {c : Client} {Tx : Str → Instr → Prop} {prog P : List Instr} {data : List Word} {inp : List (BitVec 8)} {n n1 n' : Native}

/-- At which addresses a line begins. -/
theorem begins_iff {src : Src.Source} {t : List (Nat × Nat)} (hl : src.lines = some (.ofEntries t)) :
    src.Begins = fun a : Word => ∃ l, entryOf t l = some a.toNat := by
  funext a
  unfold Src.Source.Begins
  rw [hl]
  have h1 := (C36_unmapped t a.toNat).1
  cases hx : addrToLine (some (.ofEntries t)) a.toNat with
  | none =>
    have := h1.mp hx
    simpa using this
  | some l => simpa using ⟨l, ((C36_address t a.toNat l).mp hx).1⟩

theorem dom_armed (hall : ∀ a bp, n.bps.find a = some bp → bp.enabled = true) : Dom (Native.armed n) n := by
  intro a
  unfold Native.armed
  cases hf : n.bps.find a with
  | none => rfl
  | some bp => exact (hall a bp hf).symm

theorem careful_loop (ht : Texts h Tx) (hs : prog.length < 2 ^ 63) (hp : ∀ i ∈ prog, Plain h i) {src : Src.Source} {more : N Event}
    {o : Op} (hT : ∀ n P, o.Text h Tx n P P) (hS : ∀ n P, o.Safe h n P) (ho : o.run h c = more >>= fun _ => pure ()) :
    ∀ {fuel : Nat} {n n' : Native} {e e' : Event}, Careful h c Tx prog data inp P n → Src.stepLoop h src more fuel e n = (.ok e', n') →
      Careful h c Tx prog data inp P n' := by
  intro fuel
  induction fuel with
  | zero => intro n n' e e' hx hr; cases hr
  | succ fuel ih =>
    intro n n' e e' hx hr
    unfold Src.stepLoop at hr
    split at hr
    · obtain ⟨ip, n1, h1, hr2⟩ := Job.bind_ok hr
      have := getIP_ok (session_good ht hs hp hx.session).rest h1
      subst this
      cases hq : addrToLine src.lines ip.toNat with
      | some l => rw [hq] at hr2; cases hr2; exact hx
      | none =>
        rw [hq] at hr2
        obtain ⟨e1, n2, h2, hr2⟩ := Job.bind_ok hr2
        refine ih (.call o hx ?_ (hT _ _) (hS _ _)) hr2
        rw [ho]
        exact Job.bind_eq h2
    · cases hr; exact hx

/-- Steps by lines are calls of a careful session, so all theorems about such sessions hold after them. -/
theorem C52_session (ht : Texts h Tx) (hs : prog.length < 2 ^ 63) (hp : ∀ i ∈ prog, Plain h i) (hx : Careful h c Tx prog data inp P n)
    {src : Src.Source} {fuel : Nat} {e : Event}
    (hr : Src.stepIn h c src fuel n = (.ok e, n') ∨ Src.stepOver h c src fuel n = (.ok e, n')) : Careful h c Tx prog data inp P n' := by
  rcases hr with hr | hr
  · unfold Src.stepIn at hr
    obtain ⟨e1, n1, h1, hr⟩ := Job.bind_ok hr
    refine careful_loop (o := .raw) ht hs hp (fun _ _ => rfl) (fun _ _ => trivial) rfl (.call .step hx ?_ rfl trivial) hr
    show (Native.singleStep h c >>= fun _ => pure ()) n = _
    exact Job.bind_eq h1
  · unfold Src.stepOver at hr
    obtain ⟨e1, n1, h1, hr⟩ := Job.bind_ok hr
    refine careful_loop (o := .over fuel false) ht hs hp (fun _ _ => rfl) (fun _ _ => trivial) rfl (.call (.over fuel true) hx ?_ rfl trivial) hr
    show (Native.stepOver h c fuel true >>= fun _ => pure ()) n = _
    exact Job.bind_eq h1

/-- C52, stepping into: the current instruction is executed, and then all instructions up to the first one at which a line begins,
one after the other; if the debugger meets a breakpoint, a BKPT, a write to a watched address or the end before, it stops there and
reports that. The breakpoints and watchpoints are the same as before. -/
theorem C52_in (ht : Texts h Tx) (hs : prog.length < 2 ^ 63) (hp : ∀ i ∈ prog, Plain h i) (hset : Setup h.cfg prog data)
    (hx : Careful h c Tx prog data inp P n) {src : Src.Source} {t : List (Nat × Nat)} (hl : src.lines = some (.ofEntries t))
    {fuel : Nat} {e : Event} (hr : Src.stepIn h c src fuel n = (.ok e, n')) :
    ∃ s s', Native.Shows h n s ∧ Native.Shows h n' s' ∧
      LineStep h.cfg P n.link.vm.cpu.dbg (fun x => armed n x.pc = true) n.wps (fun a => ∃ l, entryOf t l = some a.toNat) s e s' ∧
      (∀ a, armed n' a = armed n a) ∧ n'.wps = n.wps := by
  obtain ⟨hf, d, hv⟩ := careful_view ht hs hp hset hx
  obtain ⟨_, d', a2, a3, a4, a5, ⟨why, a6⟩, ⟨why', a7⟩, a8⟩ := stepIn_view ht hf hv hr
  rw [begins_iff hl] at a8
  exact ⟨d.state, d'.state, hv.shows a6 a4, a2.shows a7 a5, by rw [dbg_view hv a6]; exact a8, a3.armed, a3.wps⟩

/-- C52, stepping over. Let `s'` be the first state after passing over at least one instruction, with its callee if it is a call,
in which a line begins, and let no breakpoint, BKPT, watched write or end be met on the way (see `Isa.PassesLine`). Then a step over
a line ends with a single-step event in `s'`. The breakpoints and watchpoints are the same as before. What is missing: disabled
breakpoints (see `C46_disabled`) and what is met on the way. -/
theorem C52_over_partial (hs : prog.length < 2 ^ 63) (hp : ∀ i ∈ prog, Plain h i) (hset : Setup h.cfg prog data)
    (hx : Careful h c (fun s i => s = i.print h.ftos ∧ Plain h i) prog data inp P n) {src : Src.Source} {t : List (Nat × Nat)}
    (hl : src.lines = some (.ofEntries t)) (hall : ∀ a bp, n.bps.find a = some bp → bp.enabled = true) {fuel : Nat} {e : Event}
    (hr : Src.stepOver h c src fuel n = (.ok e, n')) :
    ∃ s, Native.Shows h n s ∧ ∀ s', PassesLine h.cfg P n.link.vm.cpu.dbg (fun a => armed n a = true) (fun a => ∃ l, entryOf t l = some a.toNat) s s' →
      e = .singlestep ∧ Native.Shows h n' s' ∧ (∀ a, armed n' a = armed n a) ∧ n'.wps = n.wps := by
  obtain ⟨hf, d, hv⟩ := careful_view (texts_print h) hs hp hset hx
  have h1 : ∃ ip n1, getIP h n = (.ok ip, n1) := by
    have hr := hr
    unfold Src.stepOver Native.stepOver at hr
    obtain ⟨e1, n1, h1, hr⟩ := Job.bind_ok hr
    obtain ⟨ip, n2, h2, _⟩ := Job.bind_ok h1
    exact ⟨ip, n2, h2⟩
  obtain ⟨ip, n1, h1⟩ := h1
  obtain ⟨_, ⟨why, hph⟩, hd, _⟩ := getIP_view hv h1
  refine ⟨d.state, hv.shows hph hd, fun s' hpl => ?_⟩
  rw [dbg_view hv hph, ← begins_iff hl] at hpl
  obtain ⟨b1, b2⟩ := stepOver_view hf hv hph (dom_armed hall) hpl hr
  obtain ⟨d', c1, rfl, ⟨w, c3⟩, _, _⟩ := b2.view
  exact ⟨b1, c1.shows c3 b2.dead, b2.armed, b2.wps⟩

/-- C53. Let `s'` be the first state after passing over instructions, with their callees if they are calls, in which the last
instruction passed is RET, and let no breakpoint, BKPT, watched write or end be met on the way (see `Isa.PassesOut`). Then stepping
out ends with a single-step event in `s'`. The breakpoints and watchpoints are the same as before. What is missing: disabled
breakpoints (see `C46_disabled`) and what is met on the way. -/
theorem C53_out_partial (hs : prog.length < 2 ^ 63) (hp : ∀ i ∈ prog, Plain h i) (hset : Setup h.cfg prog data)
    (hx : Careful h c (fun s i => s = i.print h.ftos ∧ Plain h i) prog data inp P n)
    (hall : ∀ a bp, n.bps.find a = some bp → bp.enabled = true) {fuel : Nat} {e : Event}
    (hr : Native.stepOut h c fuel n = (.ok e, n')) :
    ∃ s, Native.Shows h n s ∧ ∀ s', PassesOut h.cfg P n.link.vm.cpu.dbg (fun a => armed n a = true) s s' →
      e = .singlestep ∧ Native.Shows h n' s' ∧ (∀ a, armed n' a = armed n a) ∧ n'.wps = n.wps := by
  obtain ⟨hf, d, hv⟩ := careful_view (texts_print h) hs hp hset hx
  have h1 : ∃ ip n1, getIP h n = (.ok ip, n1) := by
    have hr := hr
    unfold Native.stepOut at hr
    cases fuel with
    | zero => cases hr
    | succ fuel =>
      unfold stepOutLoop at hr
      obtain ⟨ip, n2, h2, _⟩ := Job.bind_ok hr
      exact ⟨ip, n2, h2⟩
  obtain ⟨ip, n1, h1⟩ := h1
  obtain ⟨_, ⟨why, hph⟩, hd, _⟩ := getIP_view hv h1
  refine ⟨d.state, hv.shows hph hd, fun s' hpl => ?_⟩
  rw [dbg_view hv hph] at hpl
  obtain ⟨b1, b2⟩ := out_view hf hv hph rfl (fun _ => rfl) rfl (dom_armed hall) (by simp) (by simp) hpl hr
  obtain ⟨d', c1, rfl, ⟨w, c3⟩, _, _⟩ := b2.view
  exact ⟨b1, c1.shows c3 b2.dead, b2.armed, b2.wps⟩

/-! ## C54: breakpoints on lines and functions -/

/-- C54, refused: the calls for the breakpoint of a line do nothing but fail when no line table is there or no instruction
begins the line. -/
theorem C54_refused {src : Src.Source} (op : Word → N Unit) {line : Nat}
    (hl : src.lines = none ∨ ∃ t, src.lines = some (.ofEntries t) ∧ entryOf t line = none) :
    Src.onLine src op line n = (.error .debugger, n) := by
  unfold Src.onLine Src.lineAddress
  rcases hl with hl | ⟨t, hl, he⟩
  · rw [hl]; rfl
  · rw [← C36_line] at he
    have he : (LineMapping.ofEntries t).getAddress line = none := he
    rw [hl]
    dsimp only
    rw [he]
    rfl

theorem onLine_eq {src : Src.Source} {t : List (Nat × Nat)} (hl : src.lines = some (.ofEntries t)) (op : Word → N Unit) {line a : Nat}
    (he : entryOf t line = some a) :
    Src.onLine src op line = op (BitVec.ofNat 64 a) >>= fun _ => pure (BitVec.ofNat 64 a) := by
  rw [← C36_line] at he
  have he : (LineMapping.ofEntries t).getAddress line = some a := he
  unfold Src.onLine Src.lineAddress
  rw [hl]
  dsimp only
  rw [he]
  rfl

/-- C54: setting, enabling, disabling or removing the breakpoint of a line works on the instruction at which the line begins and on
no other one: afterwards there is an enabled breakpoint there (none, if it was disabled or removed), and all other instructions
have one exactly if they had one before. The address is returned. -/
theorem C54_line (ht : Texts h Tx) (hs : prog.length < 2 ^ 63) (hp : ∀ i ∈ prog, Plain h i) (hset : Setup h.cfg prog data)
    (hx : Careful h c Tx prog data inp P n) (hlive : n.link.Live) {src : Src.Source} {t : List (Nat × Nat)}
    (hl : src.lines = some (.ofEntries t)) {line : Nat} {a : Word} {o : Word → Op}
    {on : Bool} (ho : (o = .set ∨ o = .enable) ∧ on = true ∨ (o = .disable ∨ o = .unset) ∧ on = false)
    (hr : Src.onLine src (fun a => (o a).run h c) line n = (.ok a, n')) :
    (∃ m, entryOf t line = some m ∧ a = BitVec.ofNat 64 m) ∧ Careful h c Tx prog data inp P n' ∧
      (∀ b, armed n' b = if b = a then on else armed n b) := by
  cases he : entryOf t line with
  | none => rw [C54_refused _ (.inr ⟨t, hl, he⟩)] at hr; cases hr
  | some m =>
    rw [onLine_eq hl _ he] at hr
    obtain ⟨u, n1, h1, h2⟩ := Job.bind_ok hr
    cases h2
    obtain ⟨hf, d, hv⟩ := careful_view ht hs hp hset hx
    obtain ⟨why, hw⟩ := hlive.stopped
    have hph : d.phase = .stopped why := by rw [← hv.same.phase]; exact hw
    refine ⟨⟨m, rfl, rfl⟩, ?_, ?_⟩
    · rcases ho with ⟨rfl | rfl, rfl⟩ | ⟨rfl | rfl, rfl⟩ <;> exact .call _ hx h1 rfl trivial
    · rcases ho with ⟨rfl | rfl, rfl⟩ | ⟨rfl | rfl, rfl⟩
      · exact (set_view hf.good hv hph h1).choose_spec.2.2.2.2.2
      · exact (enable_view hf.good hv hph h1).choose_spec.2.2.2.2.1
      · exact (disable_view ht hf hv hph h1).choose_spec.2.2.2.2.1
      · exact (unset_view ht hf hv hph h1).choose_spec.2.2.2.2

/-- C54, success: at a stop, a breakpoint can be set on every line at which an instruction of the program begins that has none. -/
theorem C54_total (ht : Texts h Tx) (hs : prog.length < 2 ^ 63) (hp : ∀ i ∈ prog, Plain h i)
    (hx : Session h c Tx prog data inp P n) (hlive : n.link.Live) {src : Src.Source} {t : List (Nat × Nat)}
    (hl : src.lines = some (.ofEntries t)) {line m : Nat} (he : entryOf t line = some m) (hm : m < P.length)
    (hf : n.bps.find (BitVec.ofNat 64 m) = none) :
    ∃ n', Src.onLine src (fun a => (Op.set a).run h c) line n = (.ok (BitVec.ofNat 64 m), n') := by
  have hlen : P.length < 2 ^ 63 := (session_good ht hs hp hx).text.size
  have hm' : (BitVec.ofNat 64 m).toNat < P.length := by
    rw [BitVec.toNat_ofNat, Nat.mod_eq_of_lt (by omega)]
    exact hm
  obtain ⟨s, n', h1, _⟩ := C30_set ht hs hp hx hlive hm' hf
  refine ⟨n', ?_⟩
  rw [onLine_eq hl _ he]
  exact Job.bind_eq h1

/-- C54, places given as text: a number from 1 on is the line with this number, counted from 1; the address is that of the
instruction at which the line begins, and there is none if no line table has the line. 0 is refused. -/
theorem C54_number {src : Src.Source} {k : Nat} (hk : k + 1 < 2 ^ 64) :
    (∀ t, src.lines = some (.ofEntries t) → Src.addressFromString src (ofNat (k + 1)) true =
      match entryOf t k with
      | some a => .ok (BitVec.ofNat 64 a)
      | none => .error .debugger) ∧
    (src.lines = none → Src.addressFromString src (ofNat (k + 1)) true = .error .debugger) ∧
    Src.addressFromString src (ofNat 0) true = .error .debugger := by
  unfold Src.addressFromString
  rw [Proto.unsigned_nat hk, Proto.unsigned_nat (n := 0) (by decide)]
  refine ⟨fun t ht => ?_, fun hn => ?_, rfl⟩
  · simp only [Nat.add_eq_zero_iff, Nat.one_ne_zero, and_false, false_and, if_false, if_true, Nat.add_sub_cancel]
    rw [ht, C36_line]
    cases entryOf t k <;> rfl
  · simp only [Nat.add_eq_zero_iff, Nat.one_ne_zero, and_false, false_and, if_false, if_true, Nat.add_sub_cancel]
    rw [hn]
    rfl

/-- C54, places given as text: a text that does not begin with a digit is the name of a function, and the address is its beginning;
it is refused exactly if the function lookup of C38 finds nothing. -/
theorem C54_name {src : Src.Source} {name : Str} (hn : ∀ x l, name = x :: l → isDigit x = false) :
    Src.addressFromString src name true =
      match getFunctionAddrByName src.top name with
      | some r => .ok (BitVec.ofNat 64 r.1)
      | none => .error .debugger := by
  have : toUnsigned name = none := by
    unfold toUnsigned
    cases name with
    | nil => rfl
    | cons x l => simp [List.takeWhile_cons, hn x l rfl]
  unfold Src.addressFromString
  rw [this]
  cases getFunctionAddrByName src.top name <;> rfl

end

/-! ## Examples and counterexamples -/

/-- Line 1 (counted from 0, as in the table) begins at 3, line 2 at 5, line 4 at 6, which is the callee. -/
def Sample.lines : List (Nat × Nat) := [(0, 0), (1, 3), (2, 5), (4, 6)]

def Sample.source : Src.Source := { lines := some (.ofEntries Sample.lines) }

/-- Non-vacuity of C52: at the start, a step into leads to the callee at 6 and a step over to 3. From a breakpoint at 2 a step
leads to 3. -/
example :
    (Src.stepIn Sample.host Sample.client Sample.source 5 (Sample.started Sample.calls)).1 = .ok .singlestep ∧
    (Native.getIP Sample.host (Src.stepIn Sample.host Sample.client Sample.source 5 (Sample.started Sample.calls)).2).1 = .ok 6 ∧
    (Src.stepOver Sample.host Sample.client Sample.source 5 (Sample.started Sample.calls)).1 = .ok .singlestep ∧
    (Native.getIP Sample.host (Src.stepOver Sample.host Sample.client Sample.source 5 (Sample.started Sample.calls)).2).1 = .ok 3 ∧
    (Src.stepIn Sample.host Sample.client Sample.source 5 (Sample.after (Sample.started Sample.calls) [.set 2, .go])).1 = .ok .singlestep ∧
    (Native.getIP Sample.host
      (Src.stepIn Sample.host Sample.client Sample.source 5 (Sample.after (Sample.started Sample.calls) [.set 2, .go])).2).1 = .ok 3 := by
  decide +kernel

/-- The session in it is careful. -/
example {Tx : Str → Instr → Prop} : Careful Sample.host Sample.client Tx Sample.calls [] [] Sample.calls
    (Sample.after (Sample.started Sample.calls) [.set 2, .go]) :=
  Sample.careful (Sample.starts (by decide +kernel)) (by decide) (by decide +kernel)

/-- Non-vacuity of C53: from the callee, a step out leads to the instruction after the call. -/
example :
    (Native.stepOut Sample.host Sample.client 5 (Sample.after (Sample.started Sample.calls) [.set 6, .go])).1 = .ok .singlestep ∧
    (Native.getIP Sample.host
      (Native.stepOut Sample.host Sample.client 5 (Sample.after (Sample.started Sample.calls) [.set 6, .go])).2).1 = .ok 2 := by
  decide +kernel

/-- The hypotheses of `C52_over_partial` and `C53_out_partial` on the sequential machine are met: from the start, passing over
leads to the state at 3; from the callee, passing out leads to the state at 2. -/
example : (∃ s', PassesLine Sample.cfg Sample.calls [0, 0, 0, 0, 0] (fun _ => False) (fun a => ∃ l, entryOf Sample.lines l = some a.toNat)
      (Isa.start Sample.cfg [] []) s' ∧ s'.pc = 3) ∧
    (∃ s s', Isa.runs Sample.cfg Sample.calls 2 (Isa.start Sample.cfg [] []) s ∧ s.pc = 6 ∧
      PassesOut Sample.cfg Sample.calls [0, 0, 0, 0, 0] (fun _ => False) s s' ∧ s'.pc = 2) := by
  have off : ∀ a : Nat, a = 1 ∨ a = 2 → ¬ ∃ l, entryOf Sample.lines l = some a := by
    rintro a ha ⟨l, hl⟩
    rw [entryOf, Option.map_eq_some_iff] at hl
    obtain ⟨x, h1, h2⟩ := hl
    have := List.mem_of_find?_eq_some h1
    simp only [Sample.lines, List.mem_reverse, List.mem_cons, List.not_mem_nil, or_false] at this
    rcases this with rfl | rfl | rfl | rfl <;> simp at h2 <;> omega
  refine ⟨⟨_, .more (.inr ⟨?_, ⟨rfl, id, by decide, _, rfl, rfl⟩, rfl⟩) (off 1 (.inl rfl)) id
      (.more (.inl ⟨.imm 6, _, 2, rfl, by decide, rfl, rfl, by decide, ⟨rfl, ?_, by decide, _, rfl, rfl, ?_, by decide, _, rfl, rfl⟩, rfl, rfl, rfl⟩)
        (off 2 (.inr rfl)) id (.last (.inr ⟨?_, ⟨rfl, id, by decide, _, rfl, rfl⟩, rfl⟩) ⟨1, by decide⟩)), rfl⟩,
    ⟨_, _, ⟨rfl, _, rfl, rfl, _, rfl, rfl⟩, rfl, .more (.inr ⟨?_, ⟨rfl, id, by decide, _, rfl, rfl⟩, rfl⟩) ?_ id
      (.last (.inr ⟨?_, ⟨rfl, id, by decide, _, rfl, rfl⟩, rfl⟩) rfl), rfl⟩⟩
  · intro o h; cases h
  · rintro (⟨h, _⟩ | ⟨h, _⟩)
    · exact h
    · revert h; decide
  · rintro (⟨h, _⟩ | ⟨h, _⟩)
    · exact h
    · revert h; decide
  · intro o h; cases h
  · intro o h; cases h
  · intro h; cases h
  · intro o h; cases h

/-- C52 fails for stepping over when there is a breakpoint at a CALL inside the line: the breakpoint at 1 is passed without being
reported. A step into reports it. -/
theorem C52_over_misses :
    Native.armed (Sample.after (Sample.started Sample.calls) [.set 1]) 1 = true ∧
    (Src.stepOver Sample.host Sample.client Sample.source 5 (Sample.after (Sample.started Sample.calls) [.set 1])).1 = .ok .singlestep ∧
    (Native.getIP Sample.host
      (Src.stepOver Sample.host Sample.client Sample.source 5 (Sample.after (Sample.started Sample.calls) [.set 1])).2).1 = .ok 3 ∧
    (Src.stepIn Sample.host Sample.client Sample.source 5 (Sample.after (Sample.started Sample.calls) [.set 1])).1 = .ok (.breakpoint 1) := by
  decide +kernel

end T86
