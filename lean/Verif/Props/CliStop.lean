import Verif.Props.CliShow
import Verif.Props.CliStart
import Verif.Props.SourceDbg

/-! # C65: breakpoints and watchpoints on the command line -/

set_option linter.unusedSimpArgs false
set_option maxRecDepth 100000

namespace T86
open Dbg Str
namespace Cli
open Job Isa Native

theorem typed_breakpoint (e : Env) {ws : List Str} (hw : ∀ v ∈ ws, IsWord v) {s : Cli} (hp : s.process.isSome) :
    typed e (line ("breakpoint".toList :: ws)) s = caught (onBreakpoint ws s) := by
  rw [typed_line e (by unfold IsWord; decide) hw (k := some .breakpoint) (by decide) (by simp) (by simp) (by simp) hp]
  have : perform e (some .breakpoint) (line ws) s = onBreakpoint ws s := by
    refine (bind_eq (process_eq hp)).trans ?_
    rw [split_line hw]
  rw [this]

theorem typed_watchpoint (e : Env) {ws : List Str} (hw : ∀ v ∈ ws, IsWord v) {s : Cli} (hp : s.process.isSome) :
    typed e (line ("watchpoint".toList :: ws)) s = caught (onWatchpoint ws s) := by
  rw [typed_line e (by unfold IsWord; decide) hw (k := some .watchpoint) (by decide) (by simp) (by simp) (by simp) hp]
  have : perform e (some .watchpoint) (line ws) s = onWatchpoint ws s := by
    change onWatchpoint (split (line ws) ' ') s = _
    rw [split_line hw]
  rw [this]

theorem same_process {s : Cli} {n : Native} (hn : s.process = some n) : ({ s with process := some n } : Cli) = s := by
  obtain ⟨ho, cl, pr, src, ru, ou, inp⟩ := s
  cases hn
  rfl

section
variable {h : Host} {c : Client} {Tx : Str → Instr → Prop} {prog P : List Instr} {data : List Word} {inp : List (BitVec 8)} {n n' : Native}
  {st : State} {s : Cli}

/-- Which operations change the breakpoint at `a`, and what there is afterwards. -/
def Changes (a : Word) (o : Op) (f : Option Bool) : Prop :=
  o = .set a ∧ f = some true ∨ o = .enable a ∧ f = some true ∨ o = .disable a ∧ f = some false ∨ o = .unset a ∧ f = none

/-- A change of the breakpoint at `a` changes nothing else. -/
theorem changed (ht : Texts h Tx) (hl : prog.length < 2 ^ 63) (hp : ∀ i ∈ prog, Plain h i) (hset : Setup h.cfg prog data)
    (hx : Careful h c Tx prog data inp P n) (hs : Native.Shows h n st) {o : Op} {a : Word} {f : Option Bool} (ho : Changes a o f)
    (hlive : n'.link.Live) (hr : o.run h c n = (.ok (), n')) :
    Careful h c Tx prog data inp P n' ∧ Native.Shows h n' st ∧ n'.wps = n.wps ∧
      ∀ b, (n'.bps.find b).map (·.enabled) = if b = a then f else (n.bps.find b).map (·.enabled) := by
  have hg := session_good ht hl hp hx.session
  have hc : Careful h c Tx prog data inp P n' := by
    rcases ho with ⟨rfl, _⟩ | ⟨rfl, _⟩ | ⟨rfl, _⟩ | ⟨rfl, _⟩ <;> exact .call _ hx hr rfl trivial
  obtain ⟨st', hs'⟩ := careful_shows ht hl hp hset hc hlive
  have key : (∃ p, n'.link.vm.cpu = { n.link.vm.cpu with prog := p }) ∧ n'.wps = n.wps ∧
      ∀ b, (n'.bps.find b).map (·.enabled) = if b = a then f else (n.bps.find b).map (·.enabled) := by
    have dis : ∀ n1, Native.disable h a n = (.ok (), n1) → (∃ p, n1.link.vm.cpu = { n.link.vm.cpu with prog := p }) ∧ n1.wps = n.wps ∧
        ∀ b, (n1.bps.find b).map (·.enabled) = if b = a then some false else (n.bps.find b).map (·.enabled) := by
      intro n1 hr
      obtain ⟨bp, h1, ⟨h2, h3⟩ | ⟨h2, h3, i, h4, h5⟩⟩ := disable_ok hg.rest (fun bp hb => (saved_means ht hg hb).1) hr
      · subst h3
        refine ⟨⟨_, rfl⟩, rfl, fun b => ?_⟩
        split
        · rename_i hb
          rw [hb, h1, ← h2]
          rfl
        · rfl
      · subst h5
        refine ⟨⟨_, rfl⟩, rfl, fun b => ?_⟩
        simp only [Map.find_assign]
        split <;> rfl
    rcases ho with ⟨rfl, rfl⟩ | ⟨rfl, rfl⟩ | ⟨rfl, rfl⟩ | ⟨rfl, rfl⟩
    · obtain ⟨h1, i, h3, h4⟩ := setBreakpoint_ok hg.rest (fun i hi => hg.text.plainQ hi) hr
      subst h4
      refine ⟨⟨_, rfl⟩, rfl, fun b => ?_⟩
      simp only [Map.find_emplace]
      by_cases hb : b = a
      · subst hb; rw [h1]; simp
      · rw [if_neg hb, if_neg hb]
    · obtain ⟨bp, h1, ⟨h2, h3⟩ | ⟨h2, i, h3, h4⟩⟩ := enable_ok hg.rest (fun i hi => hg.text.plainQ hi) hr
      · subst h3
        refine ⟨⟨_, rfl⟩, rfl, fun b => ?_⟩
        split
        · rename_i hb
          rw [hb, h1, ← h2]
          rfl
        · rfl
      · subst h4
        refine ⟨⟨_, rfl⟩, rfl, fun b => ?_⟩
        simp only [Map.find_assign]
        split <;> rfl
    · exact dis _ hr
    · have hr : unsetBreakpoint h a n = (.ok (), n') := hr
      unfold unsetBreakpoint at hr
      obtain ⟨u, n1, h1, hr⟩ := bind_ok hr
      obtain ⟨⟨p, h2⟩, h3, h4⟩ := dis _ h1
      cases hr
      refine ⟨⟨p, h2⟩, h3, fun b => ?_⟩
      simp only [Map.find_erase]
      split
      · rfl
      · rename_i hb
        rw [h4, if_neg hb]
  obtain ⟨⟨p, h1⟩, h2, h3⟩ := key
  refine ⟨hc, shows_transfer hs' ?_, h2, h3⟩
  rw [h1]
  exact ⟨hs.machine.regs, hs.machine.mem, hs.machine.out, hs.machine.inp, hs.machine.halted⟩

/-- When such an operation is possible. -/
def Able (P : List Instr) (n : Native) (a : Word) (o : Op) : Prop :=
  o = .set a ∧ a.toNat < P.length ∧ n.bps.find a = none ∨ o ≠ .set a ∧ (n.bps.find a).isSome = true

theorem change_total (ht : Texts h Tx) (hl : prog.length < 2 ^ 63) (hp : ∀ i ∈ prog, Plain h i) (hx : Session h c Tx prog data inp P n)
    (hlive : n.link.Live) {o : Op} {a : Word} {f : Option Bool} (ho : Changes a o f) (hab : Able P n a o) :
    ∃ n', o.run h c n = (.ok (), n') ∧ n'.link.Live := by
  rcases hab with ⟨rfl, h1, h2⟩ | ⟨h1, h2⟩
  · obtain ⟨_, n', g1, _, g2, _⟩ := C30_set ht hl hp hx hlive h1 h2
    exact ⟨n', g1, g2⟩
  · obtain ⟨bp, h2⟩ := Option.isSome_iff_exists.1 h2
    rcases ho with ⟨rfl, rfl⟩ | ⟨rfl, rfl⟩ | ⟨rfl, rfl⟩ | ⟨rfl, rfl⟩
    · exact absurd rfl h1
    · obtain ⟨n', g1, g2, _⟩ := C30_enable ht hl hp hx hlive h2
      exact ⟨n', g1, g2⟩
    · obtain ⟨⟨n', g1, g2, _⟩, _⟩ := C29_total ht hl hp hx hlive h2
      exact ⟨n', g1, g2⟩
    · obtain ⟨_, n', g1, g2, _⟩ := C29_total ht hl hp hx hlive h2
      exact ⟨n', g1, g2⟩

theorem change_refused {o : Op} {a : Word} {f : Option Bool} (ho : Changes a o f)
    (hb : (n.bps.find a).isSome = true ↔ o = .set a) : o.run h c n = (.error .debugger, n) := by
  rcases ho with ⟨rfl, rfl⟩ | ⟨rfl, rfl⟩ | ⟨rfl, rfl⟩ | ⟨rfl, rfl⟩
  · exact (C30_rejected h n a).1 (hb.2 rfl)
  all_goals
    have hn : n.bps.find a = none := by
      cases hq : n.bps.find a with
      | none => rfl
      | some bp => rw [hq] at hb; cases hb.1 rfl
  · exact ((C30_rejected h n a).2 hn).1
  · exact ((C30_rejected h n a).2 hn).2.1
  · exact ((C30_rejected h n a).2 hn).2.2

/-- The commands for the breakpoint at an address, what they do, what there is afterwards, and what they print. -/
def byAddress : List (String × (Word → Op) × Option Bool × String) :=
  [("ienable", .enable, some true, "Breakpoint enabled at address "), ("idisable", .disable, some false, "Breakpoint disabled at address "),
   ("iremove", .unset, none, "Breakpoint removed from address ")]

/-- The same for the breakpoint on a line or a function. -/
def byPlace : List (String × (Word → Op) × Option Bool × String) :=
  [("set", .set, some true, "Breakpoint set on line "), ("enable", .enable, some true, "Breakpoint enabled on line "),
   ("disable", .disable, some false, "Breakpoint disabled on line "), ("remove", .unset, none, "Breakpoint removed from line ")]

theorem changes_byAddress {p : String × (Word → Op) × Option Bool × String} (hp : p ∈ byAddress) (a : Word) :
    Changes a (p.2.1 a) p.2.2.1 ∧ p.2.1 a ≠ .set a ∧ IsWord p.1.toList := by
  simp only [byAddress, List.mem_cons, List.not_mem_nil, or_false] at hp
  rcases hp with rfl | rfl | rfl <;> refine ⟨by simp [Changes], by simp, ?_⟩ <;> unfold IsWord <;> decide

theorem changes_byPlace {p : String × (Word → Op) × Option Bool × String} (hp : p ∈ byPlace) (a : Word) :
    Changes a (p.2.1 a) p.2.2.1 ∧ IsWord p.1.toList := by
  simp only [byPlace, List.mem_cons, List.not_mem_nil, or_false] at hp
  rcases hp with rfl | rfl | rfl | rfl <;> refine ⟨by simp [Changes], ?_⟩ <;> unfold IsWord <;> decide

theorem onBreakpoint_address {p : String × (Word → Op) × Option Bool × String} (hp : p ∈ byAddress) (c : Client) (w : Str) :
    onBreakpoint [p.1.toList, w] = onAddress [p.1.toList, w] (fun h a => (p.2.1 a).run h c) p.2.2.2 := by
  simp only [byAddress, List.mem_cons, List.not_mem_nil, or_false] at hp
  rcases hp with rfl | rfl | rfl <;> rfl

/-- What happens to a breakpoint without an address of an instruction. -/
def lost (sub : String) : Err := if sub = "set" then .ub else .abort

theorem onBreakpoint_place {p : String × (Word → Op) × Option Bool × String} (hp : p ∈ byPlace) (c : Client) (w : Str) :
    onBreakpoint [p.1.toList, w] = onPlace [p.1.toList, w] (fun h a => (p.2.1 a).run h c) p.2.2.2 (lost p.1) := by
  simp only [byPlace, List.mem_cons, List.not_mem_nil, or_false] at hp
  rcases hp with rfl | rfl | rfl | rfl <;> rfl

/-- C65: `breakpoint ienable a`, `idisable` and `iremove` change the breakpoint at `a`, which must be there, say so, and change nothing
else. -/
theorem C65_address (e : Env) (ht : Texts h Tx) (hl : prog.length < 2 ^ 63) (hp : ∀ i ∈ prog, Plain h i) (hset : Setup h.cfg prog data)
    (hx : Careful h c Tx prog data inp P n) (hn : s.process = some n) (hh : s.host = h) (hs : Native.Shows h n st)
    {sub : String} {o : Word → Op} {f : Option Bool} {msg : String} (hc : (sub, o, f, msg) ∈ byAddress) {a : Nat} (ha : a < 2 ^ 63) :
    ((n.bps.find (BitVec.ofNat 64 a)).isSome = true →
      ∃ n', typed e (line ["breakpoint".toList, sub.toList, ofNat a]) s =
          (.ok (), { s with process := some n', out := s.out ++ [.print (msg.toList ++ ofNat a)] }) ∧
        (o (BitVec.ofNat 64 a)).run h c n = (.ok (), n') ∧
        Careful h c Tx prog data inp P n' ∧ Native.Shows h n' st ∧ n'.wps = n.wps ∧
        ∀ b, (n'.bps.find b).map (·.enabled) = if b = BitVec.ofNat 64 a then f else (n.bps.find b).map (·.enabled)) ∧
    (n.bps.find (BitVec.ofNat 64 a) = none → typed e (line ["breakpoint".toList, sub.toList, ofNat a]) s =
      (.ok (), { s with out := s.out ++ [.error] })) := by
  obtain ⟨h1, h2, h3⟩ := changes_byAddress hc (BitVec.ofNat 64 a)
  have e1 : (BitVec.ofNat 64 a).toNat = a := by rw [BitVec.toNat_ofNat, Nat.mod_eq_of_lt (by omega)]
  have ht' := typed_breakpoint e (words_two h3 (isWord_ofNat a)) (s := s) (by rw [hn]; rfl)
  rw [ht', onBreakpoint_address hc c]
  unfold onAddress
  rw [bind_eq (address_eq (l := [sub.toList, ofNat a]) (i := 1) rfl ha s)]
  constructor
  · intro hf
    obtain ⟨n', g1, g2⟩ := change_total ht hl hp hx.session hs.live h1 (.inr ⟨h2, hf⟩)
    obtain ⟨q1, q2, q3, q4⟩ := changed ht hl hp hset hx hs h1 g2 g1
    refine ⟨n', ?_, g1, q1, q2, q3, q4⟩
    rw [bind_eq (call_eq (x := fun h _ => (o (BitVec.ofNat 64 a)).run h c) hn (by rw [hh]; exact g1)), e1]
    rfl
  · intro hf
    have := change_refused (h := h) (c := c) (n := n) h1 (by rw [hf]; simpa using h2)
    rw [bind_error (call_eq (x := fun h _ => (o (BitVec.ofNat 64 a)).run h c) hn (by rw [hh]; exact this)), same_process hn]
    rfl

/-- The place of a breakpoint, the line it is in and what is printed about it. -/
theorem onPlace_eq {sub : String} {o : Word → Op} {f : Option Bool} {msg : String} (hc : (sub, o, f, msg) ∈ byPlace) {w : Str}
    {A : Word} (hA : Src.addressFromString s.source w true = .ok A) (hn : s.process = some n) (hh : s.host = h)
    (hr : (o A).run h c n = (.ok (), n')) :
    onBreakpoint [sub.toList, w] s = printLine msg A (lost sub) { s with process := some n' } := by
  rw [onBreakpoint_place hc c]
  unfold onPlace
  have : place [sub.toList, w] s = (.ok A, s) := by
    unfold place
    rw [bind_eq (x := Job.ofExcept (Cli.sub [sub.toList, w] 1)) (a := w) (t := s) rfl, bind_eq (x := Job.get) (a := s) (t := s) rfl, hA]
    rfl
  rw [bind_eq this]
  exact bind_eq (call_eq (x := fun h _ => (o A).run h c) hn (by rw [hh]; exact hr))

theorem printLine_eq (what : String) (a : Word) (how : Err) (s : Cli) :
    printLine what a how s = match addrToLine s.source.lines a.toNat with
      | none => (.error how, s)
      | some l => (.ok (), { s with out := s.out ++ [.print (what.toList ++ ofNat (l + 1) ++ " (addr ".toList ++ ofNat a.toNat ++
          ")".toList ++ (match lineOf s.source l with
            | some t => ": ".toList ++ t
            | none => []))] }) := by
  unfold printLine
  rw [bind_eq (x := Job.get) (a := s) (t := s) rfl]
  cases addrToLine s.source.lines a.toNat <;> rfl

theorem onPlace_refused {sub : String} {o : Word → Op} {f : Option Bool} {msg : String} (hc : (sub, o, f, msg) ∈ byPlace) {w : Str}
    (hn : s.process = some n) (hh : s.host = h)
    (hA : (∃ A, Src.addressFromString s.source w true = .ok A ∧ (o A).run h c n = (.error .debugger, n)) ∨
      Src.addressFromString s.source w true = .error .debugger) :
    onBreakpoint [sub.toList, w] s = (.error .debugger, s) := by
  rw [onBreakpoint_place hc c]
  unfold onPlace
  rcases hA with ⟨A, hA, hr⟩ | hA
  · have : place [sub.toList, w] s = (.ok A, s) := by
      unfold place
      rw [bind_eq (x := Job.ofExcept (Cli.sub [sub.toList, w] 1)) (a := w) (t := s) rfl, bind_eq (x := Job.get) (a := s) (t := s) rfl, hA]
      rfl
    rw [bind_eq this, bind_error (call_eq (x := fun h _ => (o A).run h c) hn (by rw [hh]; exact hr)), same_process hn]
  · have : place [sub.toList, w] s = (.error .debugger, s) := by
      unfold place
      rw [bind_eq (x := Job.ofExcept (Cli.sub [sub.toList, w] 1)) (a := w) (t := s) rfl, bind_eq (x := Job.get) (a := s) (t := s) rfl, hA]
      rfl
    exact bind_error this

theorem isWord_of_digits {k : Nat} {sub : Str} (hs : IsWord sub) : ∀ v ∈ [sub, ofNat k], IsWord v := words_two hs (isWord_ofNat k)

/-- What is said about the breakpoint at the beginning `a` of line `l` (counted from zero). -/
def placeLine (msg : String) (src : Src.Source) (l a : Nat) : Out :=
  .print (msg.toList ++ ofNat (l + 1) ++ " (addr ".toList ++ ofNat a ++ ")".toList ++
    (match src.file.bind fun F => F[l]? with
      | some t => ": ".toList ++ t
      | none => []))

theorem placeLine_eq (msg : String) (src : Src.Source) (l a : Nat) : placeLine msg src l a = .print (msg.toList ++ ofNat (l + 1) ++
    " (addr ".toList ++ ofNat a ++ ")".toList ++ (match lineOf src l with
      | some t => ": ".toList ++ t
      | none => [])) := by
  unfold placeLine lineOf
  congr 3
  cases src.file with
  | none => rfl
  | some F => simp only [Option.bind_some, C37_line]

/-- C65: `breakpoint set k`, `enable`, `disable` and `remove` (the lines are counted from one) change the breakpoint at the address `a` at
which this line begins, and nothing else. What is printed is the last line that begins at this address. -/
theorem C65_line (e : Env) (ht : Texts h Tx) (hl : prog.length < 2 ^ 63) (hp : ∀ i ∈ prog, Plain h i) (hset : Setup h.cfg prog data)
    (hx : Careful h c Tx prog data inp P n) (hn : s.process = some n) (hh : s.host = h) (hs : Native.Shows h n st)
    {sub : String} {o : Word → Op} {f : Option Bool} {msg : String} (hc : (sub, o, f, msg) ∈ byPlace) {t : List (Nat × Nat)}
    (hlines : s.source.lines = some (.ofEntries t)) {k a : Nat} (hk : k + 1 < 2 ^ 64) (hent : entryOf t k = some a) (ha : a < 2 ^ 64)
    (hab : Able P n (BitVec.ofNat 64 a) (o (BitVec.ofNat 64 a))) :
    ∃ n' l, typed e (line ["breakpoint".toList, sub.toList, ofNat (k + 1)]) s =
        (.ok (), { s with process := some n', out := s.out ++ [placeLine msg s.source l a] }) ∧
      entryOf t l = some a ∧ (∀ l', entryOf t l' = some a → l' ≤ l) ∧
      (o (BitVec.ofNat 64 a)).run h c n = (.ok (), n') ∧
      Careful h c Tx prog data inp P n' ∧ Native.Shows h n' st ∧ n'.wps = n.wps ∧
      ∀ b, (n'.bps.find b).map (·.enabled) = if b = BitVec.ofNat 64 a then f else (n.bps.find b).map (·.enabled) := by
  obtain ⟨h1, h3⟩ := changes_byPlace hc (BitVec.ofNat 64 a)
  have e1 : (BitVec.ofNat 64 a).toNat = a := by rw [BitVec.toNat_ofNat, Nat.mod_eq_of_lt (by omega)]
  have hA : Src.addressFromString s.source (ofNat (k + 1)) true = .ok (BitVec.ofNat 64 a) := by
    rw [(C54_number hk).1 t hlines, hent]
  obtain ⟨n', g1, g2⟩ := change_total ht hl hp hx.session hs.live h1 hab
  obtain ⟨q1, q2, q3, q4⟩ := changed ht hl hp hset hx hs h1 g2 g1
  cases hL : addrToLine s.source.lines a with
  | none =>
    rw [hlines] at hL
    exact absurd hent ((C36_unmapped t a).1.1 hL k)
  | some l =>
    have hl' := hL
    rw [hlines, C36_address] at hl'
    refine ⟨n', l, ?_, hl'.1, hl'.2, g1, q1, q2, q3, q4⟩
    rw [typed_breakpoint e (isWord_of_digits h3) (by rw [hn]; rfl), onPlace_eq hc hA hn hh g1, printLine_eq]
    simp only [e1]
    rw [hL, placeLine_eq]
    rfl

/-- C65: the same for the name of a function, which has its breakpoint at its beginning `b`. If no line begins there, the breakpoint is
changed, but the debugger is not able to say so: its behaviour is undefined (`set`), or it is aborted. -/
theorem C65_function (e : Env) (ht : Texts h Tx) (hl : prog.length < 2 ^ 63) (hp : ∀ i ∈ prog, Plain h i) (hset : Setup h.cfg prog data)
    (hx : Careful h c Tx prog data inp P n) (hn : s.process = some n) (hh : s.host = h) (hs : Native.Shows h n st)
    {sub : String} {o : Word → Op} {f : Option Bool} {msg : String} (hc : (sub, o, f, msg) ∈ byPlace)
    {unit d : Die} {g : Str} {b en : Nat} (hu : s.source.top = some unit) (hd : d ∈ unit.children) (htag : d.tag = .function)
    (hg : d.findName = some g) (hw : IsWord g) (hdig : ∀ x l, g = x :: l → isDigit x = false) (hb : d.findBegin = some b)
    (he : d.findEnd = some en) (hother : ∀ d' ∈ unit.children, d'.tag = .function → d'.findName = some g → d' = d) (hb64 : b < 2 ^ 64)
    (hab : Able P n (BitVec.ofNat 64 b) (o (BitVec.ofNat 64 b))) :
    ∃ n', typed e (line ["breakpoint".toList, sub.toList, g]) s =
        (match addrToLine s.source.lines b with
          | some l => (.ok (), { s with process := some n', out := s.out ++ [placeLine msg s.source l b] })
          | none => (.error (if sub = "set" then .ub else .abort), { s with process := some n' })) ∧
      (o (BitVec.ofNat 64 b)).run h c n = (.ok (), n') ∧
      Careful h c Tx prog data inp P n' ∧ Native.Shows h n' st ∧ n'.wps = n.wps ∧
      ∀ x, (n'.bps.find x).map (·.enabled) = if x = BitVec.ofNat 64 b then f else (n.bps.find x).map (·.enabled) := by
  obtain ⟨h1, h3⟩ := changes_byPlace hc (BitVec.ofNat 64 b)
  have e1 : (BitVec.ofNat 64 b).toNat = b := by rw [BitVec.toNat_ofNat, Nat.mod_eq_of_lt (by omega)]
  have hA : Src.addressFromString s.source g true = .ok (BitVec.ofNat 64 b) := by
    rw [C54_name hdig, hu, C38_range unit d g b en hd htag hg hb he hother]
  obtain ⟨n', g1, g2⟩ := change_total ht hl hp hx.session hs.live h1 hab
  obtain ⟨q1, q2, q3, q4⟩ := changed ht hl hp hset hx hs h1 g2 g1
  refine ⟨n', ?_, g1, q1, q2, q3, q4⟩
  rw [typed_breakpoint e (words_two h3 hw) (by rw [hn]; rfl), onPlace_eq hc hA hn hh g1, printLine_eq]
  simp only [e1]
  cases addrToLine s.source.lines b with
  | none => unfold lost; by_cases hq : sub = "set" <;> simp only [hq, if_true, if_false, reduceIte] <;> rfl
  | some l => simp only [placeLine_eq]; rfl

/-- C65, refused: a line that is not in the table, line 0, a second breakpoint at the same address, and changes of a breakpoint that is not
there. Nothing changes. -/
theorem C65_line_refused (e : Env) (hn : s.process = some n)
    {sub : String} {o : Word → Op} {f : Option Bool} {msg : String} (hc : (sub, o, f, msg) ∈ byPlace) {t : List (Nat × Nat)}
    (hlines : s.source.lines = some (.ofEntries t)) {k : Nat} (hk : k + 1 < 2 ^ 64)
    (hent : ∀ a, entryOf t k = some a → ((n.bps.find (BitVec.ofNat 64 a)).isSome = true ↔ sub = "set")) :
    typed e (line ["breakpoint".toList, sub.toList, ofNat (k + 1)]) s = (.ok (), { s with out := s.out ++ [.error] }) ∧
    typed e (line ["breakpoint".toList, sub.toList, ofNat 0]) s = (.ok (), { s with out := s.out ++ [.error] }) := by
  have h3 := (changes_byPlace hc 0).2
  rw [typed_breakpoint e (isWord_of_digits h3) (by rw [hn]; rfl), typed_breakpoint e (isWord_of_digits h3) (by rw [hn]; rfl)]
  constructor
  · rw [onPlace_refused (c := s.client) hc hn rfl]
    · rfl
    · cases hq : entryOf t k with
      | none => right; rw [(C54_number hk).1 t hlines, hq]
      | some a =>
        left
        refine ⟨BitVec.ofNat 64 a, by rw [(C54_number hk).1 t hlines, hq], change_refused (changes_byPlace hc _).1 ?_⟩
        rw [hent a hq]
        simp only [byPlace, List.mem_cons, List.not_mem_nil, or_false, Prod.mk.injEq] at hc
        rcases hc with ⟨rfl, rfl, _⟩ | ⟨rfl, rfl, _⟩ | ⟨rfl, rfl, _⟩ | ⟨rfl, rfl, _⟩ <;> simp
  · rw [onPlace_refused (c := s.client) hc hn rfl (.inr (C54_number hk).2.2)]
    rfl

end

section
variable {h : Host} {c : Client} {prog P : List Instr} {data : List Word} {inp : List (BitVec 8)} {n n' : Native}
  {st : State} {s : Cli}

/-- C65: `breakpoint iset a` sets a breakpoint at an instruction of the text that has none, prints the instruction, and changes nothing
else. -/
theorem C65_iset (e : Env) (hl : prog.length < 2 ^ 63) (hp : ∀ i ∈ prog, Plain h i) (hset : Setup h.cfg prog data)
    (hx : Careful h c (fun s i => s = i.print h.ftos ∧ Plain h i) prog data inp P n) (hn : s.process = some n) (hh : s.host = h)
    (hs : Native.Shows h n st) {a : Nat} {i : Instr} (hi : P[a]? = some i) (hf : n.bps.find (BitVec.ofNat 64 a) = none) :
    ∃ n', typed e (line ["breakpoint".toList, "iset".toList, ofNat a]) s =
        (.ok (), { s with
          process := some n',
          out := s.out ++ [.print ("Breakpoint set on address ".toList ++ ofNat a ++ ": '".toList ++ i.print h.ftos ++ "'".toList)] }) ∧
      (Op.set (BitVec.ofNat 64 a)).run h c n = (.ok (), n') ∧
      Careful h c (fun s i => s = i.print h.ftos ∧ Plain h i) prog data inp P n' ∧ Native.Shows h n' st ∧ n'.wps = n.wps ∧
      ∀ b, (n'.bps.find b).map (·.enabled) = if b = BitVec.ofNat 64 a then some true else (n.bps.find b).map (·.enabled) := by
  have hlen := session_size hl hp hx.session
  obtain ⟨haP, hi'⟩ := List.getElem?_eq_some_iff.1 hi
  have e1 : (BitVec.ofNat 64 a).toNat = a := by rw [BitVec.toNat_ofNat, Nat.mod_eq_of_lt (by omega)]
  have h1 : Changes (BitVec.ofNat 64 a) (.set (BitVec.ofNat 64 a)) (some true) := .inl ⟨rfl, rfl⟩
  obtain ⟨n', g1, g2⟩ := change_total (texts_print h) hl hp hx.session hs.live h1 (.inl ⟨rfl, by rw [e1]; exact haP, hf⟩)
  obtain ⟨q1, q2, q3, q4⟩ := changed (texts_print h) hl hp hset hx hs h1 g2 g1
  refine ⟨n', ?_, g1, q1, q2, q3, q4⟩
  rw [typed_breakpoint e (isWord_of_digits (by unfold IsWord; decide)) (by rw [hn]; rfl)]
  have : onBreakpoint ["iset".toList, ofNat a] s = breakAt ["iset".toList, ofNat a] s := rfl
  rw [this]
  unfold breakAt
  rw [bind_eq (address_eq (l := ["iset".toList, ofNat a]) (i := 1) rfl (by omega) s)]
  rw [bind_eq (call_eq hn (x := fun h _ => Native.readText h (BitVec.ofNat 64 a) 1) (by
    rw [hh]
    exact readText_shows hl hp hx.session hs (a := a) (m := 1) (by omega))), same_process hn]
  rw [bind_eq (call_eq hn (x := fun h _ => Native.setBreakpoint h (BitVec.ofNat 64 a)) (by rw [hh]; exact g1)), e1]
  have : ((P.drop a).take 1).map (·.print h.ftos) = [i.print h.ftos] := by
    rw [List.drop_eq_getElem_cons haP, hi']
    rfl
  rw [this]
  rfl

/-- C65, refused: there is such a breakpoint, or the address is not one of the text. Nothing changes. -/
theorem C65_iset_refused (e : Env) (hl : prog.length < 2 ^ 63) (hp : ∀ i ∈ prog, Plain h i)
    (hx : Session h c (fun s i => s = i.print h.ftos ∧ Plain h i) prog data inp P n) (hn : s.process = some n) (hh : s.host = h)
    (hs : Native.Shows h n st) {a : Nat} (ha : a < 2 ^ 63) (hf : (n.bps.find (BitVec.ofNat 64 a)).isSome = true ∨ P.length ≤ a) :
    typed e (line ["breakpoint".toList, "iset".toList, ofNat a]) s = (.ok (), { s with out := s.out ++ [.error] }) := by
  have hlen := session_size hl hp hx
  have e1 : (BitVec.ofNat 64 a).toNat = a := by rw [BitVec.toNat_ofNat, Nat.mod_eq_of_lt (by omega)]
  rw [typed_breakpoint e (isWord_of_digits (by unfold IsWord; decide)) (by rw [hn]; rfl)]
  have : onBreakpoint ["iset".toList, ofNat a] s = breakAt ["iset".toList, ofNat a] s := rfl
  rw [this]
  unfold breakAt
  rw [bind_eq (address_eq (l := ["iset".toList, ofNat a]) (i := 1) rfl (by omega) s)]
  by_cases hP : a < P.length
  · rw [bind_eq (call_eq hn (x := fun h _ => Native.readText h (BitVec.ofNat 64 a) 1) (by
      rw [hh]
      exact readText_shows hl hp hx hs (a := a) (m := 1) (by omega))), same_process hn]
    rw [bind_error (call_eq hn (x := fun h _ => Native.setBreakpoint h (BitVec.ofNat 64 a)) (by
      rw [hh]
      exact (C30_rejected h n _).1 (hf.resolve_right (by omega)))), same_process hn]
    rfl
  · rw [bind_error (call_eq hn (x := fun h _ => Native.readText h (BitVec.ofNat 64 a) 1) (by
      rw [hh]
      exact (C35_text_partial (texts_print h) hl hp hx hs.live).1 1 (by rw [e1]; simp; omega) (by rw [e1]; simp; omega))), same_process hn]
    rfl

/-- Removing a watchpoint that is there always succeeds at a stop. -/
theorem removeWatchpoint_total {Tx : Str → Instr → Prop} (hg : Good h Tx P n) (hlive : n.link.Live) {a : Word}
    (hf : (n.wps.find a).isSome = true) : removeWatchpoint h a n = (.ok (), { n with wps := n.wps.erase a }) := by
  obtain ⟨i, hf⟩ := Option.isSome_iff_exists.1 hf
  have hw := hg.watch
  unfold removeWatchpoint
  rw [bind_eq (x := Job.get) (t := n) (a := n) rfl]
  simp only [hf]
  have hlist : ∀ j, Map.find (Proc.listing 0 n.link.vm.cpu.dbg) (Arch.debugName j) = n.link.vm.cpu.dbg[j]? := by
    intro j
    have := Proc.find_listing 0 n.link.vm.cpu.dbg j
    rwa [Nat.zero_add] at this
  have hlen := hw.length
  have hfe : proc (Proc.fetchDebugRegisters h) n = (.ok (Proc.listing 0 n.link.vm.cpu.dbg), n) := proc_eq (Proc.fetchDebugs_live hlive)
  have hact : ∃ r, Arch.deactivate i (Proc.listing 0 n.link.vm.cpu.dbg) = .ok r := by
    unfold Arch.deactivate Arch.at'
    rw [show "D4".toList = Arch.debugName 4 from rfl, hlist, List.getElem?_eq_getElem (by omega)]
    exact ⟨_, rfl⟩
  obtain ⟨r, hr⟩ := hact
  rw [bind_eq hfe, hr]
  rfl

/-- C65: `watchpoint iset a` watches `a`, if it is not watched and no more than three addresses are. Nothing is printed, and nothing else
changes. Otherwise it is refused, and nothing changes. -/
theorem C65_watch {Tx : Str → Instr → Prop} (e : Env) (ht : Texts h Tx) (hl : prog.length < 2 ^ 63) (hp : ∀ i ∈ prog, Plain h i)
    (hset : Setup h.cfg prog data) (hx : Careful h c Tx prog data inp P n) (hn : s.process = some n) (hh : s.host = h)
    (hs : Native.Shows h n st) {a : Nat} (ha : a < 2 ^ 63) :
    (n.wps.find (BitVec.ofNat 64 a) = none → n.wps.length < 4 →
      ∃ n', typed e (line ["watchpoint".toList, "iset".toList, ofNat a]) s = (.ok (), { s with process := some n' }) ∧
        (Op.watch (BitVec.ofNat 64 a)).run h c n = (.ok (), n') ∧
        Careful h c Tx prog data inp P n' ∧ Native.Shows h n' st ∧ n'.bps = n.bps ∧ n'.wps.map (·.1) = n.wps.map (·.1) ++ [BitVec.ofNat 64 a]) ∧
    ((n.wps.find (BitVec.ofNat 64 a)).isSome = true ∨ n.wps.length = 4 →
      typed e (line ["watchpoint".toList, "iset".toList, ofNat a]) s = (.ok (), { s with out := s.out ++ [.error] })) := by
  have hg := session_good ht hl hp hx.session
  rw [typed_watchpoint e (isWord_of_digits (by unfold IsWord; decide)) (by rw [hn]; rfl)]
  have : onWatchpoint ["iset".toList, ofNat a] s = (do
      let a ← address ["iset".toList, ofNat a] 1
      call fun h _ => Native.setWatchpoint h a : C Unit) s := rfl
  rw [this, bind_eq (address_eq (l := ["iset".toList, ofNat a]) (i := 1) rfl ha s)]
  constructor
  · intro hf h4
    obtain ⟨n', g1, g2⟩ := setWatchpoint_total hg hs.live hf h4
    have hc : Careful h c Tx prog data inp P n' := .call (.watch _) hx g1 rfl trivial
    obtain ⟨_, i, D, _, _, _, _, g3⟩ := setWatchpoint_ok hg.rest hg.watch g1
    obtain ⟨st', hs'⟩ := careful_shows ht hl hp hset hc g2
    refine ⟨n', ?_, g1, hc, shows_transfer hs' ?_, by rw [g3], by rw [g3]; simp⟩
    · have hcall : Native.setWatchpoint s.host (BitVec.ofNat 64 a) n = _ := hh ▸ g1
      rw [call_eq hn (x := fun h _ => Native.setWatchpoint h (BitVec.ofNat 64 a)) hcall]
      rfl
    · rw [g3]
      exact ⟨hs.machine.regs, hs.machine.mem, hs.machine.out, hs.machine.inp, hs.machine.halted⟩
  · intro hf
    have := C32_rejected ht hl hp hx.session (BitVec.ofNat 64 a) hf.symm
    have hcall : Native.setWatchpoint s.host (BitVec.ofNat 64 a) n = _ := hh ▸ this
    rw [call_eq hn (x := fun h _ => Native.setWatchpoint h (BitVec.ofNat 64 a)) hcall, same_process hn]
    rfl

/-- C65: `watchpoint irem a` stops watching `a`, if it is watched. Nothing is printed, and nothing else changes. Otherwise it is refused,
and nothing changes. -/
theorem C65_unwatch {Tx : Str → Instr → Prop} (e : Env) (ht : Texts h Tx) (hl : prog.length < 2 ^ 63) (hp : ∀ i ∈ prog, Plain h i)
    (hset : Setup h.cfg prog data) (hx : Careful h c Tx prog data inp P n) (hn : s.process = some n) (hh : s.host = h)
    (hs : Native.Shows h n st) {a : Nat} (ha : a < 2 ^ 63) :
    ((n.wps.find (BitVec.ofNat 64 a)).isSome = true →
      ∃ n', typed e (line ["watchpoint".toList, "irem".toList, ofNat a]) s = (.ok (), { s with process := some n' }) ∧
        (Op.unwatch (BitVec.ofNat 64 a)).run h c n = (.ok (), n') ∧
        Careful h c Tx prog data inp P n' ∧ Native.Shows h n' st ∧ n'.bps = n.bps ∧
        n'.wps.map (·.1) = (n.wps.map (·.1)).filter (· ≠ BitVec.ofNat 64 a)) ∧
    (n.wps.find (BitVec.ofNat 64 a) = none →
      typed e (line ["watchpoint".toList, "irem".toList, ofNat a]) s = (.ok (), { s with out := s.out ++ [.error] })) := by
  have hg := session_good ht hl hp hx.session
  rw [typed_watchpoint e (isWord_of_digits (by unfold IsWord; decide)) (by rw [hn]; rfl)]
  have : onWatchpoint ["irem".toList, ofNat a] s = (do
      let a ← address ["irem".toList, ofNat a] 1
      call fun h _ => Native.removeWatchpoint h a : C Unit) s := rfl
  rw [this, bind_eq (address_eq (l := ["irem".toList, ofNat a]) (i := 1) rfl ha s)]
  constructor
  · intro hf
    have g1 := removeWatchpoint_total hg hs.live hf
    have hc : Careful h c Tx prog data inp P { n with wps := n.wps.erase (BitVec.ofNat 64 a) } := .call (.unwatch _) hx g1 rfl trivial
    obtain ⟨st', hs'⟩ := careful_shows ht hl hp hset hc hs.live
    refine ⟨_, ?_, g1, hc, shows_transfer hs' hs.machine, rfl, Map.keys_erase _ _⟩
    have hcall : Native.removeWatchpoint s.host (BitVec.ofNat 64 a) n = _ := hh ▸ g1
    rw [call_eq hn (x := fun h _ => Native.removeWatchpoint h (BitVec.ofNat 64 a)) hcall]
    rfl
  · intro hf
    have : removeWatchpoint h (BitVec.ofNat 64 a) n = (.error .debugger, n) := by
      unfold removeWatchpoint
      rw [bind_eq (x := Job.get) (t := n) (a := n) rfl]
      simp only [hf]
      rfl
    have hcall : Native.removeWatchpoint s.host (BitVec.ofNat 64 a) n = _ := hh ▸ this
    rw [call_eq hn (x := fun h _ => Native.removeWatchpoint h (BitVec.ofNat 64 a)) hcall, same_process hn]
    rfl

theorem insertAddr_perm {α : Type} (p : Word × α) : ∀ l : List (Word × α), (insertAddr p l).Perm (p :: l)
  | [] => .refl _
  | q :: l => by
    unfold insertAddr
    split
    · exact .refl _
    · exact ((insertAddr_perm p l).cons q).trans (.swap _ _ _)

theorem insertAddr_sorted {α : Type} (p : Word × α) : ∀ l : List (Word × α), l.Pairwise (fun x y => x.1.toNat ≤ y.1.toNat) →
    (insertAddr p l).Pairwise fun x y => x.1.toNat ≤ y.1.toNat
  | [], _ => by simp [insertAddr]
  | q :: l, hs => by
    have hs' := List.pairwise_cons.1 hs
    unfold insertAddr
    split
    · rename_i hlt
      refine List.pairwise_cons.2 ⟨fun x hx => ?_, hs⟩
      rcases List.mem_cons.1 hx with rfl | hx
      · omega
      · have := hs'.1 x hx
        omega
    · rename_i hlt
      refine List.pairwise_cons.2 ⟨fun x hx => ?_, insertAddr_sorted p l hs'.2⟩
      rcases List.mem_cons.1 ((insertAddr_perm p l).mem_iff.1 hx) with rfl | hx
      · omega
      · exact hs'.1 x hx

theorem sortAddr_spec {α : Type} (m : List (Word × α)) : (sortAddr m).Perm m ∧ (sortAddr m).Pairwise fun x y => x.1.toNat ≤ y.1.toNat := by
  have : ∀ (m l : List (Word × α)), l.Pairwise (fun x y => x.1.toNat ≤ y.1.toNat) →
      (m.foldl (fun l p => insertAddr p l) l).Perm (m ++ l) ∧
        (m.foldl (fun l p => insertAddr p l) l).Pairwise fun x y => x.1.toNat ≤ y.1.toNat := by
    intro m
    induction m with
    | nil => exact fun l hl => ⟨.refl _, hl⟩
    | cons p m ih =>
      intro l hl
      obtain ⟨h1, h2⟩ := ih (insertAddr p l) (insertAddr_sorted p l hl)
      exact ⟨(h1.trans ((insertAddr_perm p l).append_left m)).trans List.perm_middle, h2⟩
  have := this m [] .nil
  rw [List.append_nil] at this
  exact this

/-- What `breakpoint list` prints of a breakpoint. The line is counted from zero, not from one as everywhere else. -/
def breakpointOut (src : Src.Source) (a : Word) (bp : Bp) : Out :=
  .print ("addr: ".toList ++ ofNat a.toNat ++
    (match addrToLine src.lines a.toNat with
      | some l => ", line: ".toList ++ ofNat l
      | none => []) ++
    "; ".toList ++ (if bp.enabled = true then "enabled".toList else "disabled".toList) ++
    (match getFunctionNameByAddress src.top a.toNat with
      | some f => "; function: ".toList ++ f
      | none => []))

/-- C65: `breakpoint list` prints every breakpoint once, from the lowest address to the highest, and changes nothing. -/
theorem C65_list (e : Env) (hn : s.process = some n) :
    ∃ l : List (Word × Bp), l.Perm n.bps ∧ l.Pairwise (fun x y => x.1.toNat ≤ y.1.toNat) ∧
      typed e "breakpoint list".toList s = (.ok (), { s with out := s.out ++ l.map fun x => breakpointOut s.source x.1 x.2 }) := by
  refine ⟨sortAddr n.bps, (sortAddr_spec _).1, (sortAddr_spec _).2, ?_⟩
  have := typed_breakpoint e (ws := ["list".toList]) (by unfold IsWord; decide) (s := s) (by rw [hn]; rfl)
  refine Eq.trans this ?_
  have : onBreakpoint ["list".toList] s = (.ok (), { s with out := s.out ++ (sortAddr (breakpoints s)).map (breakpointLine s.source) }) := rfl
  rw [this]
  have : breakpoints s = n.bps := by unfold breakpoints; rw [hn]
  rw [this]
  have : (breakpointLine s.source) = fun x => breakpointOut s.source x.1 x.2 := by
    funext x
    unfold breakpointLine breakpointOut
    cases x.2.enabled <;> rfl
  rw [this]
  rfl

/-- C65: `watchpoint list` prints every watched address once, from the lowest to the highest, and changes nothing. -/
theorem C65_watched (e : Env) (hn : s.process = some n) :
    ∃ l : List Word, l.Perm (n.wps.map (·.1)) ∧ l.Pairwise (fun x y => x.toNat ≤ y.toNat) ∧
      typed e "watchpoint list".toList s = (.ok (), { s with
        out := s.out ++ if n.wps = [] then [.print "No active watchpoints".toList] else
          .print "Active watchpoints:".toList :: l.map fun a => .print (" - address ".toList ++ ofNat a.toNat) }) := by
  refine ⟨(sortAddr n.wps).map (·.1), (sortAddr_spec _).1.map _, List.pairwise_map.2 (sortAddr_spec _).2, ?_⟩
  have := typed_watchpoint e (ws := ["list".toList]) (by unfold IsWord; decide) (s := s) (by rw [hn]; rfl)
  refine Eq.trans this ?_
  have hw : watchpoints s = n.wps := by unfold watchpoints; rw [hn]
  have : onWatchpoint ["list".toList] s = listWatchpoints s := rfl
  rw [this]
  unfold listWatchpoints
  rw [bind_eq (x := Job.get) (t := s) (a := s) rfl, hw]
  have hp := (sortAddr_spec n.wps).1
  cases hq : sortAddr n.wps with
  | nil =>
    rw [hq] at hp
    rw [if_pos hp.symm.eq_nil]
    rfl
  | cons x l =>
    rw [if_neg (fun h0 => by rw [hq, h0] at hp; exact absurd hp.eq_nil (by simp))]
    change (Except.ok (), _) = (Except.ok (), _)
    simp only [List.map_map]
    rfl

end

/-! ## Examples and findings -/

/-- A debugger with a source of which two lines begin at the same address, and with a function of which no line begins at its beginning. -/
def exBreak : Cli :=
  { exSource with
    source :=
      { lines := some (.ofEntries [(0, 0), (1, 1), (2, 1), (4, 6)])
        file := some ["a".toList, "b".toList, "c".toList, "d".toList, "e".toList]
        top := some ⟨.unit, [], [⟨.function, [.name "f".toList, .beginAddr 6, .endAddr 9], []⟩,
          ⟨.function, [.name "g".toList, .beginAddr 2, .endAddr 4], []⟩]⟩ } }

/-- The debugger after these lines. -/
def exBroken (l : List String) : Cli := l.foldl (fun s x => (typed exEnv x.toList s).2) exBreak

/-- Breakpoints are set, changed and listed. -/
example : (exBroken ["breakpoint set f", "breakpoint set 1", "breakpoint iset 4", "breakpoint disable f", "breakpoint idisable 4", "breakpoint ienable 4",
      "breakpoint remove 1", "breakpoint set 9", "breakpoint iremove 0", "breakpoint list"]).out =
    [.print "Breakpoint set on line 5 (addr 6): e".toList, .print "Breakpoint set on line 1 (addr 0): a".toList,
     .print "Breakpoint set on address 4: 'PUTNUM R1'".toList, .print "Breakpoint disabled on line 5 (addr 6): e".toList,
     .print "Breakpoint disabled at address 4".toList, .print "Breakpoint enabled at address 4".toList,
     .print "Breakpoint removed from line 1 (addr 0): a".toList, .error, .error,
     .print "addr: 4; enabled".toList, .print "addr: 6, line: 4; disabled; function: f".toList] := by decide +kernel

/-- Watchpoints are set, removed and listed. -/
example : (exBroken ["watchpoint list", "watchpoint iset 8", "watchpoint iset 3", "watchpoint iset 8", "watchpoint list", "watchpoint irem 8",
      "watchpoint irem 8", "watchpoint list"]).out =
    [.print "No active watchpoints".toList, .error, .print "Active watchpoints:".toList, .print " - address 3".toList,
     .print " - address 8".toList, .error, .print "Active watchpoints:".toList, .print " - address 3".toList] := by decide +kernel

/-- C65, not for functions without a line: the debugger dies, with the breakpoint set. -/
theorem C65_no_line : (typed exEnv "breakpoint set g".toList exBreak).1 = .error .ub ∧
    ((exBroken ["breakpoint set g"]).process.map fun n => n.bps.map (·.1)) = some [2] ∧
    (typed exEnv "breakpoint disable g".toList (exBroken ["breakpoint iset 2"])).1 = .error .abort := by decide +kernel

/-- C65, not for lines that share an address: a breakpoint set on line 2 is said to be on line 3, and cannot be set on line 3. -/
theorem C65_other_line : (exBroken ["breakpoint set 2", "breakpoint set 3"]).out =
    [.print "Breakpoint set on line 3 (addr 1): c".toList, .error] := by decide +kernel

/-- C65: `breakpoint list` counts the lines from zero. A breakpoint set on line 5 is listed with line 4. -/
theorem C65_list_zero : (exBroken ["breakpoint set 5", "breakpoint list"]).out =
    [.print "Breakpoint set on line 5 (addr 6): e".toList, .print "addr: 6, line: 4; enabled; function: f".toList] := by decide +kernel

/-- The theorems apply, for example, after the history of `Verif/Props/Native.lean`. -/
example : ∃ s : Cli, ∃ n st, s.process = some n ∧ s.host = Sample.host ∧ s.source = exBreak.source ∧ Native.Shows Sample.host n st ∧
    Careful Sample.host Sample.client (fun s i => s = i.print Sample.host.ftos ∧ Plain Sample.host i) Sample.calls [] [] Sample.calls n ∧
    (∃ t, s.source.lines = some (.ofEntries t) ∧ entryOf t 0 = some 0) ∧ Able Sample.calls n 0 (.set 0) ∧
    (∃ a, Able Sample.calls n a (.enable a)) ∧ n.wps.length < 4 := by
  obtain ⟨st, hs⟩ := Sample.calls_shows
  have h1 : (Sample.after (Sample.started Sample.calls) Sample.history).bps.find 0 = none := by decide +kernel
  have h2 : ((Sample.after (Sample.started Sample.calls) Sample.history).bps.find 1).isSome = true := by decide +kernel
  have h3 : (Sample.after (Sample.started Sample.calls) Sample.history).wps.map (·.1) = [8] := by decide +kernel
  have h4 : (Sample.after (Sample.started Sample.calls) Sample.history).wps.length = 1 := by
    rw [← List.length_map (f := fun x : Word × Nat => x.1), h3]
    rfl
  refine ⟨{ host := Sample.host, client := Sample.client, process := some (Sample.after (Sample.started Sample.calls) Sample.history), source := exBreak.source },
    Sample.after (Sample.started Sample.calls) Sample.history, st, rfl, rfl, rfl, hs,
    Sample.history_careful, ⟨[(0, 0), (1, 1), (2, 1), (4, 6)], rfl, by decide⟩, Or.inl ⟨rfl, by decide, h1⟩,
    ⟨1, Or.inr ⟨by simp, h2⟩⟩, by rw [h4]; decide⟩

end Cli
end T86
