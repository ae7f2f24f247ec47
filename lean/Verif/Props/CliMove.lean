import Verif.Props.CliStop

/-!
# What the debugger shows when the program has stopped

C66: after a command that goes on with the program the debugger reports the event and shows the place of the next instruction.
-/

namespace T86
namespace Cli

open Dbg Str
open Job Isa Native

/-- The line about the function at an address, with the variables of the scope. -/
def heading (src : Src.Source) (pc : Word) : List Out :=
  match getFunctionNameByAddress src.top pc.toNat with
  | none => []
  | some f =>
    match getFunctionAddrByName src.top f with
    | none => []
    | some (b, d) => [.print ("function ".toList ++ f ++ " at ".toList ++ ofNat b ++ "-".toList ++ ofNat d ++
        activeVariables (Src.scopedVariables src pc.toNat))]

/-- The text around the next instruction: two instructions before it and two after it. Nothing if the program is past its end. -/
def textAround (h : Host) (src : Src.Source) (P : List Instr) (n : Native) (pc : Word) : List Out :=
  if pc.toNat < P.length then
    heading src pc ++ listing h P n pc (pc.toNat - 2) (min P.length (pc.toNat + 3) - (pc.toNat - 2))
  else []

/-- The source around line `l` (counted from zero): two lines before it and two after it. -/
def codeAround (src : Src.Source) (n : Native) (pc : Word) (l : Nat) : List Out :=
  heading src pc ++ match src.file with
    | some L => sourceListing src L n pc (l - 2) (l + 3 - (l - 2))
    | none => []

/-- The place of the next instruction: commands for instructions show instructions; commands for lines show lines, if there is a line; the
other commands show lines if there is a line, or else instructions. -/
def placeShown (k : Command) (h : Host) (src : Src.Source) (P : List Instr) (n : Native) (pc : Word) : List Out :=
  match k, addrToLine src.lines pc.toNat with
  | .istep, _ | .inext, _ => textAround h src P n pc
  | .step, none | .next, none => []
  | _, none => textAround h src P n pc
  | _, some l => codeAround src n pc l

/-- The report of an event. A step that is done is reported after `continue` only. -/
def reported (k : Command) (src : Src.Source) (ev : Event) (pc : Word) : List Out :=
  match ev with
  | .singlestep => if k = .continue' then [.event "Singlestep done".toList] else []
  | .breakpoint a =>
    (match addrToLine src.lines a.toNat with
    | some l => [.event ("Software breakpoint hit at line ".toList ++ ofNat (l + 1))]
    | none => [.event ("Software breakpoint hit at address ".toList ++ ofNat a.toNat)])
  | .watchpoint a => [.event ("Watchpoint triggered at memory address ".toList ++ ofNat a.toNat)]
  | .begin => [.event "Execution started".toList]
  | .end' => [.event "The program finished execution".toList]
  | .cpuError _ => [.event "Inner CPU error occured.".toList, .cpuError pc.toNat]

/-- The debugger after the program has stopped: the event is reported and, unless the program has ended, the place of the next instruction is
shown. After its end, or an error of the processor, the program cannot go on. -/
def stopped (k : Command) (h : Host) (P : List Instr) (s : Cli) (n : Native) (ev : Event) (pc : Word) : Cli :=
  { s with
    process := some n
    running := decide (ev ≠ .end') && !isCpuError ev
    out := s.out ++ reported k s.source ev pc ++ if ev = .end' then [] else placeShown k h s.source P n pc }

section
variable {h : Host} {c : Client} {prog P : List Instr} {data : List Word} {inp : List (BitVec 8)} {n n' : Native} {st st' : State} {s : Cli}

theorem printFunction_heading (e : Env) (s : Cli) (a : Word) :
    printFunction e a false s = (.ok (), { s with out := s.out ++ heading s.source a }) := by
  obtain ⟨F, h1, h2, h3⟩ := printFunction_eq e s a
  rw [h1]
  have : F = heading s.source a := by
    unfold heading
    cases hq : getFunctionNameByAddress s.source.top a.toNat with
    | none => exact h2 hq
    | some f =>
      simp only
      cases hr : getFunctionAddrByName s.source.top f with
      | none =>
        simp only
        have h4 : printFunction e a false s = (.ok (), s) := by
          unfold printFunction
          rw [bind_eq (x := Job.get) (a := s) (t := s) rfl]
          simp only [hq, hr]
          rfl
        rw [h4] at h1
        have := congrArg (fun x => x.2.out) h1
        simpa using this
      | some p => exact h3 f p.1 p.2 hq hr
  rw [this]

theorem here_eq (hn : s.process = some n) (hh : s.host = h) (hs : Native.Shows h n st) {α : Type} (k : Word → C α) :
    (do
      let ip ← call fun h _ => Native.getIP h
      k ip : C α) s = k st.pc s := by
  refine (bind_eq (call_eq hn (by rw [hh]; exact getIP_shows hs))).trans ?_
  rw [same_process hn]

theorem codeLines_none {src : Src.Source} (hf : src.file = none) (bps : Map Word Bp) (cur : Option Nat) :
    ∀ m b, codeLines src bps cur m b = []
  | 0, _ => rfl
  | m + 1, b => by
    unfold codeLines lineOf
    rw [hf]
    exact codeLines_none hf bps cur m (b + 1)

theorem prettyCode_eq (e : Env) (hn : s.process = some n) (hh : s.host = h) (hs : Native.Shows h n st) (l : Nat) :
    prettyCode e l s = (.ok (), { s with out := s.out ++ codeAround s.source n st.pc l }) := by
  unfold prettyCode
  refine (here_eq hn hh hs _).trans ?_
  refine (bind_eq (printFunction_heading e s st.pc)).trans ?_
  unfold codeAround
  cases hf : s.source.file with
  | some L =>
    rw [printCode_eq (s := { s with out := s.out ++ heading s.source st.pc }) hn hh hs hf, ← List.append_assoc]
  | none =>
    unfold printCode
    refine (here_eq (s := { s with out := s.out ++ heading s.source st.pc }) hn hh hs _).trans ?_
    change (Except.ok (), _) = (Except.ok (), _)
    simp only [codeLines_none hf]
    simp

variable (hl : prog.length < 2 ^ 63) (hp : ∀ i ∈ prog, Plain h i)
  (hx : Session h c (fun s i => s = i.print h.ftos ∧ Plain h i) prog data inp P n)
include hl hp hx

theorem textAround_eq (e : Env) (hn : s.process = some n) (hh : s.host = h) (hs : Native.Shows h n st) :
    prettyText e st.pc s = (.ok (), { s with out := s.out ++ textAround h s.source P n st.pc }) := by
  unfold textAround
  by_cases hpc : st.pc.toNat < P.length
  · rw [if_pos hpc, prettyText_eq hl hp hx e hn hh hs hpc (printFunction_heading e s st.pc), ← List.append_assoc]
  · have h63 := session_size hl hp hx
    rw [if_neg hpc]
    unfold prettyText
    refine (bind_eq (call_eq hn (by rw [hh]; exact textSize_shows hl hp hx hs))).trans ?_
    rw [same_process hn, if_pos (by rw [BitVec.toNat_ofNat, Nat.mod_eq_of_lt (by omega)]; omega), List.append_nil]
    rfl

theorem showPlace_eq (e : Env) (hn : s.process = some n) (hh : s.host = h) (hs : Native.Shows h n st) :
    showPlace e s = (.ok (), { s with out := s.out ++ placeShown .continue' h s.source P n st.pc }) := by
  unfold showPlace
  refine (here_eq hn hh hs _).trans ?_
  refine (bind_eq (x := Job.get) (a := s) (t := s) rfl).trans ?_
  unfold placeShown
  cases addrToLine s.source.lines st.pc.toNat with
  | none => exact textAround_eq hl hp hx e hn hh hs
  | some l => exact prettyCode_eq e hn hh hs l

omit hl hp hx in
theorem showLine_eq (e : Env) (hn : s.process = some n) (hh : s.host = h) (hs : Native.Shows h n st) :
    showLine e s = (.ok (), { s with out := s.out ++ placeShown .step h s.source P n st.pc }) := by
  unfold showLine
  refine (here_eq hn hh hs _).trans ?_
  refine (bind_eq (x := Job.get) (a := s) (t := s) rfl).trans ?_
  unfold placeShown
  cases addrToLine s.source.lines st.pc.toNat with
  | none =>
    change (Except.ok (), s) = _
    rw [List.append_nil]
  | some l => exact prettyCode_eq e hn hh hs l

omit hl hp hx in
theorem event_eq (src : Src.Source) (ev : Event) (pc : Word) :
    reported .continue' src ev pc = .event (eventText src ev) :: if isCpuError ev = true then [.cpuError pc.toNat] else [] := by
  cases ev with
  | breakpoint a =>
    have h1 : reported .continue' src (.breakpoint a) pc = [.event (eventText src (.breakpoint a))] := by
      change (match addrToLine src.lines a.toNat with
        | some l => [Out.event ("Software breakpoint hit at line ".toList ++ ofNat (l + 1))]
        | none => [Out.event ("Software breakpoint hit at address ".toList ++ ofNat a.toNat)]) = [Out.event (match addrToLine src.lines a.toNat with
        | some l => "Software breakpoint hit at line ".toList ++ ofNat (l + 1)
        | none => "Software breakpoint hit at address ".toList ++ ofNat a.toNat)]
      cases addrToLine src.lines a.toNat <;> rfl
    exact h1
  | _ => rfl

omit hl hp hx in
theorem report_eq (hn : s.process = some n) (hh : s.host = h) (hs : Native.Shows h n st) (hr : s.running = true) (ev : Event) :
    report ev s = (.ok (), { s with
      running := !isCpuError ev
      out := s.out ++ reported .continue' s.source ev st.pc }) := by
  rw [event_eq]
  unfold report
  refine (bind_eq (x := Job.get) (a := s) (t := s) rfl).trans ?_
  generalize eventText s.source ev = tx
  refine (bind_eq (x := put (Out.event tx)) (a := ()) (t := { s with out := s.out ++ [Out.event tx] }) rfl).trans ?_
  cases isCpuError ev
  · rw [if_neg (by simp), if_neg (by simp)]
    obtain ⟨ho, cl, pr, src, ru, ou, inp⟩ := s
    cases hr
    rfl
  · rw [if_pos rfl, if_pos rfl]
    refine (here_eq (s := { s with out := s.out ++ [Out.event tx] }) hn hh hs _).trans ?_
    change (Except.ok (), _) = (Except.ok (), _)
    simp

omit hl hp hx in
theorem reportStop_eq (hn : s.process = some n) (hh : s.host = h) (hs : Native.Shows h n st) (hr : s.running = true) (ev : Event) :
    reportStop ev s = (.ok (), { s with
      running := !isCpuError ev
      out := s.out ++ reported .istep s.source ev st.pc }) := by
  unfold reportStop
  by_cases hev : ev = .singlestep
  · subst hev
    obtain ⟨ho, cl, pr, src, ru, ou, inp⟩ := s
    cases hr
    change (Except.ok (), _) = (Except.ok (), _)
    simp [reported, isCpuError]
  · rw [if_neg hev, report_eq hn hh hs hr ev]
    have : reported .continue' s.source ev st.pc = reported .istep s.source ev st.pc := by
      cases ev <;> first | rfl | exact absurd rfl hev
    rw [this]

/-- C66: after `istep`, `inext`, `step`, `next`, `finish` or `continue` the debugger reports the event and shows the place of the next
instruction. -/
theorem C66_stop (e : Env) {k : Command} {raw : Str} {n₀ : Native} {x : Native.N Event} {ev : Event} (hk : Is k raw)
    (hm : motion e s.source s.host s.client k = some x) (hb : Bare raw ∨ k = .continue') (hn : s.process = some n₀) (hr : s.running = true)
    (he : x n₀ = (.ok ev, n)) (hh : s.host = h) (hs : Native.Shows h n st) :
    typed e raw s = (.ok (), stopped k h P s n ev st.pc) := by
  by_cases hev : ev = .end'
  · subst hev
    rw [C58_end e hk hm hb hn hr he]
    unfold stopped
    simp [reported, isCpuError]
  unfold stopped
  rw [if_neg hev, show (decide (ev ≠ .end') && !isCpuError ev) = !isCpuError ev by simp [hev]]
  rw [typed_is e hk (by rintro rfl; cases hm) (by rintro rfl; cases hm) (by rintro rfl; cases hm) (by rw [hn]; rfl),
    motion_eq e hm hb hn hr he]
  have h1 := reportStop_eq (s := { s with process := some n }) rfl hh hs hr ev
  have h2 := report_eq (s := { s with process := some n }) rfl hh hs hr ev
  have hstep : ∀ {k : Command} {place : C Unit} (_ : reported .istep s.source ev st.pc = reported k s.source ev st.pc)
      (_ : ∀ t : Cli, t.process = some n → t.host = h → t.source = s.source →
        place t = (.ok (), { t with out := t.out ++ placeShown k h s.source P n st.pc })),
      caught (afterStep ev place { s with process := some n }) = (.ok (), { s with
        process := some n
        running := !isCpuError ev
        out := s.out ++ reported k s.source ev st.pc ++ placeShown k h s.source P n st.pc }) := by
    intro k place hrep hplace
    unfold afterStep
    rw [bind_eq h1, if_neg hev, hrep, hplace { s with
        process := some n
        running := !isCpuError ev
        out := s.out ++ reported k s.source ev st.pc } rfl hh rfl]
    rfl
  cases k <;> simp only [motion, reduceCtorEq] at hm
  case istep =>
    refine hstep rfl fun t h3 h4 h5 => ?_
    refine (here_eq h3 h4 hs _).trans ?_
    rw [← h5]
    exact textAround_eq hl hp hx e h3 h4 hs
  case inext =>
    refine hstep rfl fun t h3 h4 h5 => ?_
    refine (here_eq h3 h4 hs _).trans ?_
    rw [← h5]
    exact textAround_eq hl hp hx e h3 h4 hs
  case step => exact hstep rfl fun t h3 h4 h5 => h5 ▸ showLine_eq e h3 h4 hs
  case next =>
    refine hstep rfl fun t h3 h4 h5 => ?_
    rw [show placeShown .next h s.source P n st.pc = placeShown .step h s.source P n st.pc by
      unfold placeShown
      cases addrToLine s.source.lines st.pc.toNat <;> rfl]
    exact h5 ▸ showLine_eq e h3 h4 hs
  case finish =>
    refine hstep rfl fun t h3 h4 h5 => ?_
    rw [show placeShown .finish h s.source P n st.pc = placeShown .continue' h s.source P n st.pc by
      unfold placeShown
      cases addrToLine s.source.lines st.pc.toNat <;> rfl]
    exact h5 ▸ showPlace_eq hl hp hx e h3 h4 hs
  case continue' =>
    change caught ((do
      markEnd ev
      report ev
      reportBreak e ev : C Unit) { s with process := some n }) = _
    have h0 : markEnd ev { s with process := some n } = (.ok (), { s with process := some n }) := by
      unfold markEnd
      rw [if_neg hev]
      rfl
    rw [bind_eq h0, bind_eq h2]
    unfold reportBreak
    rw [if_neg hev, showPlace_eq hl hp hx e (s := { s with process := some n, running := !isCpuError ev, out := s.out ++ reported .continue' s.source ev st.pc }) rfl hh hs]
    rfl

omit hl hp hx in
/-- C66: if such a line is carried out, the program has been made to go on as the command says, and an event was reported. -/
theorem C66_done (e : Env) {k : Command} {raw : Str} {s' : Cli} {x : Native.N Event} (hk : Is k raw)
    (hm : motion e s.source s.host s.client k = some x) (hb : Bare raw ∨ k = .continue') (hn : s.process = some n) (hr : s.running = true)
    (hd : Done e raw s s') : ∃ ev n', x n = (.ok ev, n') := by
  cases hq : x n with
  | mk r n' =>
    cases r with
    | ok ev => exact ⟨ev, n', rfl⟩
    | error er =>
      exfalso
      have h1 := hd.1
      rw [typed_is e hk (by rintro rfl; cases hm) (by rintro rfl; cases hm) (by rintro rfl; cases hm) (by rw [hn]; rfl),
        motion_error e hm hb hn hr hq] at h1
      cases er with
      | debugger =>
        have h2 : s' = { s with process := some n', out := s.out ++ [.error] } := by
          have := (Prod.mk.inj h1).2
          exact this.symm
        have h3 := hd.2
        rw [h2] at h3
        simp at h3
      | _ => cases h1

omit hl hp hx in
theorem stopped_ended {k : Command} {ev : Event} {raw : Str} {s' : Cli} {e : Env} {pc : Word} (hd : Done e raw s s')
    (ht : typed e raw s = (.ok (), stopped k h P s n ev pc)) : s' = stopped k h P s n ev pc :=
  (Prod.mk.inj (hd.1.symm.trans ht)).2

end

section
variable {h : Host} {c : Client} {prog P : List Instr} {data : List Word} {inp : List (BitVec 8)} {n : Native} {s s' : Cli}
variable (hl : prog.length < 2 ^ 63) (hp : ∀ i ∈ prog, Plain h i) (hset : Setup h.cfg prog data)
  (hx : Careful h c (fun s i => s = i.print h.ftos ∧ Plain h i) prog data inp P n)
  (hn : s.process = some n) (hh : s.host = h) (hc : s.client = c) (hr : s.running = true)
include hl hp hset hx hn hh hc hr

/-- C66: `istep` executes one instruction of the program, unless it is a BKPT, and then shows the instructions around the next one, with
the breakpoints that were there before. -/
theorem C66_istep (e : Env) {raw : Str} (hk : Is .istep raw) (hb : Bare raw) (hd : Done e raw s s') :
    ∃ st st' ev n', Native.Shows h n st ∧ Native.Shows h n' st' ∧ Careful h c (fun s i => s = i.print h.ftos ∧ Plain h i) prog data inp P n' ∧
      (∀ a, armed n' a = armed n a) ∧ n'.wps = n.wps ∧ s' = stopped .istep h P s n' ev st'.pc ∧
      (instrAt P st.pc = .bkpt → ev = .breakpoint st.pc ∧ st' = st) ∧
      (instrAt P st.pc ≠ .bkpt → step h.cfg P st = .ok st' ∧ (ev = .end' ∧ st'.halted = true ∨ ev = .singlestep ∧ st'.halted = false ∨
        ∃ a, ev = .watchpoint a ∧ writeAddr st (instrAt P st.pc) = some a ∧ (n.wps.find a).isSome = true ∧ st'.halted = false)) := by
  have hm : motion e s.source s.host s.client .istep = some (Native.singleStep h c) := by rw [hh, hc]; rfl
  obtain ⟨ev, n', he⟩ := C66_done e hk hm (.inl hb) hn hr hd
  obtain ⟨st, st', h1, h2, h3, h4, h5, h6⟩ := C31_step (texts_print h) hl hp hset hx he
  have hx' : Careful h c (fun s i => s = i.print h.ftos ∧ Plain h i) prog data inp P n' :=
    .call .step hx (by
      show (Native.singleStep h c >>= fun _ => pure ()) n = _
      exact bind_eq he) rfl trivial
  exact ⟨st, st', ev, n', h1, h2, hx', h3, h4, stopped_ended hd (C66_stop hl hp hx'.session e hk hm (.inl hb) hn hr he hh h2), h5, h6⟩

/-- C66: `step` goes on to the next instruction at which a line begins, unless the program stops before, and then shows the lines around
it. -/
theorem C66_step (e : Env) {raw : Str} (hk : Is .step raw) (hb : Bare raw) {t : List (Nat × Nat)}
    (hlines : s.source.lines = some (.ofEntries t)) (hd : Done e raw s s') :
    ∃ st st' ev n', Native.Shows h n st ∧ Native.Shows h n' st' ∧ Careful h c (fun s i => s = i.print h.ftos ∧ Plain h i) prog data inp P n' ∧
      (∀ a, armed n' a = armed n a) ∧ n'.wps = n.wps ∧ s' = stopped .step h P s n' ev st'.pc ∧
      LineStep h.cfg P n.link.vm.cpu.dbg (fun x => armed n x.pc = true) n.wps (fun a => ∃ l, entryOf t l = some a.toNat) st ev st' := by
  have hm : motion e s.source s.host s.client .step = some (Src.stepIn h c s.source e.fuel) := by rw [hh, hc]; rfl
  obtain ⟨ev, n', he⟩ := C66_done e hk hm (.inl hb) hn hr hd
  obtain ⟨st, st', h1, h2, h3, h4, h5⟩ := C52_in (texts_print h) hl hp hset hx hlines he
  have hx' := C52_session (texts_print h) hl hp hx (.inl he)
  exact ⟨st, st', ev, n', h1, h2, hx', h4, h5, stopped_ended hd (C66_stop hl hp hx'.session e hk hm (.inl hb) hn hr he hh h2), h3⟩

/-- C66: `continue` goes on until the program ends or the debugger stops it, and then reports why and shows the place. If the program is
at an enabled breakpoint, the instruction there is executed first. What is missing: a breakpoint set on a BKPT of the program, see
`C31_own_bkpt`. -/
theorem C66_continue_partial (e : Env) {raw : Str} (hk : Is .continue' raw) (hd : Done e raw s s')
    (hbk : ∀ ip, getIP h n = (.ok ip, n) → armed n ip = true → instrAt P ip ≠ .bkpt) :
    ∃ st st' ev n', Native.Shows h n st ∧ Native.Shows h n' st' ∧ Careful h c (fun s i => s = i.print h.ftos ∧ Plain h i) prog data inp P n' ∧
      (∀ a, armed n' a = armed n a) ∧ n'.wps = n.wps ∧ s' = stopped .continue' h P s n' ev st'.pc ∧
      (armed n st.pc = false → Ran h.cfg P n.link.vm.cpu.dbg (fun s => armed n s.pc = true) n.wps n.link.vm.cpu.trap st ev st') ∧
      (armed n st.pc = true → ∃ t, step h.cfg P st = .ok t ∧
        ((st' = t ∧ (ev = .end' ∧ t.halted = true ∨ ∃ a, ev = .watchpoint a ∧ writeAddr st (instrAt P st.pc) = some a ∧ (n.wps.find a).isSome = true)) ∨
          Ran h.cfg P n.link.vm.cpu.dbg (fun s => armed n s.pc = true) n.wps false t ev st')) := by
  have hm : motion e s.source s.host s.client .continue' = some (do
      Native.continue' h c
      Native.waitEvent h c) := by rw [hh, hc]; rfl
  obtain ⟨ev, n', he⟩ := C66_done e hk hm (.inr rfl) hn hr hd
  obtain ⟨_, n1, h1, h2⟩ := Job.bind_ok he
  have hx' : Careful h c (fun s i => s = i.print h.ftos ∧ Plain h i) prog data inp P n' :=
    .call .go hx (by
      show (Native.continue' h c >>= fun _ => Native.waitEvent h c >>= fun _ => pure ()) n = _
      rw [bind_eq h1, bind_eq h2]
      rfl) rfl trivial
  have hs : ∃ st, Native.Shows h n st := by
    obtain ⟨hf, d, hv⟩ := careful_view (texts_print h) hl hp hset hx
    unfold Native.continue' at h1
    obtain ⟨ip, n2, h3, _⟩ := Job.bind_ok h1
    obtain ⟨_, ⟨why, hph⟩, hd, _⟩ := getIP_view hv h3
    exact ⟨_, hv.shows hph hd⟩
  obtain ⟨st, hs⟩ := hs
  have hip := getIP_shows hs
  cases ha : armed n st.pc with
  | false =>
    obtain ⟨st0, st', g1, g2, g3, g4, g5, g6⟩ := C31_continue_free (texts_print h) hl hp hset hx hip ha h1 h2
    refine ⟨st0, st', ev, n', g1, g3, hx', g4, g5, stopped_ended hd (C66_stop hl hp hx'.session e hk hm (.inr rfl) hn hr he hh g3), fun _ => g6, fun hb => ?_⟩
    rw [g2, ha] at hb
    cases hb
  | true =>
    obtain ⟨st0, t, st', g1, g2, g6, g3, g4, g5, g7⟩ := C31_continue_partial (texts_print h) hl hp hset hx hip ha (hbk _ hip ha) h1 h2
    refine ⟨st0, st', ev, n', g1, g3, hx', g4, g5, stopped_ended hd (C66_stop hl hp hx'.session e hk hm (.inr rfl) hn hr he hh g3), fun hb => ?_, fun _ => ⟨t, g6, g7⟩⟩
    rw [g2, ha] at hb
    cases hb

end

/-! ## Examples -/

/-- Instructions are shown after `istep`, lines after `step`, and the reason of the stop after `continue`. -/
example : (exBroken ["istep", "step", "breakpoint set 5", "watchpoint iset 8", "c", "c", "istep"]).out =
    [.text none false 0 "MOV R0, 3".toList, .text none true 1 "CALL 6".toList, .text none false 2 "MOV [8], R0".toList,
     .text none false 3 "MOV R1, [8]".toList,
     .print "function f at 6-9".toList, .code none false 3 "c".toList, .code none false 4 "d".toList, .code none true 5 "e".toList,
     .print "Breakpoint set on line 5 (addr 6): e".toList,
     .event "Watchpoint triggered at memory address 8".toList, .print "function g at 2-4".toList, .text none false 1 "CALL 6".toList,
     .text none false 2 "MOV [8], R0".toList, .text none true 3 "MOV R1, [8]".toList, .text none false 4 "PUTNUM R1".toList,
     .text none false 5 "HALT".toList,
     .event "The program finished execution".toList, .error] := by decide +kernel

/-- The theorems apply to the first of these lines: it is carried out, at the start of the program. -/
example : Done exEnv "istep".toList exBreak (exBroken ["istep"]) ∧ Done exEnv "step".toList exBreak (exBroken ["step"]) ∧
    Done exEnv "c".toList exBreak (exBroken ["c"]) ∧ Is .istep "istep".toList ∧ Bare "istep".toList ∧ Is .step "step".toList ∧ Bare "step".toList ∧
    Is .continue' "c".toList ∧ exBreak.running = true ∧ exBreak.process = some (Sample.started Sample.calls) ∧
    (∀ a, armed (Sample.started Sample.calls) a = false) ∧
    Careful Sample.host Sample.client (fun s i => s = i.print Sample.host.ftos ∧ Plain Sample.host i) Sample.calls [] [] Sample.calls
      (Sample.started Sample.calls) := by
  have hdone : ∀ x : String, (typed exEnv x.toList exBreak).1 = .ok () → Out.error ∉ (typed exEnv x.toList exBreak).2.out.drop exBreak.out.length →
      Done exEnv x.toList exBreak (exBroken [x]) := fun x h1 h2 => ⟨Prod.ext h1 rfl, h2⟩
  have hb : ((Native.waitEvent Sample.host Sample.client (Native.connect Sample.host Sample.calls [] [])).1 = .ok .begin) := by decide +kernel
  have hbps : (Sample.started Sample.calls).bps = [] := by decide +kernel
  refine ⟨hdone "istep" (by decide +kernel) (by decide +kernel), hdone "step" (by decide +kernel) (by decide +kernel),
    hdone "c" (by decide +kernel) (by decide +kernel), by unfold Is; decide, by unfold Bare; decide, by unfold Is; decide, by unfold Bare; decide,
    by unfold Is; decide, rfl, rfl, fun a => ?_, .begin (Prod.ext hb rfl)⟩
  unfold armed
  rw [hbps]
  rfl

end Cli
end T86
