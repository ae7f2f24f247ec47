import Verif.Props.ReturnMet
import Verif.Props.ReturnWatch
import Verif.Props.ReturnLine
import Verif.Props.ReturnWrites
import Verif.Props.ReturnMeet
import Verif.Props.ReturnOut
import Verif.Props.Over

/-! # A line that makes the program go on comes back (C73)

The converse of C66: that says what has happened when `istep`, `step`, `next`, `finish` or `continue` is carried out, and here it is. -/

set_option linter.unusedSimpArgs false
set_option linter.unusedVariables false
set_option maxRecDepth 100000

namespace T86
open Dbg Str Native Isa

namespace Cli
section
variable {h : Host} {c : Client} {prog P : List Instr} {data : List Word} {inp : List (BitVec 8)} {n : Native} {s : Cli}

/-- A line is carried out with this state of the debugger as the result, or there is undefined behaviour of the C++ code, and then `U`. -/
def Finishes (U : Prop) (e : Env) (raw : Str) (s : Cli) (Q : Cli → Prop) : Prop :=
  (∃ s', typed e raw s = (.ok (), s') ∧ Q s') ∨ (∃ s', typed e raw s = (.error .ub, s')) ∧ U

variable (hl : prog.length < 2 ^ 63) (hp : ∀ i ∈ prog, Plain h i)

include hl hp in
/-- A line of which the call comes back. -/
theorem finishes_of (e : Env) {k : Command} {raw : Str} {x : Native.N Event} {U : Prop} {Q : Event → State → Native → Prop} (hk : Is k raw)
    (hm : motion e s.source s.host s.client k = some x) (hb : Bare raw ∨ k = .continue') (hn : s.process = some n) (hr : s.running = true)
    (hh : s.host = h)
    (hx' : ∀ ev n', x n = (.ok ev, n') → Session h c (fun s i => s = i.print h.ftos ∧ Plain h i) prog data inp P n')
    (ret : Native.Returns U (x n) fun ev n' => ∃ st, Native.Shows h n' st ∧ Q ev st n') :
    Finishes U e raw s fun s' => ∃ ev st n', Native.Shows h n' st ∧ Q ev st n' ∧ s' = stopped k h P s n' ev st.pc := by
  rcases ret with ⟨ev, n', h1, st, h2, h3⟩ | ⟨⟨n', h1⟩, hu⟩
  · exact .inl ⟨_, C66_stop hl hp (hx' ev n' h1) e hk hm hb hn hr h1 hh h2, ev, st, n', h2, h3, rfl⟩
  · refine .inr ⟨⟨{ s with process := some n' }, ?_⟩, hu⟩
    rw [typed_is e hk (by rintro rfl; cases hm) (by rintro rfl; cases hm) (by rintro rfl; cases hm) (by rw [hn]; rfl),
      motion_error e hm hb hn hr h1]
    rfl

variable (hset : Setup h.cfg prog data)
  (hx : Careful h c (fun s i => s = i.print h.ftos ∧ Plain h i) prog data inp P n) (hlive : n.link.Live) (ha : Native.Able h c)
  (hn : s.process = some n) (hh : s.host = h) (hc : s.client = c) (hr : s.running = true)
include hl hp hset hx hlive ha hn hh hc hr

/-- C73: `istep` comes back. The program, stopped in the state `st`, executes one instruction (none at a BKPT of its own); what happened is reported
and the instructions around the next one are shown. -/
theorem C73_istep (e : Env) {raw : Str} (hk : Is .istep raw) (hb : Bare raw) (hw : 24 ≤ h.wait) (hkempt : Kempt n) :
    ∃ st, Native.Shows h n st ∧ (st.halted = false →
      (instrAt P st.pc = .bkpt → Finishes (StepRisk h.cfg P (armed n) st) e raw s fun s' =>
        ∃ n', Native.Shows h n' st ∧ s' = stopped .istep h P s n' (.breakpoint st.pc) st.pc) ∧
      (instrAt P st.pc ≠ .bkpt → ∀ st', step h.cfg P st = .ok st' → Finishes (StepRisk h.cfg P (armed n) st) e raw s fun s' =>
        ∃ ev n', Native.Shows h n' st' ∧ s' = stopped .istep h P s n' ev st'.pc ∧ (st'.halted = true → ev = .end') ∧
          (st'.halted = false → ev = .singlestep ∨ ∃ a, ev = .watchpoint a ∧
            writeAddr st (instrAt P st.pc) = some a ∧ (n.wps.find a).isSome = true))) := by
  have hm : motion e s.source s.host s.client .istep = some (Native.singleStep h c) := by rw [hh, hc]; rfl
  have hx' : ∀ ev n', Native.singleStep h c n = (.ok ev, n') → Session h c (fun s i => s = i.print h.ftos ∧ Plain h i) prog data inp P n' :=
    fun ev n' he => Careful.session (.call .step hx (by
      show (Native.singleStep h c >>= fun _ => pure ()) n = _
      exact Job.bind_eq he) rfl trivial)
  obtain ⟨st, h1, h2⟩ := C73_step (texts_print h) hl hp hset hx hlive ha hw hkempt
  refine ⟨st, h1, fun hh' => ⟨fun hb' => ?_, fun hb' st' hs' => ?_⟩⟩
  · have h3 := (h2 hh').1 hb'
    rcases finishes_of (P := P) hl hp e (Q := fun ev t _ => ev = .breakpoint st.pc ∧ t = st) hk hm (.inl hb) hn hr hh hx'
      (h3.imp (fun ⟨ev, n', g1, g2, g3⟩ => ⟨ev, n', g1, st, g3, g2, rfl⟩) id) with ⟨s', g1, ev, t, n', g2, ⟨rfl, rfl⟩, g4⟩ | g
    · exact .inl ⟨s', g1, n', g2, g4⟩
    · exact .inr g
  · have h3 := (h2 hh').2 hb' st' hs'
    rcases finishes_of (P := P) hl hp e (Q := fun ev t _ => t = st' ∧ (st'.halted = true → ev = .end') ∧
        (st'.halted = false → ev = .singlestep ∨ ∃ a, ev = .watchpoint a ∧ writeAddr st (instrAt P st.pc) = some a ∧ (n.wps.find a).isSome = true))
      hk hm (.inl hb) hn hr hh hx'
      (h3.imp (fun ⟨ev, n', g1, g2, g3, g4⟩ => ⟨ev, n', g1, st', g2, rfl, g3, g4⟩) id) with ⟨s', g1, ev, t, n', g2, ⟨rfl, g3, g4⟩, g5⟩ | g
    · exact .inl ⟨s', g1, ev, n', g2, g5, g3, g4⟩
    · exact .inr g

/-- C73: `continue` comes back when the program, executed one instruction after the other, comes to its end or to a breakpoint after `k` instructions
(not counting the one at a breakpoint where it is now), with nothing watched written on the way; it says so. -/
theorem C73_continue_typed (e : Env) {raw : Str} (hk : Is .continue' raw) :
    ∃ st, Native.Shows h n st ∧ ∀ ev st' K, st.halted = false → (armed n st.pc = true → instrAt P st.pc ≠ .bkpt) →
      Went h.cfg P n.link.vm.cpu.dbg (fun t => armed n t.pc = true) n.wps n.link.vm.cpu.trap st ev st' →
      (∀ s1 m t, first h.cfg P (fun t => armed n t.pc = true) st s1 →
        Clear h.cfg P n.link.vm.cpu.dbg (fun t => armed n t.pc = true) m s1 t → m ≤ K) →
      24 * (K + 1) ≤ h.wait → ((∃ a, ev = .watchpoint a) → Kempt n) →
      Finishes (RunRisk h.cfg P n.link.vm.cpu.dbg (armed n) st) e raw s fun s' =>
        ∃ n', Native.Shows h n' st' ∧ (∀ a, armed n' a = armed n a) ∧ n'.wps = n.wps ∧ s' = stopped .continue' h P s n' ev st'.pc := by
  have hm : motion e s.source s.host s.client .continue' = some (Native.continue' h c >>= fun _ => Native.waitEvent h c) := by rw [hh, hc]; rfl
  have hx' : ∀ ev n', (Native.continue' h c >>= fun _ => Native.waitEvent h c) n = (.ok ev, n') →
      Session h c (fun s i => s = i.print h.ftos ∧ Plain h i) prog data inp P n' :=
    fun ev n' he => Careful.session (.call .go hx (by
      obtain ⟨u, n1, he1, he2⟩ := Job.bind_ok he
      show (Native.continue' h c >>= fun _ => Native.waitEvent h c >>= fun _ => pure ()) n = _
      exact (Job.bind_eq he1).trans (Job.bind_eq he2)) rfl trivial)
  obtain ⟨st, h1, h2⟩ := C73_continue (texts_print h) hl hp hset hx hlive ha
  refine ⟨st, h1, fun ev st' K a1 a2 a3 a4 a5 a6 => ?_⟩
  have h3 := h2 ev st' K a1 a2 a3 a4 a5 a6
  rcases finishes_of (P := P) hl hp e (Q := fun ev' t n' => ev' = ev ∧ t = st' ∧ (∀ a, armed n' a = armed n a) ∧ n'.wps = n.wps) hk hm (.inr rfl) hn hr hh hx'
    (h3.imp (fun ⟨ev', n', g1, g2, g3, g4⟩ => ⟨ev', n', g1, st', g3, g2, rfl, g4⟩) id) with ⟨s', g1, ev', t, n', g2, ⟨rfl, rfl, g3, g4⟩, g5⟩ | g
  · exact .inl ⟨s', g1, n', g2, g3, g4, g5⟩
  · exact .inr g

/-- C73: `finish` comes back when the current function returns. -/
theorem C73_finish (e : Env) {raw : Str} (hk : Is .finish raw) (hb : Bare raw) (hall : ∀ a bp, n.bps.find a = some bp → bp.enabled = true) :
    ∃ st, Native.Shows h n st ∧ ∀ (st' : State) (k m : Nat),
      OutIn h.cfg P n.link.vm.cpu.dbg (fun a => armed n a = true) k m st st' → k + 1 ≤ e.fuel → m ≤ e.fuel → 24 * (k + 2) ≤ h.wait →
      Finishes (UbPossible h.cfg P) e raw s fun s' =>
        ∃ n', Native.Shows h n' st' ∧ (∀ a, armed n' a = armed n a) ∧ n'.wps = n.wps ∧ s' = stopped .finish h P s n' .singlestep st'.pc := by
  have hm : motion e s.source s.host s.client .finish = some (Native.stepOut h c e.fuel) := by rw [hh, hc]; rfl
  have hx' : ∀ ev n', Native.stepOut h c e.fuel n = (.ok ev, n') → Session h c (fun s i => s = i.print h.ftos ∧ Plain h i) prog data inp P n' :=
    fun ev n' he => Careful.session (.call (.out e.fuel) hx (by
      show (Native.stepOut h c e.fuel >>= fun _ => pure ()) n = _
      exact Job.bind_eq he) rfl trivial)
  obtain ⟨st, h1, h2⟩ := C73_out hl hp hset hx hlive ha hall
  refine ⟨st, h1, fun st' k m a1 a2 a3 a4 => ?_⟩
  have h3 := h2 st' k m e.fuel a1 a2 a3 a4
  rcases finishes_of (P := P) hl hp e (Q := fun ev' t n' => ev' = .singlestep ∧ t = st' ∧ (∀ a, armed n' a = armed n a) ∧ n'.wps = n.wps) hk hm (.inl hb) hn hr hh hx'
    (h3.imp (fun ⟨ev', n', g1, g2, g3, g4⟩ => ⟨ev', n', g1, st', g3, g2, rfl, g4⟩) id) with ⟨s', g1, ev', t, n', g2, ⟨rfl, rfl, g3, g4⟩, g5⟩ | g
  · exact .inl ⟨s', g1, n', g2, g3, g4, g5⟩
  · exact .inr g

/-- C73: `next` comes back when the program comes to a line. -/
theorem C73_next (e : Env) {raw : Str} (hk : Is .next raw) (hb : Bare raw) {t : List (Nat × Nat)} (hlines : s.source.lines = some (.ofEntries t))
    (hall : ∀ a bp, n.bps.find a = some bp → bp.enabled = true) :
    ∃ st, Native.Shows h n st ∧ ∀ (st' : State) (k m : Nat),
      LineIn h.cfg P n.link.vm.cpu.dbg (fun a => armed n a = true) (fun a => ∃ l, entryOf t l = some a.toNat) k m st st' →
      k + 1 ≤ e.fuel → m ≤ e.fuel → 24 * (k + 2) ≤ h.wait →
      Finishes (UbPossible h.cfg P) e raw s fun s' =>
        ∃ n', Native.Shows h n' st' ∧ (∀ a, armed n' a = armed n a) ∧ n'.wps = n.wps ∧ s' = stopped .next h P s n' .singlestep st'.pc := by
  have hm : motion e s.source s.host s.client .next = some (Src.stepOver h c s.source e.fuel) := by rw [hh, hc]; rfl
  have hx' : ∀ ev n', Src.stepOver h c s.source e.fuel n = (.ok ev, n') → Session h c (fun s i => s = i.print h.ftos ∧ Plain h i) prog data inp P n' :=
    fun ev n' he => (C52_session (texts_print h) hl hp hx (.inr he)).session
  obtain ⟨st, h1, h2⟩ := C73_line_over hl hp hset hx hlive ha hlines hall
  refine ⟨st, h1, fun st' k m a1 a2 a3 a4 => ?_⟩
  have h3 := h2 st' k m e.fuel a1 a2 a3 a4
  rcases finishes_of (P := P) hl hp e (Q := fun ev' t n' => ev' = .singlestep ∧ t = st' ∧ (∀ a, armed n' a = armed n a) ∧ n'.wps = n.wps) hk hm (.inl hb) hn hr hh hx'
    (h3.imp (fun ⟨ev', n', g1, g2, g3, g4⟩ => ⟨ev', n', g1, st', g3, g2, rfl, g4⟩) id) with ⟨s', g1, ev', t, n', g2, ⟨rfl, rfl, g3, g4⟩, g5⟩ | g
  · exact .inl ⟨s', g1, n', g2, g3, g4, g5⟩
  · exact .inr g

/-- C73: `step` comes back when the program comes to a line. -/
theorem C73_step_typed (e : Env) {raw : Str} (hk : Is .step raw) (hb : Bare raw) {t : List (Nat × Nat)} (hlines : s.source.lines = some (.ofEntries t)) :
    ∃ st, Native.Shows h n st ∧ ∀ (t1 st' : State) (k : Nat), Clear h.cfg P n.link.vm.cpu.dbg (fun _ => False) 1 st t1 →
      Clear h.cfg P n.link.vm.cpu.dbg (fun x => armed n x.pc = true ∨ ∃ l, entryOf t l = some x.pc.toNat) k t1 st' →
      (∃ l, entryOf t l = some st'.pc.toNat) → st'.halted = false → k + 1 ≤ e.fuel → 24 ≤ h.wait →
      Finishes (UbPossible h.cfg P) e raw s fun s' =>
        ∃ n', Native.Shows h n' st' ∧ (∀ a, armed n' a = armed n a) ∧ n'.wps = n.wps ∧ s' = stopped .step h P s n' .singlestep st'.pc := by
  have hm : motion e s.source s.host s.client .step = some (Src.stepIn h c s.source e.fuel) := by rw [hh, hc]; rfl
  have hx' : ∀ ev n', Src.stepIn h c s.source e.fuel n = (.ok ev, n') → Session h c (fun s i => s = i.print h.ftos ∧ Plain h i) prog data inp P n' :=
    fun ev n' he => (C52_session (texts_print h) hl hp hx (.inl he)).session
  obtain ⟨st, h1, h2⟩ := C73_line_in (texts_print h) hl hp hset hx hlive ha hlines
  refine ⟨st, h1, fun t1 st' k a1 a2 a3 a4 a5 a6 => ?_⟩
  have h3 := h2 t1 st' k e.fuel a1 a2 a3 a4 a5 a6
  rcases finishes_of (P := P) hl hp e (Q := fun ev' t n' => ev' = .singlestep ∧ t = st' ∧ (∀ a, armed n' a = armed n a) ∧ n'.wps = n.wps) hk hm (.inl hb) hn hr hh hx'
    (h3.imp (fun ⟨ev', n', g1, g2, g3, g4⟩ => ⟨ev', n', g1, st', g3, g2, rfl, g4⟩) id) with ⟨s', g1, ev', t, n', g2, ⟨rfl, rfl, g3, g4⟩, g5⟩ | g
  · exact .inl ⟨s', g1, n', g2, g3, g4, g5⟩
  · exact .inr g

/-- C73: `inext` at a call comes back when the callee returns. -/
theorem C73_inext (e : Env) {raw : Str} (hk : Is .inext raw) (hb : Bare raw) {ip : Word} (hip : getIP h n = (.ok ip, n)) {o : Operand}
    (hcall : instrAt P ip = .call o) (hlen : (ip + 1).toNat < P.length) (hen : ∀ bp, n.bps.find (ip + 1) = some bp → bp.enabled = true) :
    ∃ st, Native.Shows h n st ∧ st.pc = ip ∧ ∀ (s1 s2 : State) (k : Nat), st.halted = false → step h.cfg P st = .ok s1 →
      stopCode n.link.vm.cpu.dbg st (.call o) = 0 → s1.pc ≠ ip + 1 → armed n s1.pc = false →
      Clear h.cfg P n.link.vm.cpu.dbg (fun t => armed n t.pc = true ∧ t.pc ≠ ip + 1 ∨ t.pc = ip + 1 ∧ t.reg (.int .bp) = s1.reg (.int .bp)) k s1 s2 →
      s2.pc = ip + 1 → s2.reg (.int .bp) = s1.reg (.int .bp) → s2.halted = false → k ≤ e.fuel → 24 * (k + 1) ≤ h.wait →
      Finishes (UbPossible h.cfg P) e raw s fun s' =>
        ∃ n', Native.Shows h n' s2 ∧ (∀ a, armed n' a = armed n a) ∧ n'.wps = n.wps ∧ s' = stopped .inext h P s n' .singlestep s2.pc := by
  have hm : motion e s.source s.host s.client .inext = some (Native.stepOver h c e.fuel true) := by rw [hh, hc]; rfl
  have hx' : ∀ ev n', Native.stepOver h c e.fuel true n = (.ok ev, n') → Session h c (fun s i => s = i.print h.ftos ∧ Plain h i) prog data inp P n' :=
    fun ev n' he => Careful.session (.call (.over e.fuel true) hx (by
      show (Native.stepOver h c e.fuel true >>= fun _ => pure ()) n = _
      exact Job.bind_eq he) rfl trivial)
  obtain ⟨st, h1, h0, h2⟩ := C73_over hl hp hset hx hlive ha hip hcall hlen
  refine ⟨st, h1, h0, fun s1 s2 k a1 a2 a3 a4 a5 a6 a7 a8 a9 a10 a11 => ?_⟩
  have h3 := h2 s1 s2 k e.fuel a1 a2 a3 a4 a5 a6 a7 a8 a9 hen a10 a11
  rcases finishes_of (P := P) hl hp e (Q := fun ev' t n' => ev' = .singlestep ∧ t = s2 ∧ (∀ a, armed n' a = armed n a) ∧ n'.wps = n.wps) hk hm (.inl hb) hn hr hh hx'
    (h3.imp (fun ⟨ev', n', g1, g2, g3, g4⟩ => ⟨ev', n', g1, s2, g3, g2, rfl, g4⟩) id) with ⟨s', g1, ev', t, n', g2, ⟨rfl, rfl, g3, g4⟩, g5⟩ | g
  · exact .inl ⟨s', g1, n', g2, g3, g4, g5⟩
  · exact .inr g

/-- C73: `inext` at a call comes back whatever the callee comes to, and says what it is (see `C73_over_met`). -/
theorem C73_inext_met (e : Env) {raw : Str} (hk : Is .inext raw) (hb : Bare raw) {ip : Word} (hip : getIP h n = (.ok ip, n)) {o : Operand}
    (hcall : instrAt P ip = .call o) (hlen : (ip + 1).toNat < P.length) (hen : ∀ bp, n.bps.find (ip + 1) = some bp → bp.enabled = true)
    (hnb : ∀ a, armed n a = true → instrAt P a ≠ .bkpt) (hnr : instrAt P (ip + 1) ≠ .bkpt) :
    ∃ st, Native.Shows h n st ∧ st.pc = ip ∧ ∀ (s1 u : State) (k : Nat), st.halted = false → step h.cfg P st = .ok s1 →
      stopCode n.link.vm.cpu.dbg st (.call o) = 0 → s1.halted = false → s1.pc ≠ ip + 1 → armed n s1.pc = false →
      Clear h.cfg P n.link.vm.cpu.dbg (fun t => armed n t.pc = true ∧ t.pc ≠ ip + 1 ∨ t.pc = ip + 1 ∧ t.reg (.int .bp) = s1.reg (.int .bp)) k s1 u →
      (u.halted = true ∨ (armed n u.pc = true ∧ u.pc ≠ ip + 1 ∨ u.pc = ip + 1 ∧ u.reg (.int .bp) = s1.reg (.int .bp)) ∨ instrAt P u.pc = .bkpt) →
      k < e.fuel → 24 * (k + 1) ≤ h.wait →
      Finishes (UbPossible h.cfg P) e raw s fun s' =>
        ∃ n', Native.Shows h n' u ∧ (∀ a, armed n' a = armed n a) ∧ n'.wps = n.wps ∧
          s' = stopped .inext h P s n' (if u.pc = ip + 1 then .singlestep else if u.halted = true then .end' else .breakpoint u.pc) u.pc := by
  have hm : motion e s.source s.host s.client .inext = some (Native.stepOver h c e.fuel true) := by rw [hh, hc]; rfl
  have hx' : ∀ ev n', Native.stepOver h c e.fuel true n = (.ok ev, n') → Session h c (fun s i => s = i.print h.ftos ∧ Plain h i) prog data inp P n' :=
    fun ev n' he => Careful.session (.call (.over e.fuel true) hx (by
      show (Native.stepOver h c e.fuel true >>= fun _ => pure ()) n = _
      exact Job.bind_eq he) rfl trivial)
  obtain ⟨st, h1, h0, h2⟩ := C73_over_met hl hp hset hx hlive ha hip hcall hlen
  refine ⟨st, h1, h0, fun s1 u k a1 a2 a3 a4 a5 a6 a7 a8 a10 a11 => ?_⟩
  have h3 := h2 s1 u k e.fuel a1 a2 a3 a4 a5 a6 a7 a8 hnb hnr hen a10 a11
  rcases finishes_of (P := P) hl hp e (Q := fun ev' t n' => ev' = (if u.pc = ip + 1 then .singlestep else if u.halted = true then .end' else .breakpoint u.pc) ∧
      t = u ∧ (∀ a, armed n' a = armed n a) ∧ n'.wps = n.wps) hk hm (.inl hb) hn hr hh hx'
    (h3.imp (fun ⟨ev', n', g1, g2, g3, g4⟩ => ⟨ev', n', g1, u, g3, g2, rfl, g4⟩) id) with ⟨s', g1, ev', t, n', g2, ⟨rfl, rfl, g3, g4⟩, g5⟩ | g
  · exact .inl ⟨s', g1, n', g2, g3, g4, g5⟩
  · exact .inr g

/-- C73: `inext` at a call comes back when the callee writes to a watched address, and says so (see `C73_over_watch`). -/
theorem C73_inext_watch (e : Env) {raw : Str} (hk : Is .inext raw) (hb : Bare raw) (hkempt : Kempt n) {ip : Word} (hip : getIP h n = (.ok ip, n))
    {o : Operand} (hcall : instrAt P ip = .call o) (hlen : (ip + 1).toNat < P.length) (hen : ∀ bp, n.bps.find (ip + 1) = some bp → bp.enabled = true)
    (hnb : ∀ a, armed n a = true → instrAt P a ≠ .bkpt) (hnr : instrAt P (ip + 1) ≠ .bkpt) :
    ∃ st, Native.Shows h n st ∧ st.pc = ip ∧ ∀ (s1 u v : State) (a : Word) (k : Nat), st.halted = false → step h.cfg P st = .ok s1 →
      stopCode n.link.vm.cpu.dbg st (.call o) = 0 → s1.halted = false → s1.pc ≠ ip + 1 → armed n s1.pc = false →
      Clear h.cfg P n.link.vm.cpu.dbg (fun t => armed n t.pc = true ∧ t.pc ≠ ip + 1 ∨ t.pc = ip + 1 ∧ t.reg (.int .bp) = s1.reg (.int .bp)) k s1 u →
      u.halted = false → armed n u.pc = false → u.pc ≠ ip + 1 → writeAddr u (instrAt P u.pc) = some a → (n.wps.find a).isSome = true →
      step h.cfg P u = .ok v → v.halted = false → k < e.fuel → 24 * (k + 1) ≤ h.wait →
      Finishes (UbPossible h.cfg P) e raw s fun s' =>
        ∃ n', Native.Shows h n' v ∧ (∀ a, armed n' a = armed n a) ∧ n'.wps = n.wps ∧
          s' = stopped .inext h P s n' (if v.pc = ip + 1 then .singlestep else .watchpoint a) v.pc := by
  have hm : motion e s.source s.host s.client .inext = some (Native.stepOver h c e.fuel true) := by rw [hh, hc]; rfl
  have hx' : ∀ ev n', Native.stepOver h c e.fuel true n = (.ok ev, n') → Session h c (fun s i => s = i.print h.ftos ∧ Plain h i) prog data inp P n' :=
    fun ev n' he => Careful.session (.call (.over e.fuel true) hx (by
      show (Native.stepOver h c e.fuel true >>= fun _ => pure ()) n = _
      exact Job.bind_eq he) rfl trivial)
  obtain ⟨st, h1, h0, h2⟩ := C73_over_watch hl hp hset hx hlive ha hkempt hip hcall hlen
  refine ⟨st, h1, h0, fun s1 u v a k a1 a2 a3 a4 a5 a6 a7 b1 b2 b3 b4 b5 b6 b7 a10 a11 => ?_⟩
  have h3 := h2 s1 u v a k e.fuel a1 a2 a3 a4 a5 a6 a7 b1 b2 b3 b4 b5 b6 b7 hnb hnr hen a10 a11
  rcases finishes_of (P := P) hl hp e (Q := fun ev' t n' => ev' = (if v.pc = ip + 1 then .singlestep else .watchpoint a) ∧
      t = v ∧ (∀ a, armed n' a = armed n a) ∧ n'.wps = n.wps) hk hm (.inl hb) hn hr hh hx'
    (h3.imp (fun ⟨ev', n', g1, g2, g3, g4⟩ => ⟨ev', n', g1, v, g3, g2, rfl, g4⟩) id) with ⟨s', g1, ev', t, n', g2, ⟨rfl, rfl, g3, g4⟩, g5⟩ | g
  · exact .inl ⟨s', g1, n', g2, g3, g4, g5⟩
  · exact .inr g

/-- C73: `finish` comes back when the program comes to something else before the current function returns, and says what it is (see `C73_out_met`). -/
theorem C73_finish_met (e : Env) {raw : Str} (hk : Is .finish raw) (hb : Bare raw) (hall : ∀ a bp, n.bps.find a = some bp → bp.enabled = true)
    (hnb : ∀ a, armed n a = true → instrAt P a ≠ .bkpt) :
    ∃ st, Native.Shows h n st ∧ ∀ (u : State) (k m : Nat),
      OutMet h.cfg P n.link.vm.cpu.dbg (fun a => armed n a = true) k m st u → k + 2 ≤ e.fuel → m ≤ e.fuel → 24 * (k + 2) ≤ h.wait →
      Finishes (UbPossible h.cfg P) e raw s fun s' =>
        ∃ n', Native.Shows h n' u ∧ (∀ a, armed n' a = armed n a) ∧ n'.wps = n.wps ∧ s' = stopped .finish h P s n' (if u.halted = true then .end' else .breakpoint u.pc) u.pc := by
  have hm : motion e s.source s.host s.client .finish = some (Native.stepOut h c e.fuel) := by rw [hh, hc]; rfl
  have hx' : ∀ ev n', Native.stepOut h c e.fuel n = (.ok ev, n') → Session h c (fun s i => s = i.print h.ftos ∧ Plain h i) prog data inp P n' :=
    fun ev n' he => Careful.session (.call (.out e.fuel) hx (by
      show (Native.stepOut h c e.fuel >>= fun _ => pure ()) n = _
      exact Job.bind_eq he) rfl trivial)
  obtain ⟨st, h1, h2⟩ := C73_out_met hl hp hset hx hlive ha hall hnb
  refine ⟨st, h1, fun u k m a1 a2 a3 a4 => ?_⟩
  have h3 := h2 u k m e.fuel a1 a2 a3 a4
  rcases finishes_of (P := P) hl hp e (Q := fun ev' t n' => ev' = (if u.halted = true then .end' else .breakpoint u.pc) ∧ t = u ∧ (∀ a, armed n' a = armed n a) ∧ n'.wps = n.wps) hk hm (.inl hb) hn hr hh hx'
    (h3.imp (fun ⟨ev', n', g1, g2, g3, g4⟩ => ⟨ev', n', g1, u, g3, g2, rfl, g4⟩) id) with ⟨s', g1, ev', t, n', g2, ⟨rfl, rfl, g3, g4⟩, g5⟩ | g
  · exact .inl ⟨s', g1, n', g2, g3, g4, g5⟩
  · exact .inr g

/-- C73: `next` comes back when the program comes to something else before the next line begins, and says what it is (see `C73_line_met`). -/
theorem C73_next_met (e : Env) {raw : Str} (hk : Is .next raw) (hb : Bare raw) {t : List (Nat × Nat)} (hlines : s.source.lines = some (.ofEntries t))
    (hall : ∀ a bp, n.bps.find a = some bp → bp.enabled = true)
    (hnb : ∀ a, armed n a = true → instrAt P a ≠ .bkpt) :
    ∃ st, Native.Shows h n st ∧ ∀ (u : State) (k m : Nat),
      LineMet h.cfg P n.link.vm.cpu.dbg (fun a => armed n a = true) (fun a => ∃ l, entryOf t l = some a.toNat) k m st u →
      k + 2 ≤ e.fuel → m ≤ e.fuel → 24 * (k + 2) ≤ h.wait →
      Finishes (UbPossible h.cfg P) e raw s fun s' =>
        ∃ n', Native.Shows h n' u ∧ (∀ a, armed n' a = armed n a) ∧ n'.wps = n.wps ∧ s' = stopped .next h P s n' (if u.halted = true then .end' else .breakpoint u.pc) u.pc := by
  have hm : motion e s.source s.host s.client .next = some (Src.stepOver h c s.source e.fuel) := by rw [hh, hc]; rfl
  have hx' : ∀ ev n', Src.stepOver h c s.source e.fuel n = (.ok ev, n') → Session h c (fun s i => s = i.print h.ftos ∧ Plain h i) prog data inp P n' :=
    fun ev n' he => (C52_session (texts_print h) hl hp hx (.inr he)).session
  obtain ⟨st, h1, h2⟩ := C73_line_met hl hp hset hx hlive ha hlines hall hnb
  refine ⟨st, h1, fun u k m a1 a2 a3 a4 => ?_⟩
  have h3 := h2 u k m e.fuel a1 a2 a3 a4
  rcases finishes_of (P := P) hl hp e (Q := fun ev' t n' => ev' = (if u.halted = true then .end' else .breakpoint u.pc) ∧ t = u ∧ (∀ a, armed n' a = armed n a) ∧ n'.wps = n.wps) hk hm (.inl hb) hn hr hh hx'
    (h3.imp (fun ⟨ev', n', g1, g2, g3, g4⟩ => ⟨ev', n', g1, u, g3, g2, rfl, g4⟩) id) with ⟨s', g1, ev', t, n', g2, ⟨rfl, rfl, g3, g4⟩, g5⟩ | g
  · exact .inl ⟨s', g1, n', g2, g3, g4, g5⟩
  · exact .inr g

/-- C73: `step` comes back when the program comes to something else before the next line begins, and says what it is (see `C73_line_in_met`). -/
theorem C73_step_typed_met (e : Env) {raw : Str} (hk : Is .step raw) (hb : Bare raw) {t : List (Nat × Nat)} (hlines : s.source.lines = some (.ofEntries t)) :
    ∃ st, Native.Shows h n st ∧ ∀ (t1 u : State) (k : Nat), Clear h.cfg P n.link.vm.cpu.dbg (fun _ => False) 1 st t1 →
      Clear h.cfg P n.link.vm.cpu.dbg (fun x => armed n x.pc = true ∨ ∃ l, entryOf t l = some x.pc.toNat) k t1 u →
      (u.halted = true ∨ (¬ ∃ l, entryOf t l = some u.pc.toNat) ∧ (armed n u.pc = true ∨ instrAt P u.pc = .bkpt)) → k + 2 ≤ e.fuel → 24 ≤ h.wait →
      Finishes (UbPossible h.cfg P) e raw s fun s' =>
        ∃ n', Native.Shows h n' u ∧ (∀ a, armed n' a = armed n a) ∧ n'.wps = n.wps ∧ s' = stopped .step h P s n' (if u.halted = true then .end' else .breakpoint u.pc) u.pc := by
  have hm : motion e s.source s.host s.client .step = some (Src.stepIn h c s.source e.fuel) := by rw [hh, hc]; rfl
  have hx' : ∀ ev n', Src.stepIn h c s.source e.fuel n = (.ok ev, n') → Session h c (fun s i => s = i.print h.ftos ∧ Plain h i) prog data inp P n' :=
    fun ev n' he => (C52_session (texts_print h) hl hp hx (.inl he)).session
  obtain ⟨st, h1, h2⟩ := C73_line_in_met (texts_print h) hl hp hset hx hlive ha hlines
  refine ⟨st, h1, fun t1 u k a1 a2 a3 a4 a5 => ?_⟩
  have h3 := h2 t1 u k e.fuel a1 a2 a3 a4 a5
  rcases finishes_of (P := P) hl hp e (Q := fun ev' t n' => ev' = (if u.halted = true then .end' else .breakpoint u.pc) ∧ t = u ∧ (∀ a, armed n' a = armed n a) ∧ n'.wps = n.wps) hk hm (.inl hb) hn hr hh hx'
    (h3.imp (fun ⟨ev', n', g1, g2, g3, g4⟩ => ⟨ev', n', g1, u, g3, g2, rfl, g4⟩) id) with ⟨s', g1, ev', t, n', g2, ⟨rfl, rfl, g3, g4⟩, g5⟩ | g
  · exact .inl ⟨s', g1, n', g2, g3, g4, g5⟩
  · exact .inr g

/-- C73: `step` comes back when the program writes to a watched address before the next line begins, and says so (see `C73_line_in_watch`). -/
theorem C73_step_typed_watch (e : Env) {raw : Str} (hk : Is .step raw) (hb : Bare raw) (hkempt : Kempt n) {t : List (Nat × Nat)}
    (hlines : s.source.lines = some (.ofEntries t)) :
    ∃ st, Native.Shows h n st ∧ ∀ (t1 u v : State) (a : Word) (k : Nat), Clear h.cfg P n.link.vm.cpu.dbg (fun _ => False) 1 st t1 →
      Clear h.cfg P n.link.vm.cpu.dbg (fun x => armed n x.pc = true ∨ ∃ l, entryOf t l = some x.pc.toNat) k t1 u →
      u.halted = false → (¬ ∃ l, entryOf t l = some u.pc.toNat) → armed n u.pc = false → writeAddr u (instrAt P u.pc) = some a →
      (n.wps.find a).isSome = true → step h.cfg P u = .ok v → v.halted = false → k + 2 ≤ e.fuel → 24 ≤ h.wait →
      Finishes (UbPossible h.cfg P) e raw s fun s' =>
        ∃ n', Native.Shows h n' v ∧ (∀ a, armed n' a = armed n a) ∧ n'.wps = n.wps ∧ s' = stopped .step h P s n' (.watchpoint a) v.pc := by
  have hm : motion e s.source s.host s.client .step = some (Src.stepIn h c s.source e.fuel) := by rw [hh, hc]; rfl
  have hx' : ∀ ev n', Src.stepIn h c s.source e.fuel n = (.ok ev, n') → Session h c (fun s i => s = i.print h.ftos ∧ Plain h i) prog data inp P n' :=
    fun ev n' he => (C52_session (texts_print h) hl hp hx (.inl he)).session
  obtain ⟨st, h1, h2⟩ := C73_line_in_watch (texts_print h) hl hp hset hx hlive ha hkempt hlines
  refine ⟨st, h1, fun t1 u v a k a1 a2 b1 b2 b3 b4 b5 b6 b7 a4 a5 => ?_⟩
  have h3 := h2 t1 u v a k e.fuel a1 a2 b1 b2 b3 b4 b5 b6 b7 a4 a5
  rcases finishes_of (P := P) hl hp e (Q := fun ev' t n' => ev' = .watchpoint a ∧ t = v ∧ (∀ a, armed n' a = armed n a) ∧ n'.wps = n.wps) hk hm (.inl hb) hn hr hh hx'
    (h3.imp (fun ⟨ev', n', g1, g2, g3, g4⟩ => ⟨ev', n', g1, v, g3, g2, rfl, g4⟩) id) with ⟨s', g1, ev', t, n', g2, ⟨rfl, rfl, g3, g4⟩, g5⟩ | g
  · exact .inl ⟨s', g1, n', g2, g3, g4, g5⟩
  · exact .inr g

/-- C73: `finish` comes back when the program writes to a watched address before the current function returns, and says so (see `C73_out_watch`). -/
theorem C73_finish_watch (e : Env) {raw : Str} (hk : Is .finish raw) (hb : Bare raw) (hkempt : Kempt n) (hall : ∀ a bp, n.bps.find a = some bp → bp.enabled = true)
    (hnb : ∀ a, armed n a = true → instrAt P a ≠ .bkpt) :
    ∃ st, Native.Shows h n st ∧ ∀ (v : State) (a : Word) (k m : Nat), (n.wps.find a).isSome = true →
      OutWrites h.cfg P n.link.vm.cpu.dbg (fun a => armed n a = true) k a v m st → k + 2 ≤ e.fuel → m ≤ e.fuel → 24 * (k + 2) ≤ h.wait →
      Finishes (UbPossible h.cfg P) e raw s fun s' =>
        ∃ n', Native.Shows h n' v ∧ (∀ a, armed n' a = armed n a) ∧ n'.wps = n.wps ∧ s' = stopped .finish h P s n' (.watchpoint a) v.pc := by
  have hm : motion e s.source s.host s.client .finish = some (Native.stepOut h c e.fuel) := by rw [hh, hc]; rfl
  have hx' : ∀ ev n', Native.stepOut h c e.fuel n = (.ok ev, n') → Session h c (fun s i => s = i.print h.ftos ∧ Plain h i) prog data inp P n' :=
    fun ev n' he => Careful.session (.call (.out e.fuel) hx (by
      show (Native.stepOut h c e.fuel >>= fun _ => pure ()) n = _
      exact Job.bind_eq he) rfl trivial)
  obtain ⟨st, h1, h2⟩ := C73_out_watch hl hp hset hx hlive ha hkempt hall hnb
  refine ⟨st, h1, fun v a k m a0 a1 a2 a3 a4 => ?_⟩
  have h3 := h2 v a k m e.fuel a0 a1 a2 a3 a4
  rcases finishes_of (P := P) hl hp e (Q := fun ev' t n' => ev' = .watchpoint a ∧ t = v ∧ (∀ a, armed n' a = armed n a) ∧ n'.wps = n.wps) hk hm (.inl hb) hn hr hh hx'
    (h3.imp (fun ⟨ev', n', g1, g2, g3, g4⟩ => ⟨ev', n', g1, v, g3, g2, rfl, g4⟩) id) with ⟨s', g1, ev', t, n', g2, ⟨rfl, rfl, g3, g4⟩, g5⟩ | g
  · exact .inl ⟨s', g1, n', g2, g3, g4, g5⟩
  · exact .inr g

/-- C73: `next` comes back when the program writes to a watched address before the next line begins, and says so (see `C73_line_watch`). -/
theorem C73_next_watch (e : Env) {raw : Str} (hk : Is .next raw) (hb : Bare raw) (hkempt : Kempt n) {t : List (Nat × Nat)} (hlines : s.source.lines = some (.ofEntries t))
    (hall : ∀ a bp, n.bps.find a = some bp → bp.enabled = true)
    (hnb : ∀ a, armed n a = true → instrAt P a ≠ .bkpt) :
    ∃ st, Native.Shows h n st ∧ ∀ (v : State) (a : Word) (k m : Nat), (n.wps.find a).isSome = true →
      LineWrites h.cfg P n.link.vm.cpu.dbg (fun a => armed n a = true) (fun a => ∃ l, entryOf t l = some a.toNat) k a v m st →
      k + 2 ≤ e.fuel → m ≤ e.fuel → 24 * (k + 2) ≤ h.wait →
      Finishes (UbPossible h.cfg P) e raw s fun s' =>
        ∃ n', Native.Shows h n' v ∧ (∀ a, armed n' a = armed n a) ∧ n'.wps = n.wps ∧ s' = stopped .next h P s n' (.watchpoint a) v.pc := by
  have hm : motion e s.source s.host s.client .next = some (Src.stepOver h c s.source e.fuel) := by rw [hh, hc]; rfl
  have hx' : ∀ ev n', Src.stepOver h c s.source e.fuel n = (.ok ev, n') → Session h c (fun s i => s = i.print h.ftos ∧ Plain h i) prog data inp P n' :=
    fun ev n' he => (C52_session (texts_print h) hl hp hx (.inr he)).session
  obtain ⟨st, h1, h2⟩ := C73_line_watch hl hp hset hx hlive ha hkempt hlines hall hnb
  refine ⟨st, h1, fun v a k m a0 a1 a2 a3 a4 => ?_⟩
  have h3 := h2 v a k m e.fuel a0 a1 a2 a3 a4
  rcases finishes_of (P := P) hl hp e (Q := fun ev' t n' => ev' = .watchpoint a ∧ t = v ∧ (∀ a, armed n' a = armed n a) ∧ n'.wps = n.wps) hk hm (.inl hb) hn hr hh hx'
    (h3.imp (fun ⟨ev', n', g1, g2, g3, g4⟩ => ⟨ev', n', g1, v, g3, g2, rfl, g4⟩) id) with ⟨s', g1, ev', t, n', g2, ⟨rfl, rfl, g3, g4⟩, g5⟩ | g
  · exact .inl ⟨s', g1, n', g2, g3, g4, g5⟩
  · exact .inr g

end

/-- Non-vacuity: the sample debugger at the start of its program meets what the theorems ask for, and so `istep` comes back. -/
example : ∃ st, Native.Shows Sample.host (Sample.started Sample.calls) st ∧ (st.halted = false → instrAt Sample.calls st.pc ≠ .bkpt →
    ∀ st', step Sample.cfg Sample.calls st = .ok st' → Finishes (StepRisk Sample.cfg Sample.calls (armed (Sample.started Sample.calls)) st) exEnv "istep".toList exBreak
      fun s' => ∃ ev n', Native.Shows Sample.host n' st' ∧ s' = stopped .istep Sample.host Sample.calls exBreak n' ev st'.pc ∧ (st'.halted = true → ev = .end') ∧
        (st'.halted = false → ev = .singlestep ∨ ∃ a, ev = .watchpoint a ∧ writeAddr st (instrAt Sample.calls st.pc) = some a ∧
          ((Sample.started Sample.calls).wps.find a).isSome = true)) := by
  have hd : (Sample.started Sample.calls).link.vm.cpu.dbg = [0, 0, 0, 0, 0] := by decide +kernel
  obtain ⟨st, h1, h2⟩ := C73_istep (h := Sample.host) (c := Sample.client) (prog := Sample.calls) (P := Sample.calls) (data := []) (inp := []) (s := exBreak)
    (by decide) Sample.calls_plain Sample.calls_setup (Sample.starts (by decide +kernel))
    ⟨by decide +kernel, by decide +kernel, by decide +kernel, ⟨.begin, by decide +kernel⟩⟩ ⟨by decide, by decide, by decide, by decide, by decide⟩
    rfl rfl rfl rfl exEnv (raw := "istep".toList) (by unfold Is; decide) (by unfold Bare; decide) (by decide) (by unfold Kempt; rw [hd]; decide)
  exact ⟨st, h1, fun a b st' c => (h2 a).2 b st' c⟩

end Cli
end T86
