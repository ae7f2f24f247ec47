import Verif.Props.CliShow

/-! # C64: starting the program, and starting it again -/

set_option linter.unusedSimpArgs false
set_option maxRecDepth 100000

namespace T86
open Dbg Str Native Job

/-- At the beginning, the first event is the start of the program, and nothing has been executed. -/
theorem connect_wait (h : Host) (c : Client) (prog : List Instr) (data : List Word) (inp : List (BitVec 8)) :
    waitEvent h c (connect h prog data inp) =
      (.ok .begin, ⟨⟨⟨Cpu.init h.cfg prog data inp, .stopped .begin⟩, [], [], false⟩, [], [], none⟩) := by
  unfold waitEvent
  rw [bind_eq (x := Job.get) (t := connect h prog data inp) (a := connect h prog data inp) rfl]
  change (do
    proc (Proc.wait h)
    let r ← proc (Proc.getReason h)
    let e ← mapReason h r
    adjust h c e : N Event) _ = _
  rw [bind_eq (x := proc (Proc.wait h)) (a := ()) (t := ⟨⟨⟨Cpu.init h.cfg prog data inp, .stopped .begin⟩, [], [], false⟩, [], [], none⟩) rfl]
  have hr : Proc.getReason h ⟨⟨Cpu.init h.cfg prog data inp, .stopped .begin⟩, [], [], false⟩ =
      (.ok .begin, ⟨⟨Cpu.init h.cfg prog data inp, .stopped .begin⟩, [], [], false⟩) := by
    unfold Proc.getReason
    rw [Link.answer_eq (Link.ask_eq (h := h) rfl rfl rfl (why := .begin) rfl (Proto.parse_reason h) rfl)]
    rfl
  have hp : proc (Proc.getReason h) ⟨⟨⟨Cpu.init h.cfg prog data inp, .stopped .begin⟩, [], [], false⟩, [], [], none⟩ =
      (.ok .begin, ⟨⟨⟨Cpu.init h.cfg prog data inp, .stopped .begin⟩, [], [], false⟩, [], [], none⟩) := by
    unfold proc
    rw [hr]
  rw [bind_eq hp]
  rfl

theorem connect_begin (h : Host) (c : Client) (prog : List Instr) (data : List Word) (inp : List (BitVec 8)) :
    ∃ n, waitEvent h c (connect h prog data inp) = (.ok .begin, n) ∧ n.link.Live ∧ n.bps = [] ∧ n.wps = [] ∧
      n.link.vm.cpu = Cpu.init h.cfg prog data inp :=
  ⟨_, connect_wait h c prog data inp, ⟨rfl, rfl, rfl, .begin, rfl⟩, rfl, rfl, rfl⟩

theorem setAllBreakpoints_eq {h : Host} {n : Native} (l : Map Word Bp) (hn : n.bps = []) : setAllBreakpoints h l n = setMany h l n := by
  unfold setAllBreakpoints
  refine (bind_eq (x := Job.get) (a := n) (t := n) rfl).trans ?_
  rw [hn]
  exact bind_eq (x := disableAll h []) (a := ()) (t := n) rfl

theorem setAllWatchpoints_eq {h : Host} {n : Native} (l : Map Word Nat) (hn : n.wps = []) :
    setAllWatchpoints h l n = watchMany h (l.map (·.1)) n := by
  unfold setAllWatchpoints
  refine (bind_eq (x := Job.get) (a := n) (t := n) rfl).trans ?_
  rw [hn]
  exact bind_eq (x := removeAll h []) (a := ()) (t := n) rfl

theorem terminate_total {h : Host} {n : Native} (hl : n.link.Live) : ∃ l, Native.terminate h n = (.ok (), { n with link := l }) := by
  obtain ⟨why, hw⟩ := hl.stopped
  refine ⟨{ n.link with vm := Vm.leave why n.link.vm.cpu .quit }, ?_⟩
  unfold Native.terminate proc Proc.terminate
  rw [Link.check_eq' (Link.ask_eq (h := h) hl.1 hl.2 hl.3 hw (Proto.parse_terminate h) rfl)]

theorem shows_transfer {h : Host} {n : Native} {s s' : Isa.State} (hs : Native.Shows h n s) (hs' : Isa.Shows h.cfg n.link.vm.cpu s') :
    Native.Shows h n s' := by
  refine ⟨hs.live, hs', fun r hr => ?_⟩
  rw [hs.regs r hr]
  have hk : (h.cfg.key (.int r)).isSome = true := by
    simp only [Isa.shown, List.mem_append, List.mem_cons, List.not_mem_nil, or_false, List.mem_map, List.mem_range] at hr
    rcases hr with (rfl | rfl | rfl) | ⟨i, hi, rfl⟩
    · rfl
    · rfl
    · rfl
    · simp [Cfg.key, hi]
  have := (hs.machine.regs _ hk).symm.trans (hs'.regs _ hk)
  injection this with this
  rw [this]

/-- Breakpoints are set again. -/
theorem setMany_total {h : Host} {c : Client} {Tx : Str → Instr → Prop} {prog : List Instr} {data : List Word} {inp : List (BitVec 8)}
    (ht : Texts h Tx) (hl : prog.length < 2 ^ 63) (hp : ∀ i ∈ prog, Plain h i) : ∀ (l : Map Word Bp) (n : Native),
    Careful h c Tx prog data inp prog n ∧ Observing h c prog data inp n → n.link.Live → (∀ x ∈ l, x.2.enabled = true ∧ x.1.toNat < prog.length) →
    (n.bps.map (·.1) ++ l.map (·.1)).Nodup →
    ∃ bps p, setMany h l n = (.ok (), { setProg n p with bps := n.bps ++ bps }) ∧ bps.map (·.1) = l.map (·.1) ∧ (∀ x ∈ bps, x.2.enabled = true) ∧
      Careful h c Tx prog data inp prog { setProg n p with bps := n.bps ++ bps } ∧ Observing h c prog data inp { setProg n p with bps := n.bps ++ bps }
  | [], n, hx, _, _, _ => ⟨[], n.link.vm.cpu.prog, by
      rw [List.append_nil]
      exact ⟨rfl, rfl, by simp, hx⟩⟩
  | (a, bp) :: l, n, hx, hv, hb, hd => by
    obtain ⟨h1, h2⟩ := hb _ (List.mem_cons_self ..)
    have hf : n.bps.find a = none := by
      unfold Map.find
      cases hq : n.bps.find? (fun e => e.1 = a) with
      | none => rfl
      | some x =>
        have hm := List.mem_of_find?_eq_some hq
        have he := List.find?_some hq
        simp only [decide_eq_true_eq] at he
        rw [List.nodup_append] at hd
        exact absurd rfl (hd.2.2 a (List.mem_map.2 ⟨x, hm, he⟩) a (by simp))
    obtain ⟨s, hr⟩ := setBreakpoint_total (session_good ht hl hp hx.1.session) hv h2 hf
    have hx1 : Careful h c Tx prog data inp prog _ ∧ Observing h c prog data inp _ := ⟨.call (.set a) hx.1 hr rfl trivial, .call (.set a) hx.2 trivial hr⟩
    obtain ⟨bps, p, g1, g2, g3, g4⟩ := setMany_total ht hl hp l _ hx1 ⟨hv.1, hv.2, hv.3, hv.4⟩ (fun x hx => hb x (List.mem_cons_of_mem _ hx)) (by
      simpa [List.append_assoc] using hd)
    have hassoc : n.bps ++ (a, (⟨s, true⟩ : Bp)) :: bps = (n.bps ++ [(a, ⟨s, true⟩)]) ++ bps := by simp
    refine ⟨(a, ⟨s, true⟩) :: bps, p, ?_, ?_, ?_, ?_⟩
    · unfold setMany
      simp only at h1
      rw [h1]
      rw [hassoc]
      exact (bind_eq hr).trans g1
    · simp [g2]
    · intro x hx
      rcases List.mem_cons.1 hx with rfl | hx
      · rfl
      · exact g3 x hx
    · rw [hassoc]
      exact g4

/-- Watchpoints are set again. -/
theorem watchMany_total {h : Host} {c : Client} {Tx : Str → Instr → Prop} {prog : List Instr} {data : List Word} {inp : List (BitVec 8)}
    (ht : Texts h Tx) (hl : prog.length < 2 ^ 63) (hp : ∀ i ∈ prog, Plain h i) : ∀ (l : List Word) (n : Native),
    Careful h c Tx prog data inp prog n ∧ Observing h c prog data inp n → n.link.Live → n.wps.length + l.length ≤ 4 → (n.wps.map (·.1) ++ l).Nodup →
    ∃ wps D, watchMany h l n = (.ok (), { n with link := Proc.withDbg n.link D, wps := n.wps ++ wps }) ∧ wps.map (·.1) = l ∧
      Careful h c Tx prog data inp prog { n with link := Proc.withDbg n.link D, wps := n.wps ++ wps } ∧
      Observing h c prog data inp { n with link := Proc.withDbg n.link D, wps := n.wps ++ wps }
  | [], n, hx, _, _, _ => ⟨[], n.link.vm.cpu.dbg, by
      rw [List.append_nil]
      exact ⟨rfl, rfl, hx⟩⟩
  | a :: l, n, hx, hv, hb, hd => by
    simp only [List.length_cons] at hb
    have hg := session_good ht hl hp hx.1.session
    have hf : n.wps.find a = none := by
      unfold Map.find
      cases hq : n.wps.find? (fun e => e.1 = a) with
      | none => rfl
      | some x =>
        have hm := List.mem_of_find?_eq_some hq
        have he := List.find?_some hq
        simp only [decide_eq_true_eq] at he
        rw [List.nodup_append] at hd
        exact absurd rfl (hd.2.2 a (List.mem_map.2 ⟨x, hm, he⟩) a (by simp))
    obtain ⟨n1, hr, hv1⟩ := setWatchpoint_total hg hv hf (by omega)
    have hx1 : Careful h c Tx prog data inp prog n1 ∧ Observing h c prog data inp n1 := ⟨.call (.watch a) hx.1 hr rfl trivial, .call (.watch a) hx.2 trivial hr⟩
    obtain ⟨_, i, D, _, _, _, _, rfl⟩ := setWatchpoint_ok hg.rest hg.watch hr
    obtain ⟨wps, D', g1, g2, g3⟩ := watchMany_total ht hl hp l _ hx1 hv1 (by simp only [List.length_append, List.length_singleton]; omega) (by
      simpa [List.append_assoc] using hd)
    have hassoc : n.wps ++ (a, i) :: wps = (n.wps ++ [(a, i)]) ++ wps := by simp
    refine ⟨(a, i) :: wps, D', ?_, ?_, ?_⟩
    · unfold watchMany
      rw [hassoc]
      exact (bind_eq hr).trans g1
    · simp [g2]
    · rw [hassoc]
      exact g3

namespace Cli
open Isa

theorem typed_run (e : Env) {ws : List Str} (h : ∀ v ∈ ws, IsWord v) (s : Cli) :
    typed e (line ("run".toList :: ws)) s = caught ((do exitProcess; handleRun e (line ws) : C Unit) s) := by
  have hw : IsWord "run".toList := by unfold IsWord; decide
  have hm : ∀ v ∈ "run".toList :: ws, IsWord v := fun v hv => by
    rcases List.mem_cons.1 hv with rfl | hv
    · exact hw
    · exact h v hv
  have hf := firstWord_line hw ws
  rw [typed_eq e (by rw [squash_words_line hm]; exact line_ne_nil hm (by simp)), squash_words_line hm]
  unfold handle
  rw [hf]
  rfl

theorem exit_eq {s : Cli} (hlive : ∀ n, s.process = some n → n.link.Live) :
    ∃ s1 : Cli, exitProcess s = (.ok (), s1) ∧ breakpoints s1 = breakpoints s ∧ watchpoints s1 = watchpoints s ∧
      ∀ pr, { s1 with process := pr } = { s with process := pr } := by
  unfold exitProcess
  rw [bind_eq (x := Job.get) (a := s) (t := s) rfl]
  cases hp : s.process with
  | none => exact ⟨s, rfl, rfl, rfl, fun _ => rfl⟩
  | some n =>
    obtain ⟨l, hq⟩ := terminate_total (h := s.host) (hlive n hp)
    refine ⟨{ s with process := some { n with link := l } }, call_eq (x := fun h _ => Native.terminate h) hp hq, ?_, ?_, fun _ => rfl⟩
    · unfold breakpoints
      rw [hp]
    · unfold watchpoints
      rw [hp]

/-- C64: the options of `run`. The first word that begins with the name of the option counts. -/
theorem C64_option {opts : List Str} {name : String} :
    ((∀ w ∈ opts, ¬ name.toList <+: w) → option opts name = none) ∧
    ∀ l1 l2 k, opts = l1 ++ (name.toList ++ ofNat k) :: l2 → (∀ w ∈ l1, ¬ name.toList <+: w) → k < 2 ^ 64 → option opts name = some k := by
  constructor
  · intro hn
    unfold option
    rw [List.find?_eq_none.2 fun w hw => by
      rw [isPrefixOf_iff]
      exact hn w hw]
  · intro l1 l2 k hk hn h64
    unfold option
    have : opts.find? (fun s => isPrefixOf name.toList s) = some (name.toList ++ ofNat k) := by
      rw [hk, List.find?_append, List.find?_eq_none.2 fun w hw => by
        rw [isPrefixOf_iff]
        exact hn w hw]
      rw [Option.none_or, List.find?_cons_of_pos]
      rw [isPrefixOf_iff]
      exact List.prefix_append _ _
    rw [this]
    simp only
    rw [← String.length_toList, List.drop_left, unsigned_ofNat h64]

/-- C64: `run` starts the program of the file, on a machine of the size that is asked for, stopped before its first instruction. The
breakpoints and watchpoints are those of before. -/
theorem C64_run (e : Env) {s : Cli} {Tx : Str → Instr → Prop} {opts : List Str} {text : Str} {u : Asm.Unit'} {i : Info.Infos} {src : Src.Source}
    (hopts : ∀ v ∈ opts, IsWord v) (hfile : e.file = some text) (hu : Asm.assemble e.stod text = .ok u) (hi : Info.read e.stod text = .ok i)
    (hsrc : Src.Source.ofInfos i = .ok src) {r f m : Nat} {h : Host} (hr : r = (option opts "--reg-count=").getD 8)
    (hfl : f = (option opts "--float-reg-count=").getD 4) (hm : m = (option opts "--data-size=").getD 1024) (hh : h = e.host r f m)
    (ht : Texts h Tx) (hl : u.program.length < 2 ^ 63) (hp : ∀ i ∈ u.program, Plain h i) (hset : Setup h.cfg u.program u.data)
    (hlive : ∀ n, s.process = some n → n.link.Live) (hb : ∀ x ∈ breakpoints s, x.2.enabled = true ∧ x.1.toNat < u.program.length)
    (hbo : (breakpoints s).Ok) (hwo : (watchpoints s).Ok) (hw4 : (watchpoints s).length ≤ 4) :
    ∃ n, typed e (line ("run".toList :: opts)) s = (.ok (), { s with
        host := h, client := ⟨r, f, m⟩, process := some n, source := src, running := true, out := s.out ++ [.print "Started process".toList] }) ∧
      Careful h ⟨r, f, m⟩ Tx u.program u.data e.inp u.program n ∧ Observing h ⟨r, f, m⟩ u.program u.data e.inp n ∧
      Native.Shows h n (start h.cfg u.data e.inp) ∧
      n.bps.map (·.1) = (breakpoints s).map (·.1) ∧ (∀ x ∈ n.bps, x.2.enabled = true) ∧ n.wps.map (·.1) = (watchpoints s).map (·.1) := by
  -- The old process ends.
  have hexit := exit_eq hlive
  obtain ⟨s1, hx1, hb1, hw1, hs1⟩ := hexit
  -- The new one.
  obtain ⟨n0, hw, hl0, hb0, hw0, hc0⟩ := connect_begin h ⟨r, f, m⟩ u.program u.data e.inp
  obtain ⟨bps, p, g1, g2, g3, g4⟩ := setMany_total ht hl hp (breakpoints s) n0 ⟨.begin hw, .begin hw⟩ hl0 hb (by rw [hb0]; exact hbo)
  rw [← setAllBreakpoints_eq _ hb0] at g1
  have hl1 : ({ setProg n0 p with bps := n0.bps ++ bps } : Native).link.Live := ⟨hl0.1, hl0.2, hl0.3, hl0.4⟩
  obtain ⟨n1, e1⟩ : ∃ n1 : Native, n1 = { setProg n0 p with bps := n0.bps ++ bps } := ⟨_, rfl⟩
  have hw1' : n1.wps = [] := by rw [e1]; exact hw0
  have hcpu : n1.link.vm.cpu = { n0.link.vm.cpu with prog := p } := by rw [e1]; rfl
  have hbps : n1.bps = bps := by rw [e1]; change n0.bps ++ bps = bps; rw [hb0]; rfl
  rw [← e1] at g1 g4 hl1
  clear e1
  obtain ⟨wps, D, k1, k2, k3⟩ := watchMany_total ht hl hp ((watchpoints s).map (·.1)) n1 g4 hl1
    (by rw [hw1', List.length_map]; simpa using hw4) (by rw [hw1']; exact hwo)
  rw [← setAllWatchpoints_eq _ hw1'] at k1
  have hl2 : ({ n1 with link := Proc.withDbg n1.link D, wps := n1.wps ++ wps } : Native).link.Live := ⟨hl1.1, hl1.2, hl1.3, hl1.4⟩
  obtain ⟨n2, e2⟩ : ∃ n2 : Native, n2 = { n1 with link := Proc.withDbg n1.link D, wps := n1.wps ++ wps } := ⟨_, rfl⟩
  have hcpu2 : n2.link.vm.cpu = { n0.link.vm.cpu with prog := p, dbg := D } := by
    rw [e2]
    change { n1.link.vm.cpu with dbg := D } = _
    rw [hcpu]
  have hbps2 : n2.bps = bps := by rw [e2]; exact hbps
  have hwps2 : n2.wps = wps := by rw [e2]; change n1.wps ++ wps = wps; rw [hw1']; rfl
  rw [← e2] at k1 k3 hl2
  clear e2
  refine ⟨n2, ?_, k3.1, k3.2, ?_, by rw [hbps2]; exact g2, by rw [hbps2]; exact g3, by rw [hwps2]; exact k2⟩
  · rw [typed_run e hopts]
    have : (do exitProcess; handleRun e (line opts) : C Unit) s = (.ok (), { s with
        host := h, client := ⟨r, f, m⟩, process := some n2, source := src, running := true, out := s.out ++ [.print "Started process".toList] }) := by
      refine (bind_eq hx1).trans ?_
      unfold handleRun
      rw [split_line hopts, hfile]
      simp only
      have hparse : parseProgram e.stod text = .ok (src, u) := by
        unfold parseProgram
        rw [hu, hi]
        change (Src.Source.ofInfos i >>= _) = _
        rw [hsrc]
        rfl
      refine (bind_eq (x := Job.ofExcept (parseProgram e.stod text)) (a := (src, u)) (t := s1) (by rw [hparse]; rfl)).trans ?_
      rw [← hr, ← hfl, ← hm]
      unfold launch
      rw [if_neg (by rw [← hh]; exact Nat.not_lt.2 hset.data)]
      unfold attachNew
      refine (bind_eq (x := Job.get) (a := s1) (t := s1) rfl).trans ?_
      rw [hb1, hw1, ← hh]
      have hstate : ∀ n, ({ s1 with host := h, client := ⟨r, f, m⟩, process := some n, source := src, running := true } : Cli) =
          { s with host := h, client := ⟨r, f, m⟩, process := some n, source := src, running := true } := fun n =>
        congrArg (fun t : Cli => { t with host := h, client := ⟨r, f, m⟩, source := src, running := true }) (hs1 (some n))
      refine (bind_eq (x := Job.modify _) (a := ()) (t := { s with host := h, client := ⟨r, f, m⟩, process := some (Native.connect h u.program u.data e.inp), source := src, running := true }) ?_).trans ?_
      · rw [← hstate]
        rfl
      refine (bind_eq (call_eq rfl hw)).trans ?_
      refine (bind_eq (call_eq (x := fun h _ => Native.setAllBreakpoints h (breakpoints s)) rfl g1)).trans ?_
      refine (bind_eq (call_eq (x := fun h _ => Native.setAllWatchpoints h (watchpoints s)) rfl k1)).trans ?_
      rfl
    rw [this]
    rfl
  · obtain ⟨st, hs⟩ := careful_shows ht hl hp hset k3.1 hl2
    refine shows_transfer hs ?_
    have := (inv_init (inp := e.inp) hset.station hset.wf hset.data).shows ⟨rfl, rfl, rfl, rfl⟩
    rw [← hc0] at this
    rw [hcpu2]
    exact ⟨this.regs, this.mem, this.out, this.inp, this.halted⟩

/-- C64: without a file there is nothing to run, and this is said. -/
theorem C64_no_file (e : Env) {s : Cli} {opts : List Str} (hopts : ∀ v ∈ opts, IsWord v) (hfile : e.file = none) (hp : s.process = none) :
    typed e (line ("run".toList :: opts)) s = (.ok (), { s with out := s.out ++
      [.print "No file name was provided, provide the file name as argument at startup of the program.".toList] }) := by
  rw [typed_run e hopts]
  have : exitProcess s = (.ok (), s) := by
    unfold exitProcess
    rw [bind_eq (x := Job.get) (a := s) (t := s) rfl, hp]
    rfl
  have : (do exitProcess; handleRun e (line opts) : C Unit) s = (.ok (), { s with out := s.out ++
      [.print "No file name was provided, provide the file name as argument at startup of the program.".toList] }) := by
    refine (bind_eq this).trans ?_
    unfold handleRun
    rw [hfile]
    rfl
  rw [this]
  rfl

/-- C64: a file that cannot be read as a program ends the debugger: the error is not one of those that are caught. -/
theorem C64_broken (e : Env) {s : Cli} {opts : List Str} {text : Str} {x : Err} (hopts : ∀ v ∈ opts, IsWord v) (hfile : e.file = some text)
    (hu : Asm.assemble e.stod text = .error x) (hx : x ≠ .debugger) (hlive : ∀ n, s.process = some n → n.link.Live) :
    (typed e (line ("run".toList :: opts)) s).1 = .error x := by
  rw [typed_run e hopts]
  obtain ⟨s1, hx1, _⟩ := exit_eq hlive
  have : (do exitProcess; handleRun e (line opts) : C Unit) s = (.error x, s1) := by
    refine (bind_eq hx1).trans ?_
    unfold handleRun
    rw [hfile]
    simp only
    refine bind_error ?_
    unfold parseProgram
    rw [hu]
    rfl
  rw [this]
  unfold caught
  split
  · rename_i h
    cases h
    contradiction
  · rfl

/-- C64: a program whose data does not fit the memory that is asked for ends the debugger. -/
theorem C64_too_big (e : Env) {s : Cli} {opts : List Str} {text : Str} {u : Asm.Unit'} {i : Info.Infos} {src : Src.Source}
    (hopts : ∀ v ∈ opts, IsWord v) (hfile : e.file = some text) (hu : Asm.assemble e.stod text = .ok u) (hi : Info.read e.stod text = .ok i)
    (hsrc : Src.Source.ofInfos i = .ok src)
    (hbig : (e.host ((option opts "--reg-count=").getD 8) ((option opts "--float-reg-count=").getD 4)
      ((option opts "--data-size=").getD 1024)).cfg.ramSize < u.data.length)
    (hlive : ∀ n, s.process = some n → n.link.Live) :
    (typed e (line ("run".toList :: opts)) s).1 = .error .abort := by
  rw [typed_run e hopts]
  obtain ⟨s1, hx1, _⟩ := exit_eq hlive
  have : (do exitProcess; handleRun e (line opts) : C Unit) s = (.error .abort, s1) := by
    refine (bind_eq hx1).trans ?_
    unfold handleRun
    rw [split_line hopts, hfile]
    simp only
    have hparse : parseProgram e.stod text = .ok (src, u) := by
      unfold parseProgram
      rw [hu, hi]
      change (Src.Source.ofInfos i >>= _) = _
      rw [hsrc]
      rfl
    refine (bind_eq (x := Job.ofExcept (parseProgram e.stod text)) (a := (src, u)) (t := s1) (by rw [hparse]; rfl)).trans ?_
    unfold launch
    rw [if_pos hbig]
    rfl
  rw [this]
  rfl

/-! ## Examples -/

/-- A small program. -/
def exText : Str := ".text\n0 MOV R0, 7\n1 MOV [5], R0\n2 HALT\n.data\n4\n\"ab\"\n".toList

/-- The debugger with a file. -/
def exRun : Env := { exEnv with file := some exText }

/-- The debugger after these lines, from its start. -/
def exRuns (l : List String) : Cli := l.foldl (fun s x => (typed exRun x.toList s).2) { host := Sample.host, client := Sample.client }

/-- Breakpoints and watchpoints are kept when the program is started again. -/
example : (exRuns ["run --reg-count=3 --data-size=16", "br iset 1", "wa iset 5", "c", "run", "c", "mem get 0 4", "c"]).out.drop 6 =
    [.print "Started process".toList, .event "Software breakpoint hit at address 1".toList,
     .text none false 0 "MOV R0, 7".toList, .text (some true) true 1 "MOV [5], R0".toList, .text none false 2 "HALT".toList,
     .print "0:4".toList, .print "1:97".toList, .print "2:98".toList, .print "3:0".toList,
     .event "Watchpoint triggered at memory address 5".toList,
     .text none false 0 "MOV R0, 7".toList, .text (some true) false 1 "MOV [5], R0".toList, .text none true 2 "HALT".toList] := by
  decide +kernel

/-- C64, not for disabled breakpoints: after the program has been started again, the instruction at a disabled breakpoint is shown as an
empty text. -/
theorem C64_disabled : ((exRuns ["run --reg-count=3 --data-size=16", "br iset 1", "br idisable 1", "run", "dis range 1 2"]).out.drop 3) =
    [.print "Started process".toList, .text (some false) false 1 []] := by decide +kernel

/-- The debugger with a file, on machines whose memory has the size that is asked for. -/
def exSized : Env := { exRun with host := fun _ _ m => { Sample.host with cfg := { Sample.host.cfg with ramSize := m } } }

/-- Memory for three of the four words of data is not enough; memory for four is. -/
example : (match (typed exSized "run --data-size=3".toList { host := Sample.host, client := Sample.client }).1 with
      | .error .abort => true
      | _ => false) = true ∧
    (typed exSized "run --data-size=4".toList { host := Sample.host, client := Sample.client }).2.out = [.print "Started process".toList] := by
  decide +kernel

/-- The hypotheses of `C64_run` are met by this program. -/
example : ∃ u i src, Asm.assemble exRun.stod exText = .ok u ∧ Info.read exRun.stod exText = .ok i ∧ Src.Source.ofInfos i = .ok src ∧
    u.program.length < 2 ^ 63 ∧ (∀ i ∈ u.program, Plain (exRun.host 8 4 1024) i) ∧ Setup (exRun.host 8 4 1024).cfg u.program u.data := by
  have h1 : Asm.assemble exRun.stod exText =
      .ok ⟨[.mov (.val (.reg (.gp 0))) (.imm 7), .mov (.memImm 5) (.val (.reg (.gp 0))), .halt], [4, 97, 98, 0]⟩ := by decide +kernel
  have h2 : (match Info.read exRun.stod exText with
    | .ok i => (match Src.Source.ofInfos i with
      | .ok _ => true
      | .error _ => false)
    | .error _ => false) = true := by decide +kernel
  cases h3 : Info.read exRun.stod exText with
  | error x =>
    rw [h3] at h2
    cases h2
  | ok i =>
    rw [h3] at h2
    simp only at h2
    cases h4 : Src.Source.ofInfos i with
    | error x =>
      rw [h4] at h2
      cases h2
    | ok src =>
      refine ⟨_, i, src, h1, rfl, h4, by decide, ?_, by decide, by decide, by decide⟩
      intro i hi
      simp only [List.mem_cons, List.not_mem_nil, or_false] at hi
      rcases hi with rfl | rfl | rfl <;>
        simp [Plain, Instr.Writable, Instr.Shape, MovShape, Operand.isImmReg, Operand.isMem, Instr.shown, Operand.Named,
          RegExpr.Named, Reg.Named, Operand.Legible, Word.Literal]

end Cli
end T86
