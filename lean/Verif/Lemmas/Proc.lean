import Verif.Lemmas.Ask
import Verif.Lemmas.First

/-! What the calls of the debugged process do when they succeed. -/

set_option linter.unusedSimpArgs false
set_option linter.unusedVariables false

namespace T86
open Dbg Str

theorem ebind_ok {α β : Type} {x : Except Err α} {f : α → Except Err β} {b : β} (h : (x >>= f) = .ok b) :
    ∃ a, x = .ok a ∧ f a = .ok b := by
  cases x with
  | error e => cases h
  | ok a => exact ⟨a, rfl, h⟩

namespace Link

/-- The commands after which the machine still waits. -/
def Stays (l l' : Link) : Prop := l'.At ∧ l'.vm.phase = l.vm.phase

theorem Answer.kept {h : Host} {l l' : Link} (hl : l.At) {k : Cmd} {s : Str} (ha : Answer h l k s l')
    (hk : ∀ c' rep nx why, Cpu.command h.cfg h.gregs h.gram why l.vm.cpu k = .ok (c', rep, nx) →
      nx = .stay ∧ c'.prog = l.vm.cpu.prog ∧ c'.dbg = l.vm.cpu.dbg)
    (hf : afterFailure k = false) : Stays l l' ∧ l'.vm.cpu.prog = l.vm.cpu.prog ∧ l'.vm.cpu.dbg = l.vm.cpu.dbg := by
  rcases ha with ⟨why, c', rep, nx, h1, h2, h3, rfl⟩ | ⟨h1, h2 | h2⟩
  · obtain ⟨rfl, h5, h6⟩ := hk _ _ _ _ h2
    exact ⟨⟨⟨hl.1, hl.2, by simp [Vm.leave]⟩, h1.symm⟩, h5, h6⟩
  · rw [h2.1] at hf; cases hf
  · rw [h2.1] at hf; cases hf

theorem receive_of_check {h : Host} {l l' : Link} {u : Unit} (hr : Proc.check h l = (.ok u, l')) :
    receive h l = (.ok (some "OK".toList), l') := by
  unfold Proc.check at hr
  obtain ⟨a, t, h1, h2⟩ := Job.bind_ok hr
  cases a with
  | none => cases h2
  | some m =>
    simp only at h2
    split at h2
    · rename_i hm
      cases h2
      rw [h1, hm]
    · cases h2

theorem receive_of_answer {h : Host} {l l' : Link} {m : Str} (hr : Proc.answer h l = (.ok m, l')) :
    receive h l = (.ok (some m), l') := by
  unfold Proc.answer at hr
  obtain ⟨a, t, h1, h2⟩ := Job.bind_ok hr
  cases a with
  | none => cases h2
  | some m => cases h2; exact h1

theorem ask_check {h : Host} {l l' : Link} (hl : l.At) {m : Str} {f : Unit → Job Link α} {a : α}
    (hr : (send m >>= fun _ => Proc.check h >>= f) l = (.ok a, l')) :
    ∃ k t, Proto.parse h m = .ok k ∧ Answer h l k "OK".toList t ∧ f () t = (.ok a, l') := by
  obtain ⟨u, l1, h1, h2⟩ := Job.bind_ok hr
  obtain ⟨v, t, h3, h4⟩ := Job.bind_ok h2
  obtain ⟨k, h5, h6⟩ := ask hl (u := ()) ((Job.bind_eq h1).trans (receive_of_check h3))
  exact ⟨k, t, h5, h6, h4⟩

theorem ask_check' {h : Host} {l l' : Link} (hl : l.At) {m : Str} {u : Unit}
    (hr : (send m >>= fun _ => Proc.check h) l = (.ok u, l')) :
    ∃ k, Proto.parse h m = .ok k ∧ Answer h l k "OK".toList l' := by
  obtain ⟨u, l1, h1, h2⟩ := Job.bind_ok hr
  exact ask hl (u := ()) ((Job.bind_eq h1).trans (receive_of_check h2))

theorem ask_answer {h : Host} {l l' : Link} (hl : l.At) {m : Str} {f : Str → Job Link α} {a : α}
    (hr : (send m >>= fun _ => Proc.answer h >>= f) l = (.ok a, l')) :
    ∃ k s t, Proto.parse h m = .ok k ∧ Answer h l k s t ∧ f s t = (.ok a, l') := by
  obtain ⟨u, l1, h1, h2⟩ := Job.bind_ok hr
  obtain ⟨s, t, h3, h4⟩ := Job.bind_ok h2
  obtain ⟨k, h5, h6⟩ := ask hl (u := ()) ((Job.bind_eq h1).trans (receive_of_answer h3))
  exact ⟨k, s, t, h5, h6, h4⟩

theorem ask_fetch {h : Host} {l l' : Link} (hl : l.At) {m : Str} {num : Str → Option Word} {a : Map Str Word}
    (hr : (send m >>= fun _ => Proc.fetch h num) l = (.ok a, l')) :
    ∃ k s, Proto.parse h m = .ok k ∧ Answer h l k s l' ∧ Proc.regMap num s = .ok a := by
  obtain ⟨u, l1, h1, h2⟩ := Job.bind_ok hr
  unfold Proc.fetch at h2
  obtain ⟨s, t, h3, h4⟩ := Job.bind_ok h2
  cases s with
  | none => cases h4
  | some s =>
    obtain ⟨k, h5, h6⟩ := ask hl (u := ()) ((Job.bind_eq h1).trans h3)
    have e1 : Proc.regMap num s = .ok a := congrArg Prod.fst h4
    have e2 : t = l' := congrArg Prod.snd h4
    subst e2
    exact ⟨k, s, h5, h6, e1⟩

end Link

namespace Proto

theorem parse_pokeRegs_any {h : Host} {t : Str} {k : Cmd} (hk : parse h ("POKEREGS ".toList ++ t) = .ok k) :
    ∃ r v, k = .pokeReg r v := by
  have e : "POKEREGS ".toList ++ t = "POKEREGS".toList ++ ' ' :: t := by simp
  rw [e] at hk
  unfold parse at hk
  rw [split_word (w := "POKEREGS".toList) (List.cons_ne_nil _ _) (by decide)] at hk
  change (at' ("POKEREGS".toList :: split t ' ') 1 >>= fun r => register r >>= fun r =>
    at' ("POKEREGS".toList :: split t ' ') 2 >>= fun v => deref (toSigned v) >>= fun v =>
    (pure (.pokeReg r (BitVec.ofInt 64 v)) : Except Err Cmd)) = _ at hk
  obtain ⟨_, _, hk⟩ := ebind_ok hk
  obtain ⟨r, _, hk⟩ := ebind_ok hk
  obtain ⟨_, _, hk⟩ := ebind_ok hk
  obtain ⟨v, _, hk⟩ := ebind_ok hk
  cases hk
  exact ⟨_, _, rfl⟩

theorem parse_pokeFloats_any {h : Host} {t : Str} {k : Cmd} (hk : parse h ("POKEFLOATREGS ".toList ++ t) = .ok k) :
    ∃ r v, k = .pokeFloatReg r v := by
  have e : "POKEFLOATREGS ".toList ++ t = "POKEFLOATREGS".toList ++ ' ' :: t := by simp
  rw [e] at hk
  unfold parse at hk
  rw [split_word (w := "POKEFLOATREGS".toList) (List.cons_ne_nil _ _) (by decide)] at hk
  change (at' ("POKEFLOATREGS".toList :: split t ' ') 1 >>= fun r => numbered r >>= fun r =>
    at' ("POKEFLOATREGS".toList :: split t ' ') 2 >>= fun v => deref (h.dval v) >>= fun v =>
    (pure (.pokeFloatReg r v) : Except Err Cmd)) = _ at hk
  obtain ⟨_, _, hk⟩ := ebind_ok hk
  obtain ⟨r, _, hk⟩ := ebind_ok hk
  obtain ⟨_, _, hk⟩ := ebind_ok hk
  obtain ⟨v, _, hk⟩ := ebind_ok hk
  cases hk
  exact ⟨_, _, rfl⟩

end Proto

namespace Cpu

theorem kept_pokeReg {cfg : Cfg} {c c' : Cpu} {r : LReg} {v : Word} (h : c.pokeReg cfg r v = .ok c') :
    c'.prog = c.prog ∧ c'.dbg = c.dbg := by
  unfold pokeReg at h
  obtain ⟨_, _, h⟩ := bind_ok_iff.1 h
  obtain ⟨_, _, h⟩ := bind_ok_iff.1 h
  cases h
  exact ⟨rfl, rfl⟩

end Cpu

namespace Proc
open Link

theorem textSize_ok {h : Host} {l l' : Link} (hl : l.At) {n : Word} (hr : textSize h l = (.ok n, l')) :
    l' = l ∧ l.vm.cpu.prog.length < 2 ^ 64 ∧ n = BitVec.ofNat 64 l.vm.cpu.prog.length := by
  obtain ⟨k, s, t, h1, h2, h3⟩ := ask_answer hl hr
  rw [Proto.parse_textSize] at h1
  cases h1
  rcases h2 with ⟨why, c', rep, nx, e1, e2, e3, rfl⟩ | ⟨e1, e2 | e2⟩
  · cases e2
    have e4 : ({ l with vm := Vm.leave why l.vm.cpu .stay } : Link) = l := by
      obtain ⟨⟨c, p⟩, a, b, d⟩ := l
      simp only at e1
      subst e1
      rfl
    rw [e4] at h3
    subst e3
    have e5 : (Proto.reply h .textSize (.count l.vm.cpu.prog.length)).drop "TEXTSIZE:".length = ofNat l.vm.cpu.prog.length := rfl
    rw [e5] at h3
    by_cases hn : l.vm.cpu.prog.length < 2 ^ 64
    · rw [Proto.unsigned_nat hn] at h3
      cases h3
      exact ⟨rfl, hn, rfl⟩
    · have e6 : toUnsigned (ofNat l.vm.cpu.prog.length) = none := by
        unfold toUnsigned
        simp only [takeWhile_all (ofNat_isDigit _), ofNat_digits]
        rw [if_neg (by simp [ofNat_ne_nil]), if_neg hn]
      rw [e6] at h3
      cases h3
  · cases e2.1
  · cases e2.1

theorem readText_ok {h : Host} {l l' : Link} (hl : l.At) {a n : Word} {r : List Str} (hr : readText h a n l = (.ok r, l')) :
    l' = l ∧ a.toNat < 2 ^ 63 ∧ n.toNat < 2 ^ 63 ∧
      r = split (Proto.lines ((l.vm.cpu.peekText a.toNat n.toNat).map (·.print h.ftos))) '\n' := by
  obtain ⟨k, s, t, h1, h2, h3⟩ := ask_answer hl hr
  rw [Proto.parse_peekText] at h1
  obtain ⟨i, hi, h1⟩ := ebind_ok h1
  obtain ⟨j, hj, h1⟩ := ebind_ok h1
  have ha : a.toNat < 2 ^ 63 := by
    refine Decidable.byContradiction fun hc => ?_
    rw [Proto.index_large hc] at hi
    cases hi
  have hn : n.toNat < 2 ^ 63 := by
    refine Decidable.byContradiction fun hc => ?_
    rw [Proto.index_large hc] at hj
    cases hj
  rw [Proto.index_ofNat ha] at hi
  rw [Proto.index_ofNat hn] at hj
  cases hi
  cases hj
  cases h1
  rcases h2 with ⟨why, c', rep, nx, e1, e2, e3, rfl⟩ | ⟨e1, e2 | e2⟩
  · cases e2
    have e4 : ({ l with vm := Vm.leave why l.vm.cpu .stay } : Link) = l := by
      obtain ⟨⟨c, p⟩, a, b, d⟩ := l
      simp only at e1
      subst e1
      rfl
    rw [e4] at h3
    subst e3
    cases h3
    exact ⟨rfl, ha, hn, rfl⟩
  · cases e2.1
  · cases e2.1

/-- The processor with another program. -/
def withProg (l : Link) (Q : List Instr) : Link := { l with vm := { l.vm with cpu := { l.vm.cpu with prog := Q } } }

theorem parseText_ok {h : Host} {s : Str} {i : Instr} : parseText h s = .ok i ↔ Asm.oneInstruction.run h.stod s = .ok i := by
  unfold parseText
  refine ⟨fun hp => ?_, fun hs => ?_⟩
  · split at hp
    · cases hp
    · split at hp
      · cases hp
      · rename_i i' hi
        cases hp
        exact hi
  · obtain ⟨p, hl⟩ := Pars.lex_of_start (show (Pars.start _).run h.stod s = .ok i from hs)
    rw [hl, hs]

theorem writeText_cons {h : Host} {l l' : Link} (hl : l.At) {a : Word} {s : Str} {rest : List Str} (hq : '"' ∉ s)
    (hr : writeText h a (s :: rest) l = (.ok (), l')) :
    ∃ i, Asm.oneInstruction.run h.stod s = .ok i ∧ a.toNat < l.vm.cpu.prog.length ∧
      (withProg l (l.vm.cpu.prog.set a.toNat i)).At ∧
      writeText h (a + 1) rest (withProg l (l.vm.cpu.prog.set a.toNat i)) = (.ok (), l') := by
  unfold writeText at hr
  cases hs : parseText h s with
  | error e => rw [hs] at hr; cases hr
  | ok i =>
    rw [hs] at hr
    replace hs := parseText_ok.1 hs
    obtain ⟨k, t, h1, h2, h3⟩ := ask_check hl hr
    rw [Proto.parse_pokeText h a.toNat hs hq] at h1
    obtain ⟨j, hj, h1⟩ := ebind_ok h1
    have ha : a.toNat < 2 ^ 63 := by
      refine Decidable.byContradiction fun hc => ?_
      rw [Proto.index_large hc] at hj
      cases hj
    rw [Proto.index_ofNat ha] at hj
    cases hj
    cases h1
    rcases h2 with ⟨why, c', rep, nx, e1, e2, e3, rfl⟩ | ⟨e1, e2 | e2⟩
    · obtain ⟨c1, hc1, e2⟩ := bind_ok_iff.1 (show (l.vm.cpu.setText a.toNat i >>= fun c => (pure (c, .ok, .stay) : Res (Cpu × Reply × Next))) = _ from e2)
      cases e2
      unfold Cpu.setText at hc1
      split at hc1
      · rename_i hlt
        cases hc1
        have e4 : ({ l with vm := Vm.leave why { l.vm.cpu with prog := l.vm.cpu.prog.set a.toNat i } .stay } : Link) =
            withProg l (l.vm.cpu.prog.set a.toNat i) := by
          obtain ⟨⟨c, p⟩, a, b, d⟩ := l
          simp only at e1
          subst e1
          rfl
        rw [e4] at h3
        exact ⟨i, hs, hlt, ⟨hl.1, hl.2, hl.3⟩, h3⟩
      · cases hc1
    · cases e2.1
    · cases e2.1

theorem getReason_ok {h : Host} {l l' : Link} (hl : l.At) {r : Reason} (hr : getReason h l = (.ok r, l')) : l' = l ∧
    (l.vm.phase = .stopped r ∨ (l.vm.phase = .failed ∧ r = .cpuError)) := by
  obtain ⟨k, s, t, h1, h2, h3⟩ := ask_answer hl hr
  rw [Proto.parse_reason] at h1
  cases h1
  have g1 : decodeReason s = .ok r := congrArg Prod.fst h3
  have g2 : t = l' := congrArg Prod.snd h3
  subst g2
  rcases h2 with ⟨why, c', rep, nx, e1, e2, e3, rfl⟩ | ⟨e1, e2 | e2⟩
  · cases e2
    have e4 : ({ l with vm := Vm.leave why l.vm.cpu .stay } : Link) = l := by
      obtain ⟨⟨c, p⟩, a, b, d⟩ := l
      simp only at e1
      subst e1
      rfl
    refine ⟨e4, .inl ?_⟩
    subst e3
    have : decodeReason (Proto.reason why) = .ok why := by cases why <;> rfl
    change decodeReason (Proto.reason why) = _ at g1
    rw [this] at g1
    cases g1
    exact e1
  · obtain ⟨_, rfl, rfl⟩ := e2
    refine ⟨rfl, .inr ⟨e1, ?_⟩⟩
    cases g1
    rfl
  · exact absurd rfl e2.2.1

theorem fetchRegisters_ok {h : Host} {l l' : Link} (hl : l.At) {r : Map Str Word} (hr : fetchRegisters h l = (.ok r, l')) : l' = l ∧
    ∃ regs, l.vm.cpu.peekRegs h.cfg = .ok regs ∧
      regMap signed (Proto.lines (regs.map fun p => p.1.print ++ ":".toList ++ ofInt p.2.toInt)) = .ok r := by
  obtain ⟨k, s, h1, h2, h3⟩ := ask_fetch hl hr
  rw [Proto.parse_regs] at h1
  cases h1
  rcases h2 with ⟨why, c', rep, nx, e1, e2, e3, rfl⟩ | ⟨e1, e2 | e2⟩
  · obtain ⟨regs, hc1, e2⟩ := bind_ok_iff.1 (show (l.vm.cpu.peekRegs h.cfg >>= fun r => (pure (l.vm.cpu, .regs r, .stay) : Res (Cpu × Reply × Next))) = _ from e2)
    cases e2
    have e4 : ({ l with vm := Vm.leave why l.vm.cpu .stay } : Link) = l := by
      obtain ⟨⟨c, p⟩, a, b, d⟩ := l
      simp only at e1
      subst e1
      rfl
    refine ⟨e4, regs, hc1, ?_⟩
    subst e3
    exact h3
  · cases e2.1
  · cases e2.1

theorem fetchFloats_ok {h : Host} {l l' : Link} (hl : l.At) {r : Map Str Word} (hr : fetchFloatRegisters h l = (.ok r, l')) : l' = l := by
  obtain ⟨k, s, h1, h2, h3⟩ := ask_fetch hl hr
  rw [Proto.parse_floats] at h1
  cases h1
  rcases h2 with ⟨why, c', rep, nx, e1, e2, e3, rfl⟩ | ⟨e1, e2 | e2⟩
  · obtain ⟨regs, hc1, e2⟩ := bind_ok_iff.1 (show (l.vm.cpu.peekFloats h.cfg >>= fun r => (pure (l.vm.cpu, .floats r, .stay) : Res (Cpu × Reply × Next))) = _ from e2)
    cases e2
    obtain ⟨⟨c, p⟩, a, b, d⟩ := l
    simp only at e1
    subst e1
    rfl
  · cases e2.1
  · cases e2.1

theorem fetchDebugs_ok {h : Host} {l l' : Link} (hl : l.At) {r : Map Str Word} (hr : fetchDebugRegisters h l = (.ok r, l')) :
    l' = l ∧ regMap unsigned (Proto.lines (Proto.numberedLines 'D' 0 (l.vm.cpu.dbg.map fun w => ofNat w.toNat))) = .ok r := by
  obtain ⟨k, s, h1, h2, h3⟩ := ask_fetch hl hr
  rw [Proto.parse_debugs] at h1
  cases h1
  rcases h2 with ⟨why, c', rep, nx, e1, e2, e3, rfl⟩ | ⟨e1, e2 | e2⟩
  · cases e2
    have e4 : ({ l with vm := Vm.leave why l.vm.cpu .stay } : Link) = l := by
      obtain ⟨⟨c, p⟩, a, b, d⟩ := l
      simp only at e1
      subst e1
      rfl
    refine ⟨e4, ?_⟩
    subst e3
    exact h3
  · cases e2.1
  · cases e2.1

/-- Still waiting, with the same program and debug registers. -/
def Same (l l' : Link) : Prop := Stays l l' ∧ l'.vm.cpu.prog = l.vm.cpu.prog ∧ l'.vm.cpu.dbg = l.vm.cpu.dbg

theorem Same.refl {l : Link} (hl : l.At) : Same l l := ⟨⟨hl, rfl⟩, rfl, rfl⟩

theorem Same.trans {a b c : Link} (h1 : Same a b) (h2 : Same b c) : Same a c :=
  ⟨⟨h2.1.1, h2.1.2.trans h1.1.2⟩, h2.2.1.trans h1.2.1, h2.2.2.trans h1.2.2⟩

theorem setRegisters_ok {h : Host} {c : Client} : ∀ {m : Map Str Word} {l l' : Link} (hl : l.At),
    setRegisters h c m l = (.ok (), l') → Same l l'
  | [], l, l', hl, hr => by cases hr; exact .refl hl
  | (name, v) :: m, l, l', hl, hr => by
    unfold setRegisters at hr
    split at hr
    · obtain ⟨k, t, h1, h2, h3⟩ := ask_check hl hr
      simp only [List.append_assoc] at h1
      obtain ⟨r, w, rfl⟩ := Proto.parse_pokeRegs_any h1
      have := Answer.kept hl h2 (fun c' rep nx why e => by
        obtain ⟨c1, hc1, e⟩ := bind_ok_iff.1 (show (l.vm.cpu.pokeReg h.cfg (.int r) w >>= fun c => (pure (c, .ok, .stay) : Res (Cpu × Reply × Next))) = _ from e)
        cases e
        exact ⟨rfl, Cpu.kept_pokeReg hc1⟩) rfl
      exact Same.trans this (setRegisters_ok this.1.1 h3)
    · cases hr

theorem setFloats_ok {h : Host} {c : Client} : ∀ {m : Map Str Word} {l l' : Link} (hl : l.At),
    setFloatRegisters h c m l = (.ok (), l') → Same l l'
  | [], l, l', hl, hr => by cases hr; exact .refl hl
  | (name, v) :: m, l, l', hl, hr => by
    unfold setFloatRegisters at hr
    split at hr
    · obtain ⟨k, t, h1, h2, h3⟩ := ask_check hl hr
      simp only [List.append_assoc] at h1
      obtain ⟨r, w, rfl⟩ := Proto.parse_pokeFloats_any h1
      have := Answer.kept hl h2 (fun c' rep nx why e => by
        obtain ⟨c1, hc1, e⟩ := bind_ok_iff.1 (show (l.vm.cpu.pokeReg h.cfg (.flt r) w >>= fun c => (pure (c, .ok, .stay) : Res (Cpu × Reply × Next))) = _ from e)
        cases e
        exact ⟨rfl, Cpu.kept_pokeReg hc1⟩) rfl
      exact Same.trans this (setFloats_ok this.1.1 h3)
    · cases hr

theorem pokeLoop_ok {h : Host} : ∀ {m : List Word} {a : Word} {l l' : Link} (hl : l.At),
    pokeLoop h a m l = (.ok (), l') → Same l l'
  | [], a, l, l', hl, hr => by cases hr; exact .refl hl
  | v :: m, a, l, l', hl, hr => by
    unfold pokeLoop at hr
    obtain ⟨k, t, h1, h2, h3⟩ := ask_check hl hr
    rw [Proto.parse_pokeData] at h1
    obtain ⟨i, hi, h1⟩ := ebind_ok h1
    cases h1
    have := Answer.kept hl h2 (fun c' rep nx why e => by
      obtain ⟨c1, hc1, e⟩ := bind_ok_iff.1 (show (l.vm.cpu.setMemory (BitVec.ofNat 64 i) v >>= fun c => (pure (c, .ok, .stay) : Res (Cpu × Reply × Next))) = _ from e)
      cases e
      unfold Cpu.setMemory at hc1
      obtain ⟨ram, hram, hc1⟩ := bind_ok_iff.1 hc1
      cases hc1
      exact ⟨rfl, rfl, rfl⟩) rfl
    exact Same.trans this (pokeLoop_ok this.1.1 h3)

theorem writeMemory_ok {h : Host} {c : Client} {m : List Word} {a : Word} {l l' : Link} (hl : l.At)
    (hr : writeMemory h c a m l = (.ok (), l')) : Same l l' := by
  unfold writeMemory at hr
  split at hr
  · cases hr
  · exact pokeLoop_ok hl hr

theorem readMemory_ok {h : Host} {c : Client} {a n : Word} {l l' : Link} {r : List Word} (hl : l.At)
    (hr : readMemory h c a n l = (.ok r, l')) : l' = l := by
  unfold readMemory at hr
  split at hr
  · cases hr
  · obtain ⟨k, s, t, h1, h2, h3⟩ := ask_answer hl hr
    have g2 : t = l' := congrArg Prod.snd h3
    subst g2
    rw [Proto.parse_peekData] at h1
    obtain ⟨i, hi, h1⟩ := ebind_ok h1
    obtain ⟨j, hj, h1⟩ := ebind_ok h1
    cases h1
    rcases h2 with ⟨why, c', rep, nx, e1, e2, e3, rfl⟩ | ⟨e1, e2 | e2⟩
    · obtain ⟨regs, hc1, e2⟩ := bind_ok_iff.1 (show (l.vm.cpu.peekData i j >>= fun r => (pure (l.vm.cpu, .data r, .stay) : Res (Cpu × Reply × Next))) = _ from e2)
      cases e2
      obtain ⟨⟨c, p⟩, a, b, d⟩ := l
      simp only at e1
      subst e1
      rfl
    · cases e2.1
    · cases e2.1

/-- The debug registers after `POKEDEBUGREGS`. -/
def withDbg (l : Link) (D : List Word) : Link := { l with vm := { l.vm with cpu := { l.vm.cpu with dbg := D } } }

theorem setDebugs_cons {h : Host} {l l' : Link} (hl : l.At) {i : Nat} (hi : i < 2 ^ 64) {v : Word} {m : Map Str Word}
    (hr : setDebugRegisters h ((Arch.debugName i, v) :: m) l = (.ok (), l')) :
    (withDbg l (l.vm.cpu.dbg.set i v)).At ∧ setDebugRegisters h m (withDbg l (l.vm.cpu.dbg.set i v)) = (.ok (), l') := by
  unfold setDebugRegisters at hr
  split at hr
  · obtain ⟨k, t, h1, h2, h3⟩ := ask_check hl hr
    rw [Arch.debugName, Proto.parse_pokeDebugs h i hi] at h1
    cases h1
    rcases h2 with ⟨why, c', rep, nx, e1, e2, e3, rfl⟩ | ⟨e1, e2 | e2⟩
    · obtain ⟨c1, hc1, e2⟩ := bind_ok_iff.1 (show (l.vm.cpu.setDebugReg i v >>= fun c => (pure (c, .ok, .stay) : Res (Cpu × Reply × Next))) = _ from e2)
      cases e2
      unfold Cpu.setDebugReg at hc1
      split at hc1
      · cases hc1
        have e4 : ({ l with vm := Vm.leave why { l.vm.cpu with dbg := l.vm.cpu.dbg.set i v } .stay } : Link) =
            withDbg l (l.vm.cpu.dbg.set i v) := by
          obtain ⟨⟨c, p⟩, a, b, d⟩ := l
          simp only at e1
          subst e1
          rfl
        rw [e4] at h3
        exact ⟨⟨hl.1, hl.2, hl.3⟩, h3⟩
      · cases hc1
    · cases e2.1
    · cases e2.1
  · cases hr

/-- Nothing but a notice that the machine has stopped is on its way. -/
def Away (Q : List Instr) (D : List Word) (l : Link) : Prop :=
  l.toVm = [] ∧ l.vm.cpu.prog = Q ∧ Marks D l.vm.cpu.dbg ∧
    (l.toDbg = [] ∨ (l.toDbg = ["STOPPED".toList] ∧ l.vm.phase ≠ .running))

/-- The machine waits for a command. -/
def Rest (Q : List Instr) (D : List Word) (l : Link) : Prop := l.At ∧ l.vm.cpu.prog = Q ∧ Marks D l.vm.cpu.dbg

theorem go_ok {h : Host} {Q : List Instr} {D : List Word} {l l' : Link} {m : Str} {u : Unit} (hl : Rest Q D l)
    (hm : Proto.parse h m = .ok .cont ∨ Proto.parse h m = .ok .step)
    (hr : (send m >>= fun _ => check h) l = (.ok u, l')) : Away Q D l' := by
  obtain ⟨k, h1, h2⟩ := ask_check' hl.1 hr
  obtain ⟨h3, h4, h5⟩ := hl
  rcases h2 with ⟨why, c', rep, nx, e1, e2, e3, rfl⟩ | ⟨e1, ⟨_, e2, _⟩ | ⟨_, _, rfl⟩⟩
  · rcases hm with hm | hm
    · rw [hm] at h1
      cases h1
      cases e2
      exact ⟨h3.1, h4, h5, .inl h3.2⟩
    · rw [hm] at h1
      cases h1
      cases e2
      exact ⟨h3.1, h4, h5, .inl h3.2⟩
  · exact absurd e2 (by decide)
  · exact ⟨h3.1, h4, h5, .inl h3.2⟩

theorem wait_loop {h : Host} {Q : List Instr} {D : List Word} {s : Str} : ∀ {fuel : Nat} {l l' : Link}, Away Q D l →
    receiveLoop h fuel l = (.ok (some s), l') → Rest Q D l' := by
  have base : ∀ {l l' : Link} {m : Str} {rest : List Str}, Away Q D l → l.toDbg = m :: rest → l' = { l with toDbg := rest } → Rest Q D l' := by
    rintro l l' m rest ⟨h1, h2, h3, h4⟩ e1 rfl
    rcases h4 with h4 | ⟨h4, h5⟩
    · rw [e1] at h4; cases h4
    · rw [e1] at h4
      cases h4
      exact ⟨⟨h1, rfl, h5⟩, h2, h3⟩
  intro fuel
  induction fuel with
  | zero =>
    intro l l' hl hr
    unfold receiveLoop at hr
    cases hd : l.toDbg with
    | nil => rw [hd] at hr; cases hr
    | cons m rest => rw [hd] at hr; cases hr; exact base hl hd rfl
  | succ fuel ih =>
    intro l l' hl hr
    unfold receiveLoop at hr
    cases hd : l.toDbg with
    | cons m rest => rw [hd] at hr; cases hr; exact base hl hd rfl
    | nil =>
      rw [hd] at hr
      obtain ⟨h1, h2, h3, h4⟩ := hl
      simp only at hr
      cases ht : turn h l with
      | error e => rw [ht] at hr; cases hr
      | ok o =>
        rw [ht] at hr
        cases o with
        | none => cases hr
        | some t =>
          refine ih ?_ hr
          unfold turn at ht
          split at ht
          · cases ht
          · rename_i hdead
            split at ht
            · cases ht
            · rename_i hp
              simp only [Vm.step, hp] at ht
              cases hv : Vm.tick h.cfg l.vm.cpu with
              | error f =>
                rw [hv] at ht
                cases f <;> cases ht <;> exact ⟨h1, h2, h3, .inl hd⟩
              | ok x =>
                obtain ⟨vm, rs⟩ := x
                rw [hv] at ht
                cases ht
                have hk := Vm.kept_tick hv
                refine ⟨h1, hk.1.trans h2, h3.trans hk.2, ?_⟩
                simp only [hd, List.nil_append]
                unfold Vm.tick at hv
                split at hv
                · cases hv; exact .inr ⟨rfl, by simp⟩
                · cases hv
                · split at hv
                  · cases hv; exact .inr ⟨rfl, by simp [Vm.enter]⟩
                  · split at hv <;> first
                      | (cases hv; exact .inl rfl)
                      | (cases hv; exact .inr ⟨rfl, by simp [Vm.enter]⟩)
                      | cases hv
            · rw [h1] at ht
              cases ht

theorem wait_ok {h : Host} {Q : List Instr} {D : List Word} {l l' : Link} {u : Unit} (hl : Away Q D l)
    (hr : wait h l = (.ok u, l')) : Rest Q D l' := by
  unfold wait at hr
  obtain ⟨a, t, h1, h2⟩ := Job.bind_ok hr
  cases a with
  | none => cases h2
  | some m =>
    simp only at h2
    split at h2
    · cases h2
      exact wait_loop hl h1
    · cases h2

end Proc
end T86
