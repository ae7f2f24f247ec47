import Verif.Lemmas.Over

/-! Reading and writing memory and registers through the debugger. -/

set_option linter.unusedSimpArgs false
set_option linter.unusedVariables false

namespace T86
open Dbg Str Isa

namespace Native
variable {h : Host} {c : Client}

theorem peekRegs_shows {cpu : Cpu} {s : State} (hm : Isa.Shows h.cfg cpu s) (w : Reason) :
    Cpu.command h.cfg h.gregs h.gram w cpu .peekRegs = .ok (cpu, .regs ((shown h.cfg).map fun r => (r, s.look (.int r))), .stay) := by
  change (Cpu.peekRegs h.cfg cpu >>= _) = _
  have : Cpu.peekRegs h.cfg cpu = .ok ((shown h.cfg).map fun r => (r, s.look (.int r))) := by
    apply mapM_ok
    intro r hr
    rw [hm.regs _ (key_shown hr)]
    rfl
  rw [this]
  rfl

theorem fetchRegisters_shows {l : Link} {s : State} (hl : l.Live) (hm : Isa.Shows h.cfg l.vm.cpu s) :
    Proc.fetchRegisters h l = (.ok (listed h.cfg s), l) := by
  unfold Proc.fetchRegisters
  refine Link.fetch_eq (hl.ask_eq (Proto.parse_regs h) fun w => peekRegs_shows hm w) ?_
  change Proc.regMap Proc.signed (Proto.lines (List.map _ _)) = _
  have hreg := Proc.regMap_eq (num := Proc.signed) (t := fun v => ofInt v.toInt) Proc.signed_text (l := listed h.cfg s)
    (by intro p hp; obtain ⟨r, _, rfl⟩ := List.mem_map.1 hp; exact Proc.field_reg r) (listed_ok _ _)
  rw [← hreg]
  unfold listed
  rw [List.map_map, List.map_map]
  rfl

theorem getRegisters_shows {n : Native} {s : State} (hl : n.link.Live) (hm : Isa.Shows h.cfg n.link.vm.cpu s) :
    getRegisters h n = (.ok (listed h.cfg s), n) := by
  unfold getRegisters proc
  rw [fetchRegisters_shows hl hm]

/-- What the machine shows the debugger shows. -/
theorem shows_of_machine {n : Native} {s : State} (hl : n.link.Live) (hm : Isa.Shows h.cfg n.link.vm.cpu s) : Native.Shows h n s := by
  refine ⟨hl, hm, fun r hr => ?_⟩
  unfold getRegister
  rw [Job.bind_eq (getRegisters_shows hl hm), find_listed _ hr]
  rfl

theorem mapM_stoll : ∀ l : List Word, (l.map fun w => ofInt w.toInt).mapM Proc.stoll = .ok l
  | [] => rfl
  | w :: l => by
    rw [List.map_cons, List.mapM_cons, mapM_stoll l]
    unfold Proc.stoll
    rw [Proto.signed_word]
    simp only [BitVec.ofInt_toInt]
    rfl

theorem readMemory_shows {n : Native} {s : State} (hs : Native.Shows h n s) {a m : Word} {l : List Word} (hlen : l.length = m.toNat)
    (hin : a.toNat + m.toNat ≤ c.size) (hsz : c.size < 2 ^ 63)
    (hl : ∀ j w, l[j]? = some w → s.mem (a + BitVec.ofNat 64 j) = some w) : readMemory h c a m n = (.ok l, n) := by
  have e1 : ¬ (a + m).toNat > c.size := by rw [BitVec.toNat_add, Nat.mod_eq_of_lt (by omega)]; omega
  have hd : Cpu.peekData n.link.vm.cpu a.toNat m.toNat = .ok l := by
    have hg : ∀ j ∈ List.range m.toNat, n.link.vm.cpu.ram.get (BitVec.ofNat 64 (a.toNat + j)) = .ok (l.getD j 0) := by
      intro j hj
      have hj : j < l.length := by rw [hlen]; exact List.mem_range.1 hj
      have e : BitVec.ofNat 64 (a.toNat + j) = a + BitVec.ofNat 64 j := by
        apply BitVec.eq_of_toNat_eq
        simp [BitVec.toNat_add]
      have h1 := hl j l[j] (List.getElem?_eq_getElem hj)
      unfold Ram.get
      rw [e, hs.machine.mem, h1]
      simp [List.getD, List.getElem?_eq_getElem hj]
    unfold Cpu.peekData
    rw [mapM_ok hg]
    congr 1
    apply List.ext_getElem
    · simp [hlen]
    · intro j h1 h2
      simp [List.getD, List.getElem?_eq_getElem h2]
  unfold readMemory proc
  unfold Proc.readMemory
  rw [if_neg e1, Link.answer_eq (hs.live.ask_eq (k := .peekData a.toNat m.toNat) (c' := n.link.vm.cpu) (rep := .data l) (by
    rw [Proto.parse_peekData, Proto.index_ofNat (by omega), Proto.index_ofNat (by omega)]
    rfl) fun why => by
      change (Cpu.peekData n.link.vm.cpu a.toNat m.toNat >>= _) = _
      rw [hd]
      rfl)]
  have : split (Proto.reply h (.peekData a.toNat m.toNat) (.data l)) '\n' = l.map fun w => ofInt w.toInt := by
    change split (Proto.lines _) _ = _
    unfold Proto.lines
    rw [show "\n".toList = ['\n'] from rfl, C25_split_terminated '\n' _ (by
      intro p hp
      obtain ⟨q, hq, rfl⟩ := List.mem_map.1 hp
      exact ⟨(Proc.field_ofInt _).1, (Proc.field_ofInt _).2.2⟩)]
  rw [this]
  unfold Job.ofExcept
  rw [mapM_stoll]

/-- The link with another content of the memory. -/
def withMem (l : Link) (mem : List Word) : Link := { l with vm := { l.vm with cpu := { l.vm.cpu with ram := { l.vm.cpu.ram with mem := mem } } } }

theorem pokeLoop_shows : ∀ {ws : List Word} {l : Link} {s : State} {a : Word}, l.Live → Isa.Shows h.cfg l.vm.cpu s →
    a.toNat + ws.length < 2 ^ 63 → (∀ j, j < ws.length → (s.mem (a + BitVec.ofNat 64 j)).isSome = true) →
    ∃ mem, Proc.pokeLoop h a ws l = (.ok (), withMem l mem) ∧ (withMem l mem).Live ∧ Isa.Shows h.cfg (withMem l mem).vm.cpu (s.write a ws)
  | [], l, s, a, hl, hm, _, _ => by
    refine ⟨l.vm.cpu.ram.mem, rfl, hl, ?_⟩
    have : s.write a [] = s := by
      unfold State.write
      have : (fun b : Word => if a.toNat ≤ b.toNat ∧ b.toNat < a.toNat + ([] : List Word).length then ([] : List Word)[b.toNat - a.toNat]? else s.mem b) = s.mem := by
        funext b
        rw [if_neg]
        simp only [List.length_nil]
        omega
      rw [this]
    rw [this]
    exact hm
  | w :: ws, l, s, a, hl, hm, hlt, hin => by
    rw [List.length_cons] at hlt
    have h0 := hin 0 (by simp)
    rw [show a + BitVec.ofNat 64 0 = a from BitVec.add_zero a, ← hm.mem] at h0
    have hlen : a.toNat < l.vm.cpu.ram.mem.length := by
      rw [Option.isSome_iff_exists] at h0
      obtain ⟨v, hv⟩ := h0
      exact (List.getElem?_eq_some_iff.1 hv).1
    have hset : l.vm.cpu.ram.set (BitVec.ofNat 64 a.toNat) w = .ok { l.vm.cpu.ram with mem := l.vm.cpu.ram.mem.set a.toNat w } := by
      unfold Ram.set
      rw [BitVec.ofNat_toNat, BitVec.setWidth_eq, if_pos hlen]
    have hm1 : Isa.Shows h.cfg (withMem l (l.vm.cpu.ram.mem.set a.toNat w)).vm.cpu (s.write a [w]) := by
      refine ⟨hm.regs, fun b => ?_, hm.out, hm.inp, hm.halted⟩
      show (l.vm.cpu.ram.mem.set a.toNat w)[b.toNat]? = if a.toNat ≤ b.toNat ∧ b.toNat < a.toNat + 1 then [w][b.toNat - a.toNat]? else s.mem b
      rw [List.getElem?_set]
      by_cases hb : a.toNat = b.toNat
      · rw [if_pos hb, if_pos hlen, if_pos (by omega), ← hb]
        simp
      · rw [if_neg hb, if_neg (by omega)]
        exact hm.mem b
    have hl1 : (withMem l (l.vm.cpu.ram.mem.set a.toNat w)).Live := ⟨hl.1, hl.2, hl.3, hl.4⟩
    have ha1 : (a + 1).toNat = a.toNat + 1 := by
      rw [BitVec.toNat_add, show (1 : Word).toNat = 1 from rfl, Nat.mod_eq_of_lt (by omega)]
    obtain ⟨mem, g1, g2, g3⟩ := pokeLoop_shows (ws := ws) (a := a + 1) hl1 hm1 (by omega) (by
      intro j hj
      have := hin (j + 1) (by simp; omega)
      have e : a + 1 + BitVec.ofNat 64 j = a + BitVec.ofNat 64 (j + 1) := by
        apply BitVec.eq_of_toNat_eq
        simp only [BitVec.toNat_add, BitVec.toNat_ofNat, show (1 : Word).toNat = 1 from rfl]
        omega
      rw [e]
      unfold State.write
      simp only
      rw [if_neg]
      · exact this
      · have e2 : (a + BitVec.ofNat 64 (j + 1)).toNat = a.toNat + (j + 1) := by
          simp only [BitVec.toNat_add, BitVec.toNat_ofNat]
          omega
        rw [e2]
        simp only [List.length_cons, List.length_nil]
        omega)
    refine ⟨mem, ?_, g2, ?_⟩
    · unfold Proc.pokeLoop
      rw [Link.check_eq (hl.ask_eq (k := .pokeData a.toNat w)
          (c' := (withMem l (l.vm.cpu.ram.mem.set a.toNat w)).vm.cpu) (rep := .ok) (by
        rw [Proto.parse_pokeData, Proto.index_ofNat (by omega)]
        rfl) fun why => by
          change (l.vm.cpu.ram.set (BitVec.ofNat 64 a.toNat) w >>= _) >>= _ = _
          rw [hset]
          rfl)]
      exact g1
    · have : (s.write a [w]).write (a + 1) ws = s.write a (w :: ws) := by
        unfold State.write
        simp only [ha1, List.length_cons, List.length_nil]
        congr 1
        funext b
        by_cases h1 : a.toNat + 1 ≤ b.toNat ∧ b.toNat < a.toNat + 1 + ws.length
        · rw [if_pos h1, if_pos (by omega)]
          obtain ⟨k, hk⟩ : ∃ k, b.toNat - a.toNat = k + 1 := ⟨b.toNat - a.toNat - 1, by omega⟩
          rw [hk, List.getElem?_cons_succ]
          congr 1
          omega
        · rw [if_neg h1]
          by_cases h2 : a.toNat = b.toNat
          · rw [if_pos (by omega), if_pos (by omega), ← h2]
            simp
          · rw [if_neg (by omega), if_neg (by omega)]
      rw [← this]
      exact g3

theorem setMemory_shows {n : Native} {s : State} (hs : Native.Shows h n s) {a : Word} {ws : List Word}
    (hin : a.toNat + ws.length ≤ c.size) (hsz : c.size < 2 ^ 63)
    (hmem : ∀ j, j < ws.length → (s.mem (a + BitVec.ofNat 64 j)).isSome = true) :
    ∃ mem, setMemory h c a ws n = (.ok (), { n with link := withMem n.link mem }) ∧
      Native.Shows h { n with link := withMem n.link mem } (s.write a ws) := by
  obtain ⟨mem, h1, h2, h3⟩ := pokeLoop_shows hs.live hs.machine (a := a) (ws := ws) (by omega) hmem
  refine ⟨mem, ?_, shows_of_machine h2 h3⟩
  have e1 : ¬ (a + BitVec.ofNat 64 ws.length).toNat > c.size := by
    simp only [BitVec.toNat_add, BitVec.toNat_ofNat]
    rw [Nat.mod_eq_of_lt (a := ws.length) (by omega), Nat.mod_eq_of_lt (by omega)]
    omega
  unfold setMemory proc Proc.writeMemory
  rw [if_neg e1, h1]

/-- The registers the debugger may write. -/
theorem isRegister_shown {r : Reg} (hr : r ∈ shown h.cfg) (hg : h.cfg.nreg ≤ c.gp) (h64 : h.cfg.nreg ≤ 2 ^ 64) :
    Proc.isRegister c r.print = true := by
  simp only [shown, List.cons_append, List.nil_append, List.mem_cons, List.mem_map, List.mem_range] at hr
  rcases hr with rfl | rfl | rfl | ⟨i, hi, rfl⟩
  · rfl
  · rfl
  · rfl
  · have : Proc.isNumbered 'R' c.gp (Reg.gp i).print = true := by
      show Proc.isNumbered 'R' c.gp ('R' :: ofNat i) = true
      obtain ⟨d, t, hd, _⟩ := ofNat_head i
      rw [hd]
      unfold Proc.isNumbered
      simp only [decide_true, Bool.true_and]
      rw [← hd, Proto.unsigned_nat (by omega)]
      simp
      omega
    unfold Proc.isRegister
    rw [this]
    simp

theorem parse_pokeReg_eq {r : Reg} {v : Word} (hr : r ∈ shown h.cfg) (h64 : h.cfg.nreg ≤ 2 ^ 64) :
    Proto.parse h ("POKEREGS ".toList ++ r.print ++ " ".toList ++ ofInt v.toInt) = .ok (.pokeReg r v) := by
  rw [Proto.parse_pokeRegs h (Proc.word_reg hr)]
  have : Proto.register r.print = .ok r := by
    simp only [shown, List.cons_append, List.nil_append, List.mem_cons, List.mem_map, List.mem_range] at hr
    rcases hr with rfl | rfl | rfl | ⟨i, hi, rfl⟩
    · rfl
    · rfl
    · rfl
    · have hne : ∀ s : Str, s.head? ≠ some 'R' → (Reg.gp i).print ≠ s := by
        intro s hs he
        rw [← he] at hs
        exact hs rfl
      unfold Proto.register
      rw [if_neg (hne _ (by decide)), if_neg (hne _ (by decide)), if_neg (hne _ (by decide)), if_neg (hne _ (by decide))]
      have hd : (Reg.gp i).print.drop 1 = ofNat i := rfl
      rw [hd, Proto.unsigned_nat (by omega)]
  rw [this]
  rfl

/-- One value after another. -/
def pokes (s : State) (l : List (Reg × Word)) : State := l.foldl (fun s p => s.poke (.int p.1) p.2) s

theorem setRegisters_total (hg : h.cfg.nreg ≤ c.gp) (h64 : h.cfg.nreg ≤ 2 ^ 64) : ∀ {rs : List (Reg × Word)} {l : Link} {d : Dbg},
    l.Live → Matches h.cfg l.vm d → (∀ p ∈ rs, p.1 ∈ shown h.cfg) →
    ∃ l', Proc.setRegisters h c (rs.map fun p => (p.1.print, p.2)) l = (.ok (), l') ∧ l'.Live ∧
      Matches h.cfg l'.vm { d with state := pokes d.state rs }
  | [], l, d, hl, hm, _ => ⟨l, rfl, hl, hm⟩
  | p :: rs, l, d, hl, hm, hrs => by
    obtain ⟨why, hw⟩ := hl.stopped
    have hp : d.phase = .stopped why := hm.phase.symm.trans hw
    obtain ⟨hi, h1, h2, h3, h4⟩ := hm.live (by rw [hp]; simp) (by rw [hp]; simp)
    have hq := hm.quiet why hp
    have hsh := hrs p (by simp)
    obtain ⟨k, hk⟩ := Option.isSome_iff_exists.1 (key_shown hsh)
    obtain ⟨c', g1, g2, g3⟩ := hi.pokeReg hq hk p.2
    have hm1 : Matches h.cfg ({ l with vm := { l.vm with cpu := c' } } : Link).vm { d with state := d.state.poke (.int p.1) p.2 } := by
      refine ⟨hm.phase, fun _ _ => ⟨g2, ?_, ?_, ?_, ?_⟩, fun w hw => ?_, fun hx => ?_⟩
      · show c'.prog = _; rw [g3]; exact h1
      · show c'.dbg = _; rw [g3]; exact h2
      · show c'.trap = _; rw [g3]; exact h3
      · show c'.retired = _; rw [g3]; exact h4
      · show Quiet c'
        rw [g3]
        exact ⟨hq.1, hq.2, hq.3, hq.4⟩
      · obtain ⟨e1, e2⟩ := hm.run hx
        refine ⟨?_, ?_⟩
        · show (d.state.poke (.int p.1) p.2).halted = false
          unfold State.poke
          split <;> exact e1
        · show c'.stepped = _
          rw [g3]; exact e2
    obtain ⟨l', k1, k2, k3⟩ := setRegisters_total hg h64 (rs := rs) (l := { l with vm := { l.vm with cpu := c' } })
      ⟨hl.1, hl.2, hl.3, hl.4⟩ hm1 fun q hq => hrs q (by simp [hq])
    refine ⟨l', ?_, k2, k3⟩
    rw [List.map_cons, Proc.setRegisters, if_pos (isRegister_shown hsh hg h64)]
    rw [Link.check_eq (hl.ask_eq (parse_pokeReg_eq hsh h64) (c' := c') (rep := .ok) fun w => by
      change (l.vm.cpu.pokeReg h.cfg (.int p.1) p.2 >>= _) = _
      rw [g1]
      rfl)]
    exact k1

theorem pokes_same (s : State) : ∀ rs : List Reg, pokes s (rs.map fun r => (r, s.look (.int r))) = s
  | [] => rfl
  | r :: rs => by
    unfold pokes
    rw [List.map_cons, List.foldl_cons, Proc.poke_look]
    exact pokes_same s rs

/-- Setting a register through the debugger changes this register and nothing else. -/
theorem setRegister_shows {n : Native} {d : Dbg} (hv : View h n d) (hl : n.link.Live) (hg : h.cfg.nreg ≤ c.gp) (h64 : h.cfg.nreg ≤ 2 ^ 64)
    {r : Reg} (hr : r ∈ shown h.cfg) (v : Word) :
    ∃ l', setRegister h c r.print v n = (.ok (), { n with link := l' }) ∧ l'.Live ∧
      View h { n with link := l' } { d with state := d.state.poke (.int r) v } := by
  obtain ⟨why, hw⟩ := hl.stopped
  have hp : d.phase = .stopped why := hv.same.phase.symm.trans hw
  obtain ⟨hi, _⟩ := hv.same.live (by rw [hp]; simp) (by rw [hp]; simp)
  have hm := hi.shows (hv.same.quiet why hp)
  have e : (listed h.cfg d.state).assign r.print v =
      ((((shown h.cfg).filter (fun q => q.print ≠ r.print)).map fun q => (q, d.state.look (.int q))) ++ [(r, v)]).map fun p => (p.1.print, p.2) := by
    unfold Map.assign Map.erase listed
    rw [List.filter_map, List.map_append, List.map_map]
    rfl
  obtain ⟨l', g1, g2, g3⟩ := setRegisters_total (c := c) hg h64 (rs := ((shown h.cfg).filter (fun q => q.print ≠ r.print)).map (fun q => (q, d.state.look (.int q))) ++ [(r, v)])
    hl hv.same (by
      intro p hp
      rcases List.mem_append.1 hp with hp | hp
      · obtain ⟨q, hq, rfl⟩ := List.mem_map.1 hp
        exact (List.mem_filter.1 hq).1
      · rw [List.mem_singleton.1 hp]
        exact hr)
  have hpk : pokes d.state (((shown h.cfg).filter (fun q => q.print ≠ r.print)).map (fun q => (q, d.state.look (.int q))) ++ [(r, v)]) =
      d.state.poke (.int r) v := by
    have := pokes_same d.state ((shown h.cfg).filter (fun q => q.print ≠ r.print))
    unfold pokes at this ⊢
    rw [List.foldl_append, this]
    rfl
  rw [hpk] at g3
  refine ⟨l', ?_, g2, g2.at, g3⟩
  unfold setRegister
  rw [Job.bind_eq (getRegisters_shows hl hm), find_listed _ hr]
  simp only
  unfold setRegisters proc
  rw [e, g1]

end Native
end T86
