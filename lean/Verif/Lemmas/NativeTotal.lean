import Verif.Lemmas.NativeOps
import Mathlib.Data.List.Perm.Subperm

/-! When the calls of the debugger succeed, and what they return. -/

set_option linter.unusedSimpArgs false
set_option linter.unusedVariables false

namespace T86
open Dbg Str

namespace Link

theorem Live.at {l : Link} (hl : l.Live) : l.At := by
  obtain ⟨why, hw⟩ := hl.stopped
  exact ⟨hl.1, hl.2, by rw [hw]; simp⟩

variable {h : Host} {α : Type}

theorem answer_eq {l l' : Link} {m s : Str} {f : Str → Job Link α} (hr : (send m >>= fun _ => receive h) l = (.ok (some s), l')) :
    (send m >>= fun _ => Proc.answer h >>= f) l = f s l' := by
  obtain ⟨u, l1, h1, h2⟩ := Job.bind_ok hr
  rw [Job.bind_eq h1]
  refine Job.bind_eq ?_
  unfold Proc.answer
  rw [Job.bind_eq h2]
  rfl

theorem check_eq {l l' : Link} {m : Str} {f : Unit → Job Link α} (hr : (send m >>= fun _ => receive h) l = (.ok (some "OK".toList), l')) :
    (send m >>= fun _ => Proc.check h >>= f) l = f () l' := by
  obtain ⟨u, l1, h1, h2⟩ := Job.bind_ok hr
  rw [Job.bind_eq h1]
  refine Job.bind_eq ?_
  unfold Proc.check
  rw [Job.bind_eq h2]
  rfl

theorem check_eq' {l l' : Link} {m : Str} (hr : (send m >>= fun _ => receive h) l = (.ok (some "OK".toList), l')) :
    (send m >>= fun _ => Proc.check h) l = (.ok (), l') := by
  obtain ⟨u, l1, h1, h2⟩ := Job.bind_ok hr
  rw [Job.bind_eq h1]
  unfold Proc.check
  rw [Job.bind_eq h2]
  rfl

theorem fetch_eq {l l' : Link} {m s : Str} {num : Str → Option Word} {r : Map Str Word}
    (hr : (send m >>= fun _ => receive h) l = (.ok (some s), l')) (hm : Proc.regMap num s = .ok r) :
    (send m >>= fun _ => Proc.fetch h num) l = (.ok r, l') := by
  obtain ⟨u, l1, h1, h2⟩ := Job.bind_ok hr
  rw [Job.bind_eq h1]
  unfold Proc.fetch
  rw [Job.bind_eq h2]
  simp only [Job.ofExcept, hm]

theorem leave_stay {l : Link} {why : Reason} (hw : l.vm.phase = .stopped why) :
    ({ l with vm := Vm.leave why l.vm.cpu .stay } : Link) = l := by
  obtain ⟨⟨c, p⟩, a, b, d⟩ := l
  simp only at hw
  subst hw
  rfl

/-- A command that is answered and changes nothing but the processor. -/
theorem Live.ask_eq {l : Link} (hl : l.Live) {k : Cmd} {m : Str} {c' : Cpu} {rep : Reply} (hp : Proto.parse h m = .ok k)
    (hc : ∀ why, Cpu.command h.cfg h.gregs h.gram why l.vm.cpu k = .ok (c', rep, .stay)) :
    (send m >>= fun _ => receive h) l = (.ok (some (Proto.reply h k rep)), { l with vm := { l.vm with cpu := c' } }) := by
  obtain ⟨why, hw⟩ := hl.stopped
  rw [Link.ask_eq hl.1 hl.2 hl.3 hw hp (hc why)]
  obtain ⟨⟨c, p⟩, a, b, d⟩ := l
  simp only at hw
  subst hw
  rfl

end Link

namespace Proc
open Link
variable {h : Host}

theorem textSize_eq {l : Link} (hl : l.Live) (hn : l.vm.cpu.prog.length < 2 ^ 64) :
    textSize h l = (.ok (BitVec.ofNat 64 l.vm.cpu.prog.length), l) := by
  unfold textSize
  rw [answer_eq (hl.ask_eq (Proto.parse_textSize h) fun why => rfl)]
  have e5 : (Proto.reply h .textSize (.count l.vm.cpu.prog.length)).drop "TEXTSIZE:".length = ofNat l.vm.cpu.prog.length := rfl
  simp only [e5, Proto.unsigned_nat hn]
  rfl

theorem readText_eq {l : Link} (hl : l.Live) {a n : Word} (ha : a.toNat < 2 ^ 63) (hn : n.toNat < 2 ^ 63) :
    readText h a n l = (.ok (split (Proto.lines ((l.vm.cpu.peekText a.toNat n.toNat).map (·.print h.ftos))) '\n'), l) := by
  unfold readText
  rw [answer_eq (hl.ask_eq (k := .peekText a.toNat n.toNat) (by
    rw [Proto.parse_peekText, Proto.index_ofNat ha, Proto.index_ofNat hn]
    rfl) fun why => rfl)]
  rfl

theorem writeOne_eq {l : Link} (hl : l.Live) {a : Word} {s : Str} {i : Instr} (hm : Means h s i) (ha : a.toNat < 2 ^ 63)
    (hn : a.toNat < l.vm.cpu.prog.length) {rest : List Str} : writeText h a (s :: rest) l =
      writeText h (a + 1) rest (withProg l (l.vm.cpu.prog.set a.toNat i)) := by
  rw [writeText]
  simp only [parseText_ok.2 hm.1]
  rw [check_eq (hl.ask_eq (k := .pokeText a.toNat i) (c' := { l.vm.cpu with prog := l.vm.cpu.prog.set a.toNat i }) (rep := .ok) (by
    rw [Proto.parse_pokeText h a.toNat hm.1 hm.2, Proto.index_ofNat ha]
    rfl) fun why => by
      change (l.vm.cpu.setText a.toNat i >>= _) = _
      unfold Cpu.setText
      rw [if_pos hn]
      rfl)]
  rfl

theorem withProg_live {l : Link} (hl : l.Live) (Q : List Instr) : (withProg l Q).Live := ⟨hl.1, hl.2, hl.3, hl.4⟩

theorem fetchDebugs_live {l : Link} (hl : l.Live) : fetchDebugRegisters h l = (.ok (listing 0 l.vm.cpu.dbg), l) := by
  unfold fetchDebugRegisters
  refine fetch_eq (hl.ask_eq (Proto.parse_debugs h) fun why => rfl) ?_
  change regMap unsigned (Proto.lines (Proto.numberedLines 'D' 0 (l.vm.cpu.dbg.map fun w => ofNat w.toNat))) = _
  rw [numberedLines_eq, regMap_eq unsigned_text (fun p hp => by
    obtain ⟨j, _, _, e⟩ := mem_listing hp
    rw [e]
    exact field_debugName j) (listing_ok _ _)]

theorem setDebugs_live {m : Map Str Word} : ∀ {l : Link}, l.Live →
    (∀ p ∈ m, ∃ i, i < 5 ∧ p.1 = Arch.debugName i) → ∃ l', setDebugRegisters h m l = (.ok (), l') ∧ l'.Live := by
  induction m with
  | nil => intro l hl _; exact ⟨l, rfl, hl⟩
  | cons p m ih =>
    intro l hl hk
    obtain ⟨name, v⟩ := p
    obtain ⟨i, hi, e⟩ := hk (name, v) (by simp)
    simp only at e
    subst e
    have hnum : isNumbered 'D' 5 (Arch.debugName i) = true := by
      unfold Arch.debugName
      obtain ⟨c, s, hc, hd⟩ := ofNat_head i
      rw [hc]
      unfold isNumbered
      simp only [decide_true, Bool.true_and]
      rw [← hc, Proto.unsigned_nat (by omega)]
      simp [hi]
    obtain ⟨l', h1, h2⟩ := ih (l := withDbg l (l.vm.cpu.dbg.set i v)) ⟨hl.1, hl.2, hl.3, hl.4⟩ fun p hp => hk p (by simp [hp])
    refine ⟨l', ?_, h2⟩
    rw [setDebugRegisters, if_pos hnum]
    unfold Arch.debugName
    rw [check_eq (hl.ask_eq (k := .pokeDebugReg i v) (c' := { l.vm.cpu with dbg := l.vm.cpu.dbg.set i v }) (rep := .ok)
      (Proto.parse_pokeDebugs h i (by omega) v) fun why => by
      change (l.vm.cpu.setDebugReg i v >>= _) = _
      unfold Cpu.setDebugReg
      rw [if_pos hi]
      rfl)]
    exact h1

end Proc

namespace Native
open Proc Job
variable {h : Host} {c : Client} {Tx : Str → Instr → Prop} {P : List Instr} {n : Native} {a m : Word}

theorem readOne_eq (hl : n.link.Live) (ha : a.toNat < 2 ^ 63) (hp : ∀ i, n.link.vm.cpu.prog[a.toNat]? = some i → Plain h i) :
    proc (Proc.readText h a 1) n = (.ok [(fetchAt n.link.vm.cpu.prog a).print h.ftos], n) := by
  have h1 := proc_eq (Proc.readText_eq (h := h) hl ha (n := 1) (by decide))
  have := (readOne_ok hl.at hp h1).2
  rw [h1, this]

theorem create_eq (hl : n.link.Live) {i : Instr} (ha : a.toNat < 2 ^ 63) (hi : n.link.vm.cpu.prog[a.toNat]? = some i) (hp : Plain h i) :
    create h a n = (.ok ⟨i.print h.ftos, true⟩, setProg n (n.link.vm.cpu.prog.set a.toNat .bkpt)) := by
  have hlt : a.toNat < n.link.vm.cpu.prog.length := (List.getElem?_eq_some_iff.1 hi).1
  unfold create
  rw [bind_eq (readOne_eq hl ha (by intro j hj; rw [hi] at hj; cases hj; exact hp))]
  have hf : fetchAt n.link.vm.cpu.prog a = i := by
    unfold fetchAt
    rw [List.getD_eq_getElem?_getD, hi]
    rfl
  rw [hf, bind_eq (x := first _) (t := n) (a := i.print h.ftos) rfl]
  have hw : proc (Proc.writeText h a [Arch.breakpointOpcode]) n = (.ok (), setProg n (n.link.vm.cpu.prog.set a.toNat .bkpt)) := by
    refine proc_eq ?_
    rw [← print_bkpt h, writeOne_eq hl (plain_bkpt h).means ha hlt]
    rfl
  rw [bind_eq hw]
  have hset : (n.link.vm.cpu.prog.set a.toNat .bkpt)[a.toNat]? = some .bkpt := by simp [hlt]
  have hf2 : fetchAt (setProg n (n.link.vm.cpu.prog.set a.toNat .bkpt)).link.vm.cpu.prog a = .bkpt := by
    change fetchAt (n.link.vm.cpu.prog.set a.toNat .bkpt) a = _
    unfold fetchAt
    rw [List.getD_eq_getElem?_getD, hset]
    rfl
  have hr := readOne_eq (h := h) (n := setProg n (n.link.vm.cpu.prog.set a.toNat .bkpt)) (a := a) (withProg_live hl _) ha (by
    intro j hj
    change (n.link.vm.cpu.prog.set a.toNat .bkpt)[a.toNat]? = _ at hj
    rw [hset] at hj
    cases hj
    exact plain_bkpt h)
  rw [hf2] at hr
  rw [bind_eq hr]
  rw [bind_eq (x := first _) (t := setProg n (n.link.vm.cpu.prog.set a.toNat .bkpt)) (a := Instr.print h.ftos .bkpt) rfl]
  rw [print_bkpt, if_neg (by simp)]
  rfl

theorem live_lt (hg : Good h Tx P n) (ha : a.toNat < P.length) : a.toNat < 2 ^ 63 ∧ ∃ i, n.link.vm.cpu.prog[a.toNat]? = some i ∧ Plain h i := by
  have h1 := hg.text.size
  refine ⟨by omega, _, List.getElem?_eq_getElem (by rw [hg.text.length]; exact ha), ?_⟩
  exact hg.text.plainQ (List.getElem?_eq_getElem (by rw [hg.text.length]; exact ha))

theorem setBreakpoint_total (hg : Good h Tx P n) (hl : n.link.Live) (ha : a.toNat < P.length) (hf : n.bps.find a = none) :
    ∃ s, setBreakpoint h a n = (.ok (), { setProg n (n.link.vm.cpu.prog.set a.toNat .bkpt) with bps := n.bps ++ [(a, ⟨s, true⟩)] }) := by
  obtain ⟨h1, i, h2, h3⟩ := live_lt hg ha
  refine ⟨i.print h.ftos, ?_⟩
  unfold setBreakpoint
  rw [bind_eq (x := Job.get) (t := n) (a := n) rfl]
  simp only [hf]
  rw [bind_eq (create_eq hl h1 h2 h3)]
  simp only [Job.modify, Map.emplace, hf]

theorem enable_total (hg : Good h Tx P n) (hl : n.link.Live) {bp : Bp} (hf : n.bps.find a = some bp) :
    ∃ n', enable h a n = (.ok (), n') ∧ n'.link.Live ∧ ∃ s, n'.bps.find a = some ⟨s, true⟩ := by
  obtain ⟨i, hi, hx⟩ := hg.text.saved a bp hf
  obtain ⟨h1, j, h2, h3⟩ := live_lt hg (List.getElem?_eq_some_iff.1 hi).1
  unfold enable
  rw [bind_eq (x := Job.get) (t := n) (a := n) rfl]
  simp only [hf]
  cases he : bp.enabled with
  | true => exact ⟨n, rfl, hl, bp.data, by rw [hf, ← he]⟩
  | false =>
    simp only [Bool.false_eq_true, if_false]
    rw [bind_eq (create_eq hl h1 h2 h3)]
    exact ⟨_, rfl, withProg_live hl _, j.print h.ftos, by simp⟩

theorem disable_total (ht : Texts h Tx) (hg : Good h Tx P n) (hl : n.link.Live) {bp : Bp} (hf : n.bps.find a = some bp) :
    ∃ n', disable h a n = (.ok (), n') ∧ n'.link.Live ∧ n'.bps.find a = some { bp with enabled := false } := by
  obtain ⟨i, hi, hx⟩ := hg.text.saved a bp hf
  obtain ⟨h1, j, h2, h3⟩ := live_lt hg (List.getElem?_eq_some_iff.1 hi).1
  unfold disable
  rw [bind_eq (x := Job.get) (t := n) (a := n) rfl]
  simp only [hf]
  cases he : bp.enabled with
  | false =>
    refine ⟨n, rfl, hl, ?_⟩
    rw [hf, ← he]
  | true =>
    simp only [if_true]
    have hw : proc (Proc.writeText h a [bp.data]) n = (.ok (), setProg n (n.link.vm.cpu.prog.set a.toNat i)) := by
      refine proc_eq ?_
      rw [writeOne_eq hl (ht.means hx) h1 (List.getElem?_eq_some_iff.1 h2).1]
      rfl
    rw [bind_eq hw]
    exact ⟨_, rfl, withProg_live hl _, by simp⟩

theorem unset_total (ht : Texts h Tx) (hg : Good h Tx P n) (hl : n.link.Live) {bp : Bp} (hf : n.bps.find a = some bp) :
    ∃ n', unsetBreakpoint h a n = (.ok (), n') ∧ n'.link.Live ∧ n'.bps.find a = none := by
  obtain ⟨n1, h1, h2, h3⟩ := disable_total ht hg hl hf
  unfold unsetBreakpoint
  rw [bind_eq h1]
  exact ⟨_, rfl, h2, by simp [Map.find_erase]⟩

theorem readText_total (hg : Good h Tx P n) (hl : n.link.Live) (ha : a.toNat + m.toNat ≤ P.length) :
    ∃ r, readText h a m n = (.ok r, n) := by
  have h1 := hg.text.size
  have h2 := hg.text.length
  unfold readText
  have hs : textSize h n = (.ok (BitVec.ofNat 64 n.link.vm.cpu.prog.length), n) := proc_eq (Proc.textSize_eq hl (by omega))
  rw [bind_eq hs]
  have hle : ¬ (a + m).toNat > (BitVec.ofNat 64 n.link.vm.cpu.prog.length).toNat := by
    rw [BitVec.toNat_add, Nat.mod_eq_of_lt (by omega), BitVec.toNat_ofNat, Nat.mod_eq_of_lt (by omega)]
    omega
  rw [if_neg hle]
  have hr : proc (Proc.readText h a m) n = (.ok _, n) := proc_eq (Proc.readText_eq hl (by omega) (by omega))
  rw [bind_eq hr]
  exact ⟨_, rfl⟩

theorem outside_eq (hg : Good h Tx P n) (hl : n.link.Live) {w : Word} (hw : w.toNat > P.length) {β : Type} (x : N β) :
    (textSize h >>= fun size => if w.toNat > size.toNat then Job.throw .debugger else x) n = (.error .debugger, n) := by
  have h1 := hg.text.size
  have h2 := hg.text.length
  have hs : textSize h n = (.ok (BitVec.ofNat 64 n.link.vm.cpu.prog.length), n) := proc_eq (Proc.textSize_eq hl (by omega))
  rw [bind_eq hs, if_pos (by rw [BitVec.toNat_ofNat, Nat.mod_eq_of_lt (by omega)]; omega)]
  rfl

theorem setWatchpoint_total (hg : Good h Tx P n) (hl : n.link.Live) (hf : n.wps.find a = none) (hn : n.wps.length < 4) :
    ∃ n', setWatchpoint h a n = (.ok (), n') ∧ n'.link.Live := by
  have hw := hg.watch
  have hfree : ∃ i, freeRegister n.wps = some i := by
    cases hr : freeRegister n.wps with
    | some i => exact ⟨i, rfl⟩
    | none =>
      exfalso
      unfold freeRegister at hr
      rw [List.find?_eq_none] at hr
      have hsub : List.range 4 ⊆ n.wps.map (·.2) := by
        intro i hi
        have := hr i hi
        simp only [Bool.not_eq_true', Bool.not_eq_false, List.any_eq_true, decide_eq_true_eq] at this
        obtain ⟨w, h1, h2⟩ := this
        exact List.mem_map.2 ⟨w, h1, h2⟩
      have := (List.subperm_of_subset (List.nodup_range (n := 4)) hsub).length_le
      simp at this
      omega
  obtain ⟨i, hi⟩ := hfree
  have hi4 := (freeRegister_some hi).1
  unfold setWatchpoint
  rw [bind_eq (x := Job.get) (t := n) (a := n) rfl]
  simp only [hf, hi]
  have hlist : ∀ j, Map.find (Proc.listing 0 n.link.vm.cpu.dbg) (Arch.debugName j) = n.link.vm.cpu.dbg[j]? := by
    intro j
    have := find_listing 0 n.link.vm.cpu.dbg j
    rwa [Nat.zero_add] at this
  have hlen := hw.length
  have hfe : proc (fetchDebugRegisters h) n = (.ok (Proc.listing 0 n.link.vm.cpu.dbg), n) := proc_eq (fetchDebugs_live hl)
  have hset : Arch.setDebugRegister i a (Proc.listing 0 n.link.vm.cpu.dbg) =
      .ok (Map.assign (Proc.listing 0 n.link.vm.cpu.dbg) (Arch.debugName i) a) := by
    unfold Arch.setDebugRegister Arch.at'
    rw [if_neg (by simp [Arch.debugRegistersCount]; omega), hlist, List.getElem?_eq_getElem (by omega)]
    rfl
  have hact : ∃ v, Arch.activate i (Map.assign (Proc.listing 0 n.link.vm.cpu.dbg) (Arch.debugName i) a) =
      .ok (Map.assign (Map.assign (Proc.listing 0 n.link.vm.cpu.dbg) (Arch.debugName i) a) (Arch.debugName 4) v) := by
    unfold Arch.activate Arch.at'
    rw [show "D4".toList = Arch.debugName 4 from rfl, Map.find_assign, if_neg (fun hc => by have := debugName_inj hc; omega), hlist,
      List.getElem?_eq_getElem (by omega)]
    exact ⟨_, rfl⟩
  obtain ⟨v, hact⟩ := hact
  obtain ⟨l', hl1, hl2⟩ := setDebugs_live (h := h)
    (m := Map.assign (Map.assign (Proc.listing 0 n.link.vm.cpu.dbg) (Arch.debugName i) a) (Arch.debugName 4) v) hl (by
      intro p hp
      rcases mem_assign hp with hp | rfl
      · rcases mem_assign hp with hp | rfl
        · obtain ⟨j, _, h2, h3⟩ := mem_listing hp
          exact ⟨j, by omega, h3⟩
        · exact ⟨i, by omega, rfl⟩
      · exact ⟨4, by omega, rfl⟩)
  rw [bind_eq hfe, hset, bind_eq (x := Job.ofExcept _) (t := n) (a := Map.assign (Proc.listing 0 n.link.vm.cpu.dbg) (Arch.debugName i) a) rfl,
    hact, bind_eq (x := Job.ofExcept _) (t := n) (a := Map.assign (Map.assign (Proc.listing 0 n.link.vm.cpu.dbg) (Arch.debugName i) a) (Arch.debugName 4) v) rfl,
    bind_eq (proc_eq hl1)]
  exact ⟨_, rfl, hl2⟩

end Native
end T86
