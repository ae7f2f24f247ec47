import Verif.Lemmas.NativeOps
import Verif.Lemmas.Resume
import Verif.Lemmas.Fit

/-! The machine behind a debugger session corresponds to the debugged sequential machine. -/

set_option linter.unusedSimpArgs false
set_option linter.unusedVariables false

namespace T86
open Dbg Str Isa

/-- The machine corresponds to some state of the debugged sequential machine and is able to make progress. -/
def Stood (h : Host) (vm : Vm) : Prop := ∃ d, Matches h.cfg vm d ∧ Fit h.cfg vm

namespace Link
variable {h : Host}

/-- An answer comes from a step of the machine. -/
theorem Answer.step {l l' : Link} {k : Cmd} {s : Str} (ha : Answer h l k s l') :
    ∃ rs, l.vm.step h.cfg h.gregs h.gram (.cmd k) = .ok (l'.vm, rs) := by
  rcases ha with ⟨why, c', rep, nx, h1, h2, _, rfl⟩ | ⟨h1, ⟨rfl, _, rfl⟩ | ⟨h2, h3, rfl⟩⟩
  · refine ⟨[rep], ?_⟩
    simp only [Vm.step, h1, h2]
    rfl
  · exact ⟨_, by simp only [Vm.step, h1]; rfl⟩
  · cases k <;> simp [afterFailure] at h2 h3 <;> exact ⟨_, by simp only [Vm.step, h1]; rfl⟩

theorem Answer.stood {l l' : Link} {k : Cmd} {s : Str} (ha : Answer h l k s l') (hs : Stood h l.vm) (hk : l.vm.safe h.cfg (.cmd k)) :
    Stood h l'.vm := by
  obtain ⟨rs, e⟩ := ha.step
  obtain ⟨d, hd, hf⟩ := hs
  obtain ⟨d', _, h1⟩ := step_of_matches hd hk e
  exact ⟨d', h1, step_fit hd hf e⟩

end Link

namespace Proc
open Link
variable {h : Host} {c : Client}

theorem setRegisters_stood : ∀ {m : Map Str Word} {l l' : Link} (hl : l.At), Stood h l.vm →
    setRegisters h c m l = (.ok (), l') → Stood h l'.vm
  | [], l, l', hl, hs, hr => by cases hr; exact hs
  | (name, v) :: m, l, l', hl, hs, hr => by
    unfold setRegisters at hr
    split at hr
    · rename_i hn
      obtain ⟨k, t, h1, h2, h3⟩ := ask_check hl hr
      simp only [List.append_assoc] at h1
      obtain ⟨r, w, rfl⟩ := Proto.parse_pokeRegs_any h1
      have hk := Answer.kept hl h2 (fun c' rep nx why e => by
        obtain ⟨c1, hc1, e⟩ := bind_ok_iff.1 (show (l.vm.cpu.pokeReg h.cfg (.int r) w >>= fun c => (pure (c, .ok, .stay) : Res (Cpu × Reply × Next))) = _ from e)
        cases e
        exact ⟨rfl, Cpu.kept_pokeReg hc1⟩) rfl
      exact setRegisters_stood hk.1.1 (h2.stood hs trivial) h3
    · cases hr

theorem setFloats_stood : ∀ {m : Map Str Word} {l l' : Link} (hl : l.At), Stood h l.vm →
    setFloatRegisters h c m l = (.ok (), l') → Stood h l'.vm
  | [], l, l', hl, hs, hr => by cases hr; exact hs
  | (name, v) :: m, l, l', hl, hs, hr => by
    unfold setFloatRegisters at hr
    split at hr
    · rename_i hn
      obtain ⟨k, t, h1, h2, h3⟩ := ask_check hl hr
      simp only [List.append_assoc] at h1
      obtain ⟨r, w, rfl⟩ := Proto.parse_pokeFloats_any h1
      have hk := Answer.kept hl h2 (fun c' rep nx why e => by
        obtain ⟨c1, hc1, e⟩ := bind_ok_iff.1 (show (l.vm.cpu.pokeReg h.cfg (.flt r) w >>= fun c => (pure (c, .ok, .stay) : Res (Cpu × Reply × Next))) = _ from e)
        cases e
        exact ⟨rfl, Cpu.kept_pokeReg hc1⟩) rfl
      exact setFloats_stood hk.1.1 (h2.stood hs trivial) h3
    · cases hr

theorem setDebugs_stood : ∀ {m : Map Str Word} {l l' : Link} (hl : l.At), Stood h l.vm →
    (∀ p ∈ m, ∃ i, i < 5 ∧ p.1 = Arch.debugName i) → setDebugRegisters h m l = (.ok (), l') → Stood h l'.vm
  | [], l, l', hl, hs, _, hr => by cases hr; exact hs
  | (name, v) :: m, l, l', hl, hs, hm, hr => by
    obtain ⟨i, hi, hn⟩ := hm _ (List.mem_cons_self ..)
    simp only at hn
    subst hn
    have hr0 := hr
    unfold setDebugRegisters at hr
    split at hr
    · obtain ⟨k, t, h1, h2, h3⟩ := ask_check hl hr
      have e := Proto.parse_pokeDebugs h i (by omega) v
      rw [show Arch.debugName i = 'D' :: ofNat i from rfl, e] at h1
      cases h1
      have hk := h2.stood hs trivial
      have hat : t.At := by
        rcases h2 with ⟨why, c', rep, nx, e1, e2, e3, rfl⟩ | ⟨e1, ⟨e2, _, _⟩ | ⟨e2, _, _⟩⟩
        · obtain ⟨c1, hc1, e2⟩ := bind_ok_iff.1 (show (l.vm.cpu.setDebugReg i v >>= fun c => (pure (c, .ok, .stay) : Res (Cpu × Reply × Next))) = _ from e2)
          cases e2
          exact ⟨hl.1, hl.2, by simp [Vm.leave]⟩
        · cases e2
        · cases e2
      exact setDebugs_stood hat hk (fun p hp => hm p (List.mem_cons_of_mem _ hp)) h3
    · cases hr

theorem pokeLoop_stood : ∀ {m : List Word} {a : Word} {l l' : Link} (hl : l.At), Stood h l.vm →
    (∀ j, j < m.length → l.vm.cpu.settled (a + BitVec.ofNat 64 j)) →
    pokeLoop h a m l = (.ok (), l') → Stood h l'.vm
  | [], a, l, l', hl, hs, _, hr => by cases hr; exact hs
  | v :: m, a, l, l', hl, hs, hst, hr => by
    unfold pokeLoop at hr
    obtain ⟨k, t, h1, h2, h3⟩ := ask_check hl hr
    rw [Proto.parse_pokeData] at h1
    obtain ⟨i, e1, e2⟩ := ebind_ok h1
    cases e2
    have hi : BitVec.ofNat 64 i = a := by
      by_cases ha : a.toNat < 2 ^ 63
      · rw [Proto.index_ofNat ha] at e1
        cases e1
        simp
      · rw [Proto.index_large ha] at e1
        cases e1
    have hk := h2.stood hs (show l.vm.cpu.settled (BitVec.ofNat 64 i) by
      rw [hi]
      have := hst 0 (by simp)
      simpa using this)
    rcases h2 with ⟨why, c', rep, nx, g1, g2, g3, rfl⟩ | ⟨g1, ⟨g2, _, _⟩ | ⟨g2, _, _⟩⟩
    · obtain ⟨c1, hc1, g2⟩ := bind_ok_iff.1 (show (l.vm.cpu.setMemory (BitVec.ofNat 64 i) v >>= fun c => (pure (c, .ok, .stay) : Res (Cpu × Reply × Next))) = _ from g2)
      cases g2
      refine pokeLoop_stood (l := { l with vm := Vm.leave why c' .stay }) ⟨hl.1, hl.2, by simp [Vm.leave]⟩ hk ?_ h3
      intro j hj
      have := hst (j + 1) (by simp; omega)
      have ea : a + BitVec.ofNat 64 (j + 1) = a + 1 + BitVec.ofNat 64 j := by
        rw [BitVec.add_assoc]
        congr 1
        apply BitVec.eq_of_toNat_eq
        simp
        omega
      rw [ea] at this
      unfold Cpu.setMemory at hc1
      obtain ⟨ram, hram, hc1⟩ := bind_ok_iff.1 hc1
      cases hc1
      unfold Ram.set at hram
      split at hram
      · cases hram
        exact this
      · cases hram
    · cases g2
    · cases g2

theorem matches_setText {l : Link} {d : Dbg} {why : Reason} (hm : Matches h.cfg l.vm d) (hp : d.phase = .stopped why) {i : Nat} {ins : Instr}
    (hw : ins.wf h.cfg = true) (hi : i < l.vm.cpu.prog.length) :
    Matches h.cfg (withProg l (l.vm.cpu.prog.set i ins)).vm { d with prog := d.prog.set i ins } := by
  have hph : l.vm.phase = .stopped why := hm.phase.trans hp
  obtain ⟨_, p1, _⟩ := hm.live (by rw [hp]; simp) (by rw [hp]; simp)
  have e : l.vm.step h.cfg h.gregs h.gram (.cmd (.pokeText i ins)) = .ok ((withProg l (l.vm.cpu.prog.set i ins)).vm, [.ok]) := by
    simp only [Vm.step, hph, Cpu.command, Cpu.setText, if_pos hi, withProg]
    rfl
  obtain ⟨d', h1, h2⟩ := step_of_matches hm (i := .cmd (.pokeText i ins)) hw e
  cases h1 with
  | command hs hc =>
    change (if i < d.prog.length then (Except.ok ({ d with prog := d.prog.set i ins }, Reply.ok) : Res (Dbg × Reply)) else _) = _ at hc
    rw [if_pos (by rw [← p1]; exact hi)] at hc
    cases hc
    exact h2
  | leave hs => rw [hp] at hs; cases hs

/-- Writing text. -/
theorem writeText_stood : ∀ {m : List Str} {a : Word} {l l' : Link} (hl : l.At), Stood h l.vm →
    (∀ s ∈ m, '"' ∉ s ∧ ∀ i, Asm.oneInstruction.run h.stod s = .ok i → i.wf h.cfg = true) →
    writeText h a m l = (.ok (), l') → Stood h l'.vm
  | [], a, l, l', hl, hs, _, hr => by cases hr; exact hs
  | s :: m, a, l, l', hl, hs, hm, hr => by
    obtain ⟨hq, hw⟩ := hm s (List.mem_cons_self ..)
    have hr0 := hr
    obtain ⟨i, h1, h2, h3, h4⟩ := writeText_cons hl hq hr
    refine writeText_stood h3 ?_ (fun s hs => hm s (List.mem_cons_of_mem _ hs)) h4
    unfold writeText at hr0
    rw [parseText_ok.2 h1] at hr0
    obtain ⟨k, t, e1, e2, e3⟩ := ask_check hl hr0
    rw [Proto.parse_pokeText h _ h1 hq] at e1
    obtain ⟨j, e4, e5⟩ := ebind_ok e1
    cases e5
    have hj : j = a.toNat := by
      by_cases ha : a.toNat < 2 ^ 63
      · rw [Proto.index_ofNat ha] at e4
        cases e4
        rfl
      · rw [Proto.index_large ha] at e4
        cases e4
    rw [hj] at e2
    have hst := e2.stood hs (hw i h1)
    rcases e2 with ⟨why, c', rep, nx, g1, g2, g3, rfl⟩ | ⟨g1, ⟨g2, _, _⟩ | ⟨g2, _, _⟩⟩
    · obtain ⟨c1, hc1, g2⟩ := bind_ok_iff.1 (show (l.vm.cpu.setText a.toNat i >>= fun c => (pure (c, .ok, .stay) : Res (Cpu × Reply × Next))) = _ from g2)
      cases g2
      unfold Cpu.setText at hc1
      rw [if_pos h2] at hc1
      cases hc1
      have : Vm.leave why { l.vm.cpu with prog := l.vm.cpu.prog.set a.toNat i } .stay = (withProg l (l.vm.cpu.prog.set a.toNat i)).vm := by
        simp [Vm.leave, withProg, g1]
      rw [← this]
      exact hst
    · cases g2
    · cases g2

theorem go_stood {l l' : Link} {m : Str} {u : Unit} (hl : l.At) (hs : Stood h l.vm)
    (hm : Proto.parse h m = .ok .cont ∨ Proto.parse h m = .ok .step)
    (hr : (send m >>= fun _ => check h) l = (.ok u, l')) : Stood h l'.vm := by
  obtain ⟨k, h1, h2⟩ := ask_check' hl hr
  refine h2.stood hs ?_
  rcases hm with hm | hm <;> (rw [hm] at h1; cases h1; trivial)

/-- Waiting. -/
theorem wait_stood {s : Str} : ∀ {fuel : Nat} {l l' : Link}, l.toVm = [] → Stood h l.vm →
    receiveLoop h fuel l = (.ok (some s), l') → Stood h l'.vm := by
  intro fuel
  induction fuel with
  | zero =>
    intro l l' hv hl hr
    unfold receiveLoop at hr
    cases hd : l.toDbg with
    | nil => rw [hd] at hr; cases hr
    | cons m rest => rw [hd] at hr; cases hr; exact hl
  | succ fuel ih =>
    intro l l' hv hl hr
    unfold receiveLoop at hr
    cases hd : l.toDbg with
    | cons m rest => rw [hd] at hr; cases hr; exact hl
    | nil =>
      rw [hd] at hr
      simp only at hr
      cases ht : turn h l with
      | error e => rw [ht] at hr; cases hr
      | ok o =>
        rw [ht] at hr
        cases o with
        | none => cases hr
        | some t =>
          unfold turn at ht
          split at ht
          · cases ht
          · rename_i hdead
            split at ht
            · cases ht
            · rename_i hp
              cases hv2 : l.vm.step h.cfg h.gregs h.gram .tick with
              | error f =>
                rw [hv2] at ht
                cases f <;> cases ht <;> exact ih (l := { l with dead := true }) hv hl hr
              | ok x =>
                obtain ⟨vm, rs⟩ := x
                rw [hv2] at ht
                cases ht
                obtain ⟨d, hd, hf⟩ := hl
                obtain ⟨d', _, h1⟩ := step_of_matches hd (i := .tick) trivial hv2
                exact ih (l := { l with vm := vm, toDbg := _ }) hv ⟨d', h1, step_fit hd hf hv2⟩ hr
            · rw [hv] at ht
              cases ht

end Proc
end T86
