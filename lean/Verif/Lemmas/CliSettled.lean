import Verif.Lemmas.CliKeep
import Verif.Lemmas.Careful

/-! Which accesses to memory are under way does not change when registers are written or memory is read or written. -/

namespace T86
open Dbg Str

/-- The same accesses to memory are under way. -/
def Still (l l' : Link) : Prop := l'.vm.cpu.ram.reads = l.vm.cpu.ram.reads ∧ l'.vm.cpu.wm.ws = l.vm.cpu.wm.ws

theorem Still.refl (l : Link) : Still l l := ⟨rfl, rfl⟩

theorem Still.trans {a b c : Link} (h1 : Still a b) (h2 : Still b c) : Still a c := ⟨h2.1.trans h1.1, h2.2.trans h1.2⟩

theorem Still.settled {l l' : Link} (hs : Still l l') {a : Word} (h : l.vm.cpu.settled a) : l'.vm.cpu.settled a := by
  unfold Cpu.settled at h ⊢
  rw [hs.1, hs.2]
  exact h

namespace Link
open Proc

theorem Answer.still {h : Host} {l l' : Link} {k : Cmd} {s : Str} (ha : Answer h l k s l')
    (hk : ∀ c' rep nx why, Cpu.command h.cfg h.gregs h.gram why l.vm.cpu k = .ok (c', rep, nx) →
      nx = .stay ∧ c'.ram.reads = l.vm.cpu.ram.reads ∧ c'.wm.ws = l.vm.cpu.wm.ws)
    (hf : afterFailure k = false) : Still l l' := by
  rcases ha with ⟨why, c', rep, nx, e1, e2, e3, rfl⟩ | ⟨e1, e2 | e2⟩
  · obtain ⟨rfl, h1, h2⟩ := hk _ _ _ _ e2
    exact ⟨h1, h2⟩
  · rw [e2.1] at hf; cases hf
  · rw [e2.1] at hf; cases hf

end Link

namespace Proc
open Link

theorem setRegisters_still {h : Host} {c : Client} : ∀ {m : Map Str Word} {l l' : Link} (_ : l.At),
    setRegisters h c m l = (.ok (), l') → Still l l'
  | [], l, l', hl, hr => by cases hr; exact .refl _
  | (name, v) :: m, l, l', hl, hr => by
    unfold setRegisters at hr
    split at hr
    · obtain ⟨k, t, h1, h2, h3⟩ := ask_check hl hr
      simp only [List.append_assoc] at h1
      obtain ⟨r, w, rfl⟩ := Proto.parse_pokeRegs_any h1
      have hs := Answer.kept hl h2 (fun c' rep nx why e => by
        obtain ⟨c1, hc1, e⟩ := bind_ok_iff.1 (show (l.vm.cpu.pokeReg h.cfg (.int r) w >>= fun c => (pure (c, .ok, .stay) : Res (Cpu × Reply × Next))) = _ from e)
        cases e
        exact ⟨rfl, Cpu.kept_pokeReg hc1⟩) rfl
      have := Answer.still h2 (fun c' rep nx why e => by
        obtain ⟨c1, hc1, e⟩ := bind_ok_iff.1 (show (l.vm.cpu.pokeReg h.cfg (.int r) w >>= fun c => (pure (c, .ok, .stay) : Res (Cpu × Reply × Next))) = _ from e)
        cases e
        unfold Cpu.pokeReg at hc1
        obtain ⟨_, _, hc1⟩ := bind_ok_iff.1 hc1
        obtain ⟨_, _, hc1⟩ := bind_ok_iff.1 hc1
        cases hc1
        exact ⟨rfl, rfl, rfl⟩) rfl
      exact this.trans (setRegisters_still hs.1.1 h3)
    · cases hr

theorem pokeLoop_still {h : Host} : ∀ {m : List Word} {a : Word} {l l' : Link} (_ : l.At),
    pokeLoop h a m l = (.ok (), l') → Still l l'
  | [], a, l, l', hl, hr => by cases hr; exact .refl _
  | v :: m, a, l, l', hl, hr => by
    unfold pokeLoop at hr
    obtain ⟨k, t, h1, h2, h3⟩ := ask_check hl hr
    rw [Proto.parse_pokeData] at h1
    obtain ⟨i, hi, h1⟩ := ebind_ok h1
    cases h1
    have hs := Answer.kept hl h2 (fun c' rep nx why e => by
      obtain ⟨c1, hc1, e⟩ := bind_ok_iff.1 (show (l.vm.cpu.setMemory (BitVec.ofNat 64 i) v >>= fun c => (pure (c, .ok, .stay) : Res (Cpu × Reply × Next))) = _ from e)
      cases e
      unfold Cpu.setMemory at hc1
      obtain ⟨ram, hram, hc1⟩ := bind_ok_iff.1 hc1
      cases hc1
      exact ⟨rfl, rfl, rfl⟩) rfl
    have := Answer.still h2 (fun c' rep nx why e => by
      obtain ⟨c1, hc1, e⟩ := bind_ok_iff.1 (show (l.vm.cpu.setMemory (BitVec.ofNat 64 i) v >>= fun c => (pure (c, .ok, .stay) : Res (Cpu × Reply × Next))) = _ from e)
      cases e
      unfold Cpu.setMemory at hc1
      obtain ⟨ram, hram, hc1⟩ := bind_ok_iff.1 hc1
      cases hc1
      unfold Ram.set at hram
      split at hram
      · cases hram
        exact ⟨rfl, rfl, rfl⟩
      · cases hram) rfl
    exact this.trans (pokeLoop_still hs.1.1 h3)

end Proc

/-- Reads and writes of memory, and writes of registers. -/
def Op.data : Op → Prop
  | .setRegister _ _ => True
  | .readMemory _ _ => True
  | .writeMemory _ _ => True
  | _ => False

namespace Native
open Job Proc

theorem data_still {h : Host} {c : Client} {o : Op} (ho : o.data) {n n' : Native} (hl : n.link.At) (hr : o.run h c n = (.ok (), n')) :
    Still n.link n'.link := by
  cases o <;> first | (exfalso; exact ho) | skip
  case setRegister name v =>
    change setRegister h c name v n = _ at hr
    unfold setRegister at hr
    obtain ⟨r, n1, h1, h2⟩ := bind_ok hr
    have := getRegisters_ok hl h1
    subst this
    cases hf : r.find name with
    | none => rw [hf] at h2; cases h2
    | some w =>
      rw [hf] at h2
      exact setRegisters_still hl (proc_ok h2).1
  case readMemory a m =>
    obtain ⟨r, n1, h1, h2⟩ := bind_ok hr
    cases h2
    have := Proc.readMemory_ok hl (proc_ok h1).1
    rw [this]
    exact .refl _
  case writeMemory a l =>
    have h1 := (proc_ok (show proc (Proc.writeMemory h c a l) n = _ from hr)).1
    unfold Proc.writeMemory at h1
    split at h1
    · cases h1
    · exact pokeLoop_still hl h1

end Native
end T86
