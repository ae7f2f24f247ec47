import Verif.Props.ReturnWatch
import Verif.Props.ReturnMeet
import Verif.Lemmas.ReturnLine

/-! # Stepping into a line comes back when a watched address is written (C73) -/

set_option linter.unusedSimpArgs false
set_option linter.unusedVariables false
set_option maxRecDepth 100000

namespace T86
open Dbg Str Native Isa

section
variable {h : Host} {c : Client} {prog P : List Instr} {data : List Word} {inp : List (BitVec 8)} {n : Native}

/-- C73. Stepping into a line comes back when the program writes to a watched address before the next line begins: let the current instruction be
executed, and then `k` more, none of them at the beginning of a line, at a breakpoint or BKPT or writing to a watched address, and let the next
instruction, not at the beginning of a line or at a breakpoint, write to the watched address `a`. It is executed, and the write is reported. -/
theorem C73_line_in_watch {Tx : Str → Instr → Prop} (ht : Texts h Tx) (hs : prog.length < 2 ^ 63) (hp : ∀ i ∈ prog, Plain h i) (hset : Setup h.cfg prog data)
    (hx : Careful h c Tx prog data inp P n) (hl : n.link.Live) (ha : Able h c) (hk : Kempt n) {src : Src.Source} {t : List (Nat × Nat)}
    (hlines : src.lines = some (.ofEntries t)) :
    ∃ s, Native.Shows h n s ∧ ∀ (t1 u v : State) (a : Word) (k fuel : Nat), Clear h.cfg P n.link.vm.cpu.dbg (fun _ => False) 1 s t1 →
      Clear h.cfg P n.link.vm.cpu.dbg (fun x => armed n x.pc = true ∨ ∃ l, entryOf t l = some x.pc.toNat) k t1 u →
      u.halted = false → (¬ ∃ l, entryOf t l = some u.pc.toNat) → armed n u.pc = false → writeAddr u (instrAt P u.pc) = some a →
      (n.wps.find a).isSome = true → step h.cfg P u = .ok v → v.halted = false → k + 2 ≤ fuel → 24 ≤ h.wait →
      Native.Returns (UbPossible h.cfg P) (Src.stepIn h c src fuel n) fun e n' =>
        e = .watchpoint a ∧ Native.Shows h n' v ∧ (∀ a, armed n' a = armed n a) ∧ n'.wps = n.wps := by
  obtain ⟨hf, d, hv⟩ := careful_view ht hs hp hset hx
  obtain ⟨_, ⟨why, hph⟩, hd, _⟩ := getIP_view hv (getIP_total hv hl)
  refine ⟨d.state, hv.shows hph hd, ?_⟩
  rw [dbg_view hv hph]
  intro t1 u v a k fuel h1 h2 hur hul hua hwr hwf hsv hvr hm hw
  have hb := begins_iff hlines
  have hb' : ∀ a, src.Begins a = ∃ l, entryOf t l = some a.toNat := fun a => congrFun hb a
  rcases lineInWatch_total (src := src) ha ht hf hv hph hl hk h1 (by simpa only [hb'] using h2) hur (by rw [hb']; exact hul) hua hwr hwf hsv hvr hm hw with
    ⟨e, n', g1, g2, g3⟩ | g
  · obtain ⟨d', c1, rfl, w, c3⟩ := g3.view
    exact .inl ⟨e, n', g1, g2, c1.shows c3 g3.dead, g3.armed, g3.wps⟩
  · exact .inr g

end

/-- A program that stores a number in its third instruction. -/
def Sample.store : List Instr :=
  [.mov (.val (.reg (.gp 0))) (.imm 3), .mov (.val (.reg (.gp 1))) (.imm 4), .mov (.memImm 8) (.val (.reg (.gp 1))), .halt]

/-- Non-vacuity: with the address 8 watched, the third instruction, in the middle of the only line of the program, writes to it. -/
example :
    Careful Sample.host Sample.client (fun s i => s = i.print Sample.host.ftos ∧ Plain Sample.host i) Sample.store [] [] Sample.store
      (Sample.after (Sample.started Sample.store) [.watch 8]) ∧
    Setup Sample.host.cfg Sample.store [] ∧ (Sample.after (Sample.started Sample.store) [.watch 8]).link.Live ∧ Kempt (Sample.after (Sample.started Sample.store) [.watch 8]) ∧ Able Sample.host Sample.client ∧ 24 ≤ Sample.host.wait ∧
    (∃ t1 u v, Clear Sample.host.cfg Sample.store (Sample.after (Sample.started Sample.store) [.watch 8]).link.vm.cpu.dbg (fun _ => False) 1 (Isa.start Sample.cfg [] []) t1 ∧
      Clear Sample.host.cfg Sample.store (Sample.after (Sample.started Sample.store) [.watch 8]).link.vm.cpu.dbg (fun x => armed (Sample.after (Sample.started Sample.store) [.watch 8]) x.pc = true ∨ ∃ l, entryOf [(0, 0)] l = some x.pc.toNat) 1 t1 u ∧
      u.halted = false ∧ (¬ ∃ l, entryOf [(0, 0)] l = some u.pc.toNat) ∧ armed (Sample.after (Sample.started Sample.store) [.watch 8]) u.pc = false ∧
      writeAddr u (instrAt Sample.store u.pc) = some 8 ∧ ((Sample.after (Sample.started Sample.store) [.watch 8]).wps.find 8).isSome = true ∧ step Sample.host.cfg Sample.store u = .ok v ∧
      v.halted = false ∧ v.pc = 3) ∧
    (Src.stepIn Sample.host Sample.client { lines := some (.ofEntries [(0, 0)]) } 3 (Sample.after (Sample.started Sample.store) [.watch 8])).1 = .ok (.watchpoint 8) := by
  have hd : (Sample.after (Sample.started Sample.store) [.watch 8]).link.vm.cpu.dbg = [8, 0, 0, 0, 1] := by decide +kernel
  have hw : (Sample.after (Sample.started Sample.store) [.watch 8]).wps = [(8, 0)] := by decide +kernel
  have hb : (Sample.after (Sample.started Sample.store) [.watch 8]).bps = [] := by decide +kernel
  have ha : ∀ a, armed (Sample.after (Sample.started Sample.store) [.watch 8]) a = false := by
    intro a
    unfold armed
    rw [hb]
    rfl
  have hx : ∀ k : Nat, k ≠ 0 → ¬ ∃ l, entryOf [(0, 0)] l = some k := by
    rintro k hk ⟨l, hl⟩
    by_cases h0 : l = 0
    · subst h0
      have h1 : entryOf [(0, 0)] 0 = some 0 := by decide
      rw [h1] at hl
      exact hk (Option.some.inj hl).symm
    · have h2 : ¬ 0 = l := fun e => h0 e.symm
      simp [entryOf, h0, h2] at hl
  refine ⟨Sample.careful (Sample.starts (by decide +kernel)) (by decide) (by decide +kernel), ⟨by decide, by decide, by decide⟩,
    ⟨by decide +kernel, by decide +kernel, by decide +kernel, ⟨.begin, by decide +kernel⟩⟩, ?_,
    ⟨by decide, by decide, by decide, by decide, by decide⟩, by decide, ?_, by decide +kernel⟩
  · unfold Kempt
    rw [hd, hw]
    decide
  · rw [hd, hw]
    refine ⟨_, _, _, ⟨rfl, id, by decide, _, rfl, rfl⟩, ⟨rfl, ?_, by decide, _, rfl, rfl⟩, rfl, hx _ (by decide), ha _, rfl, by decide, rfl, rfl, by decide⟩
    rintro (h | h)
    · rw [ha] at h; cases h
    · exact hx _ (by decide) h

end T86
