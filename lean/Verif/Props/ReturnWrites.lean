import Verif.Props.ReturnLine
import Verif.Lemmas.ReturnWrites

/-! # Stepping by lines and out of functions comes back when a watched address is written (C73) -/

set_option linter.unusedSimpArgs false
set_option linter.unusedVariables false
set_option maxRecDepth 100000

namespace T86
open Dbg Str Native Isa

section
variable {h : Host} {c : Client} {prog P : List Instr} {data : List Word} {inp : List (BitVec 8)} {n : Native}

/-- C73. Stepping out comes back when the program writes to a watched address before the current function returns: let the program pass over
some instructions, with their callees if they are calls, and let the `m`-th, or its callee if it is a call, write to the watched address `a`, with
`v` as the result (see `WritesIn`). The write is reported, in the state `v`. The breakpoints are as they were. -/
theorem C73_out_watch (hs : prog.length < 2 ^ 63) (hp : ∀ i ∈ prog, Plain h i) (hset : Setup h.cfg prog data)
    (hx : Careful h c (fun s i => s = i.print h.ftos ∧ Plain h i) prog data inp P n) (hl : n.link.Live) (ha : Able h c) (hkempt : Kempt n)
    (hall : ∀ a bp, n.bps.find a = some bp → bp.enabled = true) (hnb : ∀ a, armed n a = true → instrAt P a ≠ .bkpt) :
    ∃ s, Native.Shows h n s ∧ ∀ (v : State) (a : Word) (k m fuel : Nat), (n.wps.find a).isSome = true →
      OutWrites h.cfg P n.link.vm.cpu.dbg (fun a => armed n a = true) k a v m s → k + 2 ≤ fuel → m ≤ fuel → 24 * (k + 2) ≤ h.wait →
      Native.Returns (UbPossible h.cfg P) (Native.stepOut h c fuel n) fun e n' =>
        e = .watchpoint a ∧ Native.Shows h n' v ∧ (∀ a, armed n' a = armed n a) ∧ n'.wps = n.wps := by
  obtain ⟨hf, d, hv⟩ := careful_view (texts_print h) hs hp hset hx
  obtain ⟨_, ⟨why, hph⟩, hd, _⟩ := getIP_view hv (getIP_total hv hl)
  refine ⟨d.state, hv.shows hph hd, ?_⟩
  rw [dbg_view hv hph]
  intro v a k m fuel hwf hli hk hm hw
  unfold Native.stepOut
  rcases outWrites_total (skip := true) ha hwf (by have := hkempt; unfold Kempt at this; rwa [dbg_view hv hph] at this) hnb hk hw hf hv hph hl rfl (fun _ => rfl) rfl (dom_armed hall) (by simp) (by simp) hm hli with ⟨e, n', g1, g2, g3⟩ | g
  · obtain ⟨d', c1, rfl, w, c3⟩ := g3.view
    exact .inl ⟨e, n', g1, g2, c1.shows c3 g3.dead, g3.armed, g3.wps⟩
  · exact .inr g

/-- C73. Stepping over a line comes back when the program writes to a watched address before the next line begins, as in `C73_out_watch`. -/
theorem C73_line_watch (hs : prog.length < 2 ^ 63) (hp : ∀ i ∈ prog, Plain h i) (hset : Setup h.cfg prog data)
    (hx : Careful h c (fun s i => s = i.print h.ftos ∧ Plain h i) prog data inp P n) (hl : n.link.Live) (ha : Able h c) (hkempt : Kempt n)
    {src : Src.Source} {t : List (Nat × Nat)} (hlines : src.lines = some (.ofEntries t))
    (hall : ∀ a bp, n.bps.find a = some bp → bp.enabled = true) (hnb : ∀ a, armed n a = true → instrAt P a ≠ .bkpt) :
    ∃ s, Native.Shows h n s ∧ ∀ (v : State) (a : Word) (k m fuel : Nat), (n.wps.find a).isSome = true →
      LineWrites h.cfg P n.link.vm.cpu.dbg (fun a => armed n a = true) (fun a => ∃ l, entryOf t l = some a.toNat) k a v m s →
      k + 2 ≤ fuel → m ≤ fuel → 24 * (k + 2) ≤ h.wait →
      Native.Returns (UbPossible h.cfg P) (Src.stepOver h c src fuel n) fun e n' =>
        e = .watchpoint a ∧ Native.Shows h n' v ∧ (∀ a, armed n' a = armed n a) ∧ n'.wps = n.wps := by
  obtain ⟨hf, d, hv⟩ := careful_view (texts_print h) hs hp hset hx
  obtain ⟨_, ⟨why, hph⟩, hd, _⟩ := getIP_view hv (getIP_total hv hl)
  refine ⟨d.state, hv.shows hph hd, ?_⟩
  rw [dbg_view hv hph, ← begins_iff hlines]
  intro v a k m fuel hwf hli hk hm hw
  rcases lineWrites_total ha hf hv hph hl (dom_armed hall) hnb hkempt hwf hli hk hm hw with ⟨e, n', g1, g2, g3⟩ | g
  · obtain ⟨d', c1, rfl, w, c3⟩ := g3.view
    exact .inl ⟨e, n', g1, g2, c1.shows c3 g3.dead, g3.armed, g3.wps⟩
  · exact .inr g

end

/-- A program with a call of a function that stores a number at once. -/
def Sample.puts : List Instr :=
  [.mov (.val (.reg (.gp 0))) (.imm 3), .call (.imm 3), .halt, .mov (.memImm 8) (.val (.reg (.gp 0))), .ret]

/-- Non-vacuity of `C73_out_watch` and `C73_line_watch`: in the session with this program, with the address 8 watched, the first instruction is
passed over, and the callee of the second, a call, writes to 8; stepping out and stepping over the only line of the program come back there. -/
example :
    Careful Sample.host Sample.client (fun s i => s = i.print Sample.host.ftos ∧ Plain Sample.host i) Sample.puts [] [] Sample.puts (Sample.after (Sample.started Sample.puts) [.watch 8]) ∧
    Setup Sample.host.cfg Sample.puts [] ∧ (Sample.after (Sample.started Sample.puts) [.watch 8]).link.Live ∧ Able Sample.host Sample.client ∧ Kempt (Sample.after (Sample.started Sample.puts) [.watch 8]) ∧ 24 * (0 + 2) ≤ Sample.host.wait ∧
    (Sample.after (Sample.started Sample.puts) [.watch 8]).bps = [] ∧ ((Sample.after (Sample.started Sample.puts) [.watch 8]).wps.find 8).isSome = true ∧
    (∃ v, v.pc = 4 ∧
      OutWrites Sample.host.cfg Sample.puts (Sample.after (Sample.started Sample.puts) [.watch 8]).link.vm.cpu.dbg (fun a => armed (Sample.after (Sample.started Sample.puts) [.watch 8]) a = true) 0 8 v 2 (Isa.start Sample.cfg [] []) ∧
      LineWrites Sample.host.cfg Sample.puts (Sample.after (Sample.started Sample.puts) [.watch 8]).link.vm.cpu.dbg (fun a => armed (Sample.after (Sample.started Sample.puts) [.watch 8]) a = true) (fun a => ∃ l, entryOf [(0, 0)] l = some a.toNat) 0 8 v 2
        (Isa.start Sample.cfg [] [])) ∧
    (Native.stepOut Sample.host Sample.client 2 (Sample.after (Sample.started Sample.puts) [.watch 8])).1 = .ok (.watchpoint 8) ∧
    (Src.stepOver Sample.host Sample.client { lines := some (.ofEntries [(0, 0)]) } 2 (Sample.after (Sample.started Sample.puts) [.watch 8])).1 = .ok (.watchpoint 8) := by
  have hd : (Sample.after (Sample.started Sample.puts) [.watch 8]).link.vm.cpu.dbg = [8, 0, 0, 0, 1] := by decide +kernel
  have hw : (Sample.after (Sample.started Sample.puts) [.watch 8]).wps = [(8, 0)] := by decide +kernel
  have hb : (Sample.after (Sample.started Sample.puts) [.watch 8]).bps = [] := by decide +kernel
  have ha : ∀ a, ¬ armed (Sample.after (Sample.started Sample.puts) [.watch 8]) a = true := by
    intro a
    unfold armed
    rw [hb]
    exact Bool.false_ne_true
  have hx : ¬ ∃ l, entryOf [(0, 0)] l = some (1 : Word).toNat := by
    rintro ⟨l, hl⟩
    have h1 : ((1 : Word).toNat) = 1 := rfl
    rw [h1] at hl
    by_cases h0 : l = 0
    · subst h0; exact absurd hl (by decide)
    · have h2 : ¬ 0 = l := fun e => h0 e.symm
      simp [entryOf, h0, h2] at hl
  refine ⟨Sample.careful (Sample.starts (by decide +kernel)) (by decide) (by decide +kernel), ⟨by decide, by decide, by decide⟩,
    ⟨by decide +kernel, by decide +kernel, by decide +kernel, ⟨.begin, by decide +kernel⟩⟩,
    ⟨by decide, by decide, by decide, by decide, by decide⟩, ?_, by decide, hb, by rw [hw]; decide, ?_, by decide +kernel, by decide +kernel⟩
  · unfold Kempt
    rw [hd, hw]
    decide
  rw [hd]
  have hcall : ∀ s s1 v : State, s.pc = 1 → s.halted = false → stopCode [8, 0, 0, 0, 1] s (.call (.imm 3)) = 0 →
      step Sample.host.cfg Sample.puts s = .ok s1 → s1.halted = false → s1.pc = 3 → writeAddr s1 (instrAt Sample.puts s1.pc) = some 8 →
      step Sample.host.cfg Sample.puts s1 = .ok v → v.halted = false → v.pc = 4 →
      WritesIn Sample.host.cfg Sample.puts [8, 0, 0, 0, 1] (fun a => armed (Sample.after (Sample.started Sample.puts) [.watch 8]) a = true) 0 s 8 v := by
    intro s s1 v h1 h2 h3 h4 h5 h6 h11 h12 h13 h14
    exact ⟨by rw [h1]; decide, .inl ⟨.imm 3, s1, s1, 0, Nat.le_refl _, by rw [h1]; decide, by rw [h1]; rfl, h3, h2, h4, h5, by rw [h1, h6]; decide, ha _,
      by rw [h1]; decide, rfl, h5, ha _, by rw [h1, h6]; decide, h11, h12, h13, by rw [h1, h14]; decide⟩⟩
  refine ⟨_, ?_, .more ⟨by decide, .inr ⟨fun o h => (by cases h), ⟨rfl, id, by decide, _, rfl, rfl⟩, rfl⟩⟩ (by decide) (ha _)
      (.last (hcall _ _ _ rfl rfl (by decide) rfl rfl rfl rfl rfl rfl rfl)),
    .more ⟨by decide, .inr ⟨fun o h => (by cases h), ⟨rfl, id, by decide, _, rfl, rfl⟩, rfl⟩⟩ hx (ha _)
      (.last (hcall _ _ _ rfl rfl (by decide) rfl rfl rfl rfl rfl rfl rfl))⟩
  rfl

end T86
