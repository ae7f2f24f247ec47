import Verif.Lemmas.Res
import Verif.Model.Vm

/-! What a tick leaves alone: the program, the addresses in the debug registers and their activation bits. -/

set_option linter.unusedSimpArgs false
set_option linter.unusedVariables false

namespace T86

/-- The debug registers differ at most in the hit marks of the control register. -/
structure Marks (dbg dbg' : List Word) : Prop where
  length : dbg'.length = dbg.length
  addr : ∀ i, i < 4 → dbg'.getD i 0 = dbg.getD i 0
  active : ∀ i, i < 8 → (dbg'.getD 4 0).getLsbD i = (dbg.getD 4 0).getLsbD i

theorem Marks.refl (dbg : List Word) : Marks dbg dbg := ⟨rfl, fun _ _ => rfl, fun _ _ => rfl⟩

theorem Marks.trans {a b c : List Word} (h1 : Marks a b) (h2 : Marks b c) : Marks a c :=
  ⟨h2.length.trans h1.length, fun i hi => (h2.addr i hi).trans (h1.addr i hi), fun i hi => (h2.active i hi).trans (h1.active i hi)⟩

/-- The program is the same and the debug registers differ at most in the hit marks. -/
structure Kept (c c' : Cpu) : Prop where
  prog : c'.prog = c.prog
  dbg : Marks c.dbg c'.dbg

theorem Kept.refl (c : Cpu) : Kept c c := ⟨rfl, .refl _⟩
theorem Kept.trans {a b c : Cpu} (h1 : Kept a b) (h2 : Kept b c) : Kept a c := ⟨h2.prog.trans h1.prog, h1.dbg.trans h2.dbg⟩
theorem Kept.same {c c' : Cpu} (h1 : c'.prog = c.prog) (h2 : c'.dbg = c.dbg) : Kept c c' := ⟨h1, by rw [h2]; exact .refl _⟩

namespace Cpu
variable {cfg : Cfg}

def any : Fault → Prop := fun _ => True

/-- A part of a tick leaves these alone. -/
def Keeps (c : Cpu) (x : Res Cpu) : Prop := Sat x (Kept c) any

theorem Keeps.ok {c c' : Cpu} (h : Kept c c') : Keeps c (.ok c') := h

theorem Keeps.bind {c : Cpu} {x : Res Cpu} {f : Cpu → Res Cpu} (h : Keeps c x) (k : ∀ c', Kept c c' → Keeps c (f c')) :
    Keeps c (x >>= f) := Sat.bind h k

/-- Intermediate results about which nothing needs to be known. -/
theorem Keeps.any {α : Type} {c : Cpu} {x : Res α} {f : α → Res Cpu} (k : ∀ a, Keeps c (f a)) : Keeps c (x >>= f) := by
  cases x with
  | ok a => exact k a
  | error e => trivial

theorem Keeps.error {c : Cpu} {f : Fault} : Keeps c (.error f) := trivial

theorem Keeps.from {c c' : Cpu} {x : Res Cpu} (k : Keeps c' x) (h : Kept c c') : Keeps c x := by
  cases x with
  | ok a => exact h.trans k
  | error e => trivial

theorem keeps_flush (c : Cpu) : Keeps c (flushPipeline c) := by
  unfold flushPipeline clearStation
  exact .bind (x := _) (.any fun _ => .ok (.same rfl rfl)) fun c' h => .ok (h.trans (.same rfl rfl))

theorem keeps_assignRat (c : Cpu) (t : Rat) : Keeps c (assignRat c t) := by
  unfold assignRat
  exact .any fun _ => .any fun _ => .ok (.same rfl rfl)

theorem keeps_unroll (c : Cpu) (t : Rat) : Keeps c (unroll cfg c t) := by
  unfold unroll
  refine .bind (x := _) (keeps_flush c) fun c1 h1 => ?_
  refine .bind (x := _) ((keeps_assignRat c1 t).from h1) fun c2 h2 => ?_
  exact .any fun _ => .ok (h2.trans (.same rfl rfl))

theorem marks_hit (dbg : List Word) {i : Nat} (hi : i < 4) : Marks dbg (dbg.set 4 (markHit (dbg.getD 4 0) i)) := by
  refine ⟨by simp, fun j hj => ?_, fun j hj => ?_⟩
  · simp only [List.getD_eq_getElem?_getD]
    rw [List.getElem?_set_ne (by omega)]
  · by_cases hl : 4 < dbg.length
    · have : (dbg.set 4 (markHit (dbg.getD 4 0) i)).getD 4 0 = markHit (dbg.getD 4 0) i := by
        simp only [List.getD_eq_getElem?_getD]
        rw [List.getElem?_set_self (by omega)]
        rfl
      rw [this]
      unfold markHit
      generalize dbg.getD 4 0 = w
      have h1 : j = 0 ∨ j = 1 ∨ j = 2 ∨ j = 3 ∨ j = 4 ∨ j = 5 ∨ j = 6 ∨ j = 7 := by omega
      rcases h1 with rfl | rfl | rfl | rfl | rfl | rfl | rfl | rfl <;> simp
    · rw [List.set_eq_of_length_le (by omega)]

theorem marks_checkStep (a : Word) (dbg : List Word) (n : Nat) {i : Nat} (hi : i < 4) : Marks dbg (checkWriteStep a (dbg, n) i).1 := by
  unfold checkWriteStep
  split
  · exact .refl _
  · split
    · exact marks_hit dbg hi
    · exact .refl _

theorem marks_checkLoop (a : Word) : ∀ (l : List Nat) (s : List Word × Nat), (∀ i ∈ l, i < 4) → Marks s.1 (l.foldl (checkWriteStep a) s).1
  | [], s, _ => .refl _
  | i :: l, s, h => (marks_checkStep a s.1 s.2 (h i (by simp))).trans (marks_checkLoop a l _ fun j hj => h j (by simp [hj]))

theorem kept_checkWrite (c : Cpu) (a : Word) : Kept c (checkWrite c a) :=
  ⟨rfl, marks_checkLoop a (List.range 4) (c.dbg, c.intr) fun i hi => List.mem_range.1 hi⟩

theorem keeps_retireStore (c : Cpu) (e : Entry) : Keeps c (retireStore c e) := by
  unfold retireStore
  split
  · unfold writeMemory
    refine .any fun _ => ?_
    refine .any fun x => ?_
    refine .ok (Kept.trans (b := { c with wm := x.1, ram := x.2 }) (.same rfl rfl) (kept_checkWrite _ _))
  · exact .error

theorem keeps_processJump (c : Cpu) (e : Entry) : Keeps c (processJump cfg c e) := by
  unfold processJump
  refine .any fun _ => ?_
  refine .any fun _ => ?_
  refine .any fun _ => ?_
  split
  · exact .error
  · split
    · exact .error
    · split
      · exact .ok (.same rfl rfl)
      · exact Keeps.from (keeps_unroll _ _) (.same rfl rfl)

theorem keeps_retireInstr (c : Cpu) (e : Entry) : Keeps c (retireInstr cfg c e) := by
  unfold retireInstr
  split
  all_goals first
    | exact .ok (.refl _)
    | exact keeps_retireStore c e
    | exact keeps_processJump c e
    | exact keeps_unroll c _
    | skip
  · refine .any fun _ => .ok (.same rfl rfl)
  · refine .bind (keeps_retireStore c e) fun c' h => (keeps_processJump c' e).from h
  · refine .bind (keeps_unroll c _) fun c' h => .ok (h.trans (.same rfl rfl))
  · refine .bind (keeps_unroll c _) fun c' h => .ok (h.trans (.same rfl rfl))
  · refine .any fun _ => .ok (.same rfl rfl)
  · refine .any fun _ => .ok (.same rfl rfl)
  · split
    · exact .error
    · refine .any fun _ => .ok (.same rfl rfl)

theorem keeps_retireEntry (c : Cpu) (e : Entry) : Keeps c (retireEntry cfg c e) := by
  unfold retireEntry
  refine .bind (keeps_retireInstr c e) fun c' h => ?_
  split
  · exact .error
  · split
    · exact Keeps.from (.bind (keeps_unroll c' _) fun c'' h' => .ok (h'.trans (.same rfl rfl))) h
    · split
      · exact Keeps.from (.bind (keeps_unroll c' _) fun c'' h' => .ok (h'.trans (.same rfl rfl))) h
      · exact .ok (h.trans (.same rfl rfl))

theorem keeps_retireLoop : ∀ (n : Nat) (c : Cpu), Keeps c (retireLoop cfg n c)
  | 0, c => .ok (.refl _)
  | n + 1, c => by
    unfold retireLoop
    split
    · exact .ok (.refl _)
    · split
      · refine .bind (Keeps.from (keeps_retireEntry _ _) (.same rfl rfl)) fun c' h => ?_
        refine .any fun _ => ?_
        exact Keeps.from (keeps_retireLoop n _) (h.trans (.same rfl rfl))
      · exact .ok (.refl _)

theorem keeps_add (c : Cpu) (f : Fetched) : Keeps c (add cfg c f) := by
  unfold add
  split
  · iterate 8 refine .any fun _ => ?_
    exact .ok (.same rfl rfl)
  · exact .error

theorem keeps_decode (c : Cpu) : Keeps c (decodeStage cfg c) := by
  unfold decodeStage
  split
  · exact .ok (.refl _)
  · split
    · exact .bind (keeps_add c _) fun c' h => .ok (h.trans (.same rfl rfl))
    · exact .ok (.refl _)

theorem kept_front (c : Cpu) : Kept c (fetchStage (shiftStage c)) := by
  refine Kept.trans (b := shiftStage c) ?_ ?_
  · unfold shiftStage
    split <;> exact .same rfl rfl
  · unfold fetchStage
    split
    · exact .refl _
    · dsimp only
      split <;> exact .same rfl rfl

theorem keeps_tick (c : Cpu) : Keeps c (tick cfg c) := by
  unfold tick tickRetire executeAndRetire
  refine .bind (x := _) ?_ fun c' h => ?_
  · refine .any fun _ => ?_
    exact Keeps.from (keeps_retireLoop _ _) (.same rfl rfl)
  · split
    · exact .ok h
    · have hs : Kept c' (stepInterrupt c') := by
        unfold stepInterrupt
        split
        · exact .same rfl rfl
        · exact .refl _
      dsimp only
      split
      · exact .ok (h.trans hs)
      · refine Keeps.from ?_ (h.trans hs)
        unfold tickFront
        refine .bind (x := _) ?_ fun c1 h1 => ?_
        · unfold fetchAndStart
          exact .any fun _ => .ok (.same rfl rfl)
        · refine .bind (x := _) (Keeps.from (keeps_decode c1) h1) fun c2 h2 => .ok (h2.trans (kept_front c2))

end Cpu

/-- A tick of the machine under a debugger leaves the program alone. -/
theorem Vm.kept_tick {cfg : Cfg} {c : Cpu} {vm : Vm} {rs : List Reply} (h : Vm.tick cfg c = .ok (vm, rs)) : Kept c vm.cpu := by
  have hk := Cpu.keeps_tick (cfg := cfg) c
  unfold Vm.tick at h
  cases ht : Cpu.tick cfg c with
  | error f =>
    rw [ht] at h
    cases f with
    | exn e => cases h; exact .refl _
    | _ => cases h
  | ok c' =>
    rw [ht] at h hk
    have he : ∀ why, Kept c (Vm.enter c' why).1.cpu := by
      intro why
      refine Kept.trans hk ?_
      unfold Vm.enter
      dsimp only
      split
      · exact .same rfl rfl
      · exact .refl _
    simp only at h
    split at h
    · cases h; exact he _
    · split at h <;> cases h
      · exact hk
      · exact he _
      · exact he _
      · exact he _

end T86
