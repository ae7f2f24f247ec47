import Verif.Lemmas.Ahead
import Verif.Spec.Hazard

/-! What the window of instructions in flight looks like on the sequential machine. -/

set_option linter.unusedSimpArgs false
set_option linter.unusedVariables false

namespace T86
open Isa

section
variable {cfg : Cfg}

theorem total_get (s : State) (r : LReg) : s.total.get r = s.get r := by
  cases r with
  | int r => cases r <;> rfl
  | flt i => rfl

theorem total_get' (s : State) : s.total.get = s.get := funext (total_get s)

theorem opVal_total (s : State) (op : Operand) : opVal s.total op = opVal s op := by
  cases op <;> simp only [opVal, total_get'] <;> rfl

theorem valsOf_total (s : State) (i : Instr) : valsOf s.total i = valsOf s i := by
  unfold valsOf
  exact List.map_congr_left fun op _ => opVal_total s op

theorem writeAddr_total (s : State) (i : Instr) : writeAddr s.total i = writeAddr s i := by
  unfold writeAddr
  simp only [total_get']

theorem actStep_total (s : State) (o : Option Word) (a : Act) :
    actStep (s.total, o) a = ((actStep (s, o) a).1.total, (actStep (s, o) a).2) := by
  cases a with
  | set r v =>
    cases r with
    | int r => cases r <;> rfl
    | flt i => rfl
  | specifyAddress a => rfl
  | setValue v =>
    cases o with
    | none => rfl
    | some a =>
      simp only [actStep, State.total]
      congr 2
      funext a'
      split <;> rfl

theorem acts_total : ∀ (l : List Act) (s : State) (o : Option Word),
    (l.foldl actStep (s.total, o)).1 = (l.foldl actStep (s, o)).1.total
  | [], _, _ => rfl
  | a :: l, s, o => by
    rw [List.foldl_cons, List.foldl_cons, actStep_total]
    exact acts_total l _ _

theorem retireFx_total (i : Instr) (vs : List Word) (s : State) : retireFx i vs s.total = (retireFx i vs s).total := by
  unfold retireFx
  cases i <;> try rfl
  case getchar r =>
    have h : s.total.inp = s.inp := rfl
    rw [h]
    dsimp only
    cases skipSpace s.inp <;> rfl

theorem dataStep_total (s : State) (i : Instr) : dataStep cfg s.total i = (dataStep cfg s i).total := by
  unfold dataStep
  rw [valsOf_total]
  cases i.exec cfg (valsOf s i) with
  | error f => rfl
  | ok x =>
    dsimp only
    rw [show s.total.next = s.next.total from rfl, acts_total, retireFx_total]

/-- On a state without missing memory, results are those of the sequential machine. -/
theorem onward_dataStep {s : State} {i : Instr} (hm : cfg.mode = .wrap) (hw : i.wf cfg = true)
    (hl : ∀ d r r', i ≠ .lea d (.mem (.regReg r r'))) :
    (match exec cfg s.total i with
      | .ok t' => { t' with pc := guess s.pc i }
      | .error _ => { s.total with pc := guess s.pc i }) = (specNext cfg s i).total := by
  have hsn : (specNext cfg s i).total = { dataStep cfg s.total i with pc := guess s.pc i } := by
    rw [dataStep_total]; rfl
  rw [hsn]
  cases he : exec cfg s.total i with
  | ok t =>
    dsimp only
    rw [dataStep_of_isa hm hw hl he]
  | error f =>
    dsimp only
    cases hx : i.exec cfg (valsOf s.total i) with
    | error f => unfold dataStep; rw [hx]; rfl
    | ok x =>
      by_cases hg : ∃ r, i = .getchar r ∧ skipSpace s.inp = []
      · obtain ⟨r, rfl, hi⟩ := hg
        unfold dataStep
        rw [hx]
        cases hx
        have hi' : skipSpace (List.foldl actStep (s.total.next, staticAddr (.getchar r)) []).1.inp = [] := hi
        dsimp only [retireFx]
        rw [hi']
        rfl
      · have hf : faultOf s.total i = false := by
          unfold faultOf
          rw [List.any_eq_false]
          intro op _
          cases op <;> simp [opFault, State.total]
        rw [exec_eq_dataStep hw hf hx (fun a v _ => rfl) (by
          rintro r rfl hc; exact hg ⟨r, rfl, hc⟩)] at he
        cases he

theorem exec_undefined {s : State} {i : Instr} {f : Fault} (hm : cfg.mode = .wrap) (hw : i.wf cfg = true)
    (hl : ∀ d r r', i ≠ .lea d (.mem (.regReg r r'))) (h : i.exec cfg (valsOf s i) = .error f) :
    (∀ t, exec cfg s.total i ≠ .ok t) ∧ ∀ r, i ≠ .getchar r := by
  constructor
  · intro t ht
    obtain ⟨x, hx⟩ := exec_of_isa hm hw hl ht
    rw [valsOf_total, h] at hx
    cases hx
  · rintro r rfl
    cases h

/-- The window states. -/
def specAt (cfg : Cfg) (prog : List Instr) : Nat → State → State
  | 0, s => s
  | j + 1, s => specAt cfg prog j (specNext cfg s (instrAt prog s.pc))

theorem wf_instrAt {prog : List Instr} (hp : ∀ i ∈ prog, i.wf cfg = true) (pc : Word) : (instrAt prog pc).wf cfg = true := by
  unfold instrAt
  cases hg : prog[pc.toNat]? with
  | none => rfl
  | some i => exact hp i (List.mem_of_getElem? hg)

/-- Either the window states are those foreseen or there is an `LEA` of two registers on the way. -/
theorem foresee_specAt {prog : List Instr} (hm : cfg.mode = .wrap) (hp : ∀ i ∈ prog, i.wf cfg = true) :
    ∀ (j : Nat) (s : State), foresee cfg prog j s.total = (specAt cfg prog j s).total ∨
      ∃ j' < j, ∃ d r r', instrAt prog (foresee cfg prog j' s.total).pc = .lea d (.mem (.regReg r r'))
  | 0, s => Or.inl rfl
  | j + 1, s => by
    by_cases hl : ∃ d r r', instrAt prog s.pc = .lea d (.mem (.regReg r r'))
    · exact Or.inr ⟨0, Nat.succ_pos _, hl⟩
    · have hn := onward_dataStep (s := s) hm (wf_instrAt hp s.pc) (fun d r r' h => hl ⟨d, r, r', h⟩)
      have ho : onward cfg prog s.total = (specNext cfg s (instrAt prog s.pc)).total := hn
      unfold foresee specAt
      rw [ho]
      rcases foresee_specAt hm hp j (specNext cfg s (instrAt prog s.pc)) with h | ⟨j', h1, h2⟩
      · exact Or.inl h
      · refine Or.inr ⟨j' + 1, Nat.succ_lt_succ h1, ?_⟩
        change ∃ d r r', instrAt prog (foresee cfg prog j' (onward cfg prog s.total)).pc = _
        rw [ho]
        exact h2

/-- An instruction of the window without a result. -/
theorem hazard_exec {prog : List Instr} {s : State} {j : Nat} {f : Fault} (hm : cfg.mode = .wrap)
    (hp : ∀ i ∈ prog, i.wf cfg = true) (hj : j < cfg.rsMax)
    (h : (instrAt prog (specAt cfg prog j s).pc).exec cfg (valsOf (specAt cfg prog j s) (instrAt prog (specAt cfg prog j s).pc)) = .error f) :
    Hazard cfg prog s := by
  rcases foresee_specAt hm hp j s with hf | ⟨j', h1, d, r, r', h2⟩
  · have hw : wanted cfg prog s j = instrAt prog (specAt cfg prog j s).pc := by
      unfold wanted; rw [hf]; rfl
    by_cases hl : ∃ d r r', instrAt prog (specAt cfg prog j s).pc = .lea d (.mem (.regReg r r'))
    · obtain ⟨d, r, r', hl⟩ := hl
      exact .lea j hj d r r' (hw.trans hl)
    · obtain ⟨g1, g2⟩ := exec_undefined hm (wf_instrAt hp _) (fun d r r' h => hl ⟨d, r, r', h⟩) h
      refine .undefined j hj ?_ (Or.inr ?_)
      · rw [hw, hf]; exact g1
      · rw [hw]; exact g2
  · exact .lea j' (Nat.lt_trans h1 hj) d r r' h2

/-- Two instructions of the window that write to one cell. -/
theorem hazard_stores {prog : List Instr} {s : State} {j j' : Nat} {a : Word} (hm : cfg.mode = .wrap)
    (hp : ∀ i ∈ prog, i.wf cfg = true) (hj : j < cfg.rsMax) (hlt : j' < j)
    (h' : writeAddr (specAt cfg prog j' s) (instrAt prog (specAt cfg prog j' s).pc) = some a)
    (h : writeAddr (specAt cfg prog j s) (instrAt prog (specAt cfg prog j s).pc) = some a) : Hazard cfg prog s := by
  rcases foresee_specAt hm hp j s with hf | ⟨j', h1, d, r, r', h2⟩
  · rcases foresee_specAt hm hp j' s with hf' | ⟨j'', h1, d, r, r', h2⟩
    · refine .stores j j' hlt hj a ?_ ?_
      · unfold writes wanted; rw [hf', writeAddr_total]; exact h'
      · unfold writes wanted; rw [hf, writeAddr_total]; exact h
    · exact .lea j'' (by omega) d r r' h2
  · exact .lea j' (Nat.lt_trans h1 hj) d r r' h2

end
end T86
