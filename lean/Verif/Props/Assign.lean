import Verif.Lemmas.Assign
import Verif.Props.Eval

/-! # Assigning to variables (C44)

`Val.Like`, `Val.Same` and `Val.places` (`Verif/Spec/Assign.lean`) say when two values have the same shape, when they are equal, and
where the numbers of a value are stored. -/

set_option linter.unusedSimpArgs false
set_option linter.unusedVariables false
set_option maxRecDepth 100000

namespace T86
open Dbg Str Native Isa Ex

/-- Everything but the memory cells in `ps` is as before. -/
structure OnlyCells (s s' : State) (ps : List (Option Loc)) : Prop where
  reg : s'.reg = s.reg
  pc : s'.pc = s.pc
  out : s'.out = s.out
  inp : s'.inp = s.inp
  halted : s'.halted = s.halted
  mem : ∀ b, some (.off b) ∉ ps → s'.mem b = s.mem b

section
variable {h : Host} {c : Client} {m : Mode} {fo : Floats} {env : Env} {n : Native} {s : State}

/-- C44 in memory (without floating point numbers). Let `lhs` denote a value `x` of any type, read from the location `p`, and `rhs` a value `y`
of the same shape: numbers, characters, pointers, or arrays and structures of them to any depth. All of `x` is in memory
(which is so when `p` is an address, and for structures whose address is in a register), and no cell belongs to two parts of it.
Then the assignment succeeds; afterwards the debugger shows a state in which nothing has changed but the cells of `x`; the
breakpoints and watchpoints are the same; and what is read at `p` is `y`. -/
theorem C44_assign_partial (hs : Native.Shows h n s) (hsz : c.size < 2 ^ 63) {lhs rhs : Expr} {x y : Val} {p : Loc} {ty : Ty} {fuel : Nat}
    (hx : eval (target h c) m fo env lhs n = (.ok x, n)) (hat : evaluateAt m env.types ((target h c).view n) fuel p ty = .ok x)
    (hm : ∀ q ∈ x.places, ∃ b, q = some (.off b))
    (hy : eval (target h c) m fo env rhs n = (.ok y, n)) (hlike : x.Like y) (hd : x.places.Nodup) :
    ∃ n' v s', eval (target h c) m fo env (.bin .assign lhs rhs) n = (.ok v, n') ∧ Native.Shows h n' s' ∧ OnlyCells s s' x.places ∧
      n'.bps = n.bps ∧ n'.wps = n.wps ∧
      ∃ x', evaluateAt m env.types ((target h c).view n') fuel p ty = .ok x' ∧ x'.Same y := by
  obtain ⟨⟨hloc, hpl⟩, hre⟩ := evaluateAt_inMemory hat hm
  have hcell : ∀ l ∈ x.places, s.Cell c l := by
    intro l hl
    obtain ⟨b, w, rfl, hw⟩ := hpl l hl
    obtain ⟨h1, h2⟩ := cell_of_view hs hsz hw
    exact ⟨b, rfl, h1, by rw [h2]; rfl⟩
  obtain ⟨n', v, h1, h2, h3, h4⟩ := assign_cells (fo := fo) hsz x y hlike hloc hs hcell
  have hsp := stores_places x y hlike hm
  obtain ⟨e1, e2, e3, e4, e5⟩ := putAll_rest (stores x y) s
  have hnd : ((stores x y).map (·.1)).Nodup := by
    have : (((stores x y).map (·.1)).map fun b => some (Loc.off b)).Nodup := by
      rw [List.map_map]
      have : ((fun b => some (Loc.off b)) ∘ fun p : Word × Word => p.1) = fun p : Word × Word => some (Loc.off p.1) := rfl
      rw [this, hsp]
      exact hd
    exact List.Nodup.of_map _ this
  refine ⟨n', v, _, ?_, h2, ⟨e1, e2, e3, e4, e5, ?_⟩, h3, h4, ?_⟩
  · rw [eval_assign, job_ok hx, job_ok hy]
    exact h1
  · intro b hb
    refine putAll_mem_other _ _ _ fun hm => hb ?_
    obtain ⟨p, hp, rfl⟩ := List.mem_map.1 hm
    rw [← hsp]
    exact List.mem_map.2 ⟨p, hp, rfl⟩
  · obtain ⟨x', g1, g2⟩ := hre ((target h c).view n') (view_reg hs h2 fun r => by
      unfold State.look
      rw [e1, e2]) (by
      intro b w hb
      obtain ⟨k1, k2⟩ := cell_of_view hs hsz hb
      obtain ⟨b', k3, k4, k5⟩ := cell_putAll (c := c) (l := some (.off b)) (stores x y) (s := s) ⟨b, rfl, k1, by rw [k2]; rfl⟩
      injection k3 with k3
      injection k3 with k3
      subst k3
      obtain ⟨w', k5⟩ := Option.isSome_iff_exists.1 k5
      exact ⟨w', view_cell h2 hsz k4 k5⟩)
    refine ⟨x', g1, g2 y hlike fun p hp => ?_⟩
    have hmem : some (Loc.off p.1) ∈ x.places := by
      rw [← hsp]
      exact List.mem_map.2 ⟨p, hp, rfl⟩
    obtain ⟨b, k1, k2, _⟩ := hcell _ hmem
    injection k1 with k1
    injection k1 with k1
    subst k1
    exact view_cell h2 hsz k2 (putAll_mem _ s hnd p hp)

/-- A variable that is visible at the present address, with its type and its location. -/
structure Declared (env : Env) (s : State) (name : Str) (ty : Ty) (l : List LocIns) : Prop where
  found : ∃ d id, getVariableDie env.top s.pc.toNat name = some d ∧ d.findType = some id ∧ env.types.find id = some ty ∧ d.findLocation = some l
  some : l ≠ []

theorem eval_declared (hs : Native.Shows h n s) {name : Str} {ty : Ty} {l : List LocIns} (hv : Declared env s name ty l) {p : Loc}
    (hp : interpret m ((target h c).view n) l = .ok p) :
    eval (target h c) m fo env (.ident name) n = (evaluateTL m env.types ((target h c).view n) p ty, n) := by
  obtain ⟨⟨d, id, h1, h2, h3, h4⟩, h5⟩ := hv
  show (((target h c).ip n >>= fun ip => variableValue m env ((target h c).view n) ip name), n) = _
  rw [target_ip hs]
  congr 1
  show variableValue m env ((target h c).view n) s.pc.toNat name = _
  unfold variableValue getVariableLocation getVariableType
  have h6 : l.isEmpty = false := by cases l <;> first | rfl | exact absurd rfl h5
  rw [h1]
  simp only [h2, h3, h4, h6, hp]
  rfl

/-- A location expression without DEREFERENCE does not depend on the memory. -/
theorem steady_of_regs {v : View} {l : List LocIns} {ps : List (Option Loc)} {p : Loc} (hl : ∀ i ∈ l, i ≠ .deref)
    (hp : interpret m v l = .ok p) : Steady m v l ps p :=
  fun v' hr _ => by rw [interpret_regs hr l hl]; exact hp

/-- What is read from an address is in memory. -/
theorem inMemory_of_address {v : View} {fuel : Nat} {a : Word} {ty : Ty} {x : Val}
    (hx : evaluateAt m env.types v fuel (.off a) ty = .ok x) : ∀ q ∈ x.places, ∃ b, q = some (.off b) := by
  intro q hq
  obtain ⟨b, w, e, _⟩ := (evaluateAt_places fuel a ty x hx).2 q hq
  exact ⟨b, e⟩

/-- C44 for variables in memory (without floating point numbers). If a variable is visible, all of it is in memory, and its location
does not depend on what is in the variable itself, then after assigning a value of the same shape the variable has this value, and
nothing has changed but the cells of the variable. -/
theorem C44_variable_partial (hs : Native.Shows h n s) (hsz : c.size < 2 ^ 63) {name : Str} {rhs : Expr} {x y : Val} {p : Loc} {ty : Ty}
    {l : List LocIns} (hv : Declared env s name ty l) (hp : Steady m ((target h c).view n) l x.places p)
    (hx : eval (target h c) m fo env (.ident name) n = (.ok x, n)) (hm : ∀ q ∈ x.places, ∃ b, q = some (.off b))
    (hy : eval (target h c) m fo env rhs n = (.ok y, n)) (hlike : x.Like y) (hd : x.places.Nodup) :
    ∃ n' v s' x', eval (target h c) m fo env (.bin .assign (.ident name) rhs) n = (.ok v, n') ∧
      eval (target h c) m fo env (.ident name) n' = (.ok x', n') ∧ x'.Same y ∧
      Native.Shows h n' s' ∧ OnlyCells s s' x.places ∧ n'.bps = n.bps ∧ n'.wps = n.wps := by
  have hat : evaluateTL m env.types ((target h c).view n) p ty = .ok x := by
    rw [eval_declared hs hv (hp _ (fun _ => rfl) fun _ _ _ h => h)] at hx
    exact congrArg Prod.fst hx
  obtain ⟨n', v, s', h1, h2, h3, h4, h5, x', h6, h7⟩ := C44_assign_partial hs hsz hx hat hm hy hlike hd
  refine ⟨n', v, s', x', h1, ?_, h7, h2, h3, h4, h5⟩
  have hv' : Declared env s' name ty l := ⟨by rw [h3.pc]; exact hv.found, hv.some⟩
  have hlook : ∀ r, s'.look (.int r) = s.look (.int r) := by
    intro r
    unfold State.look
    rw [h3.reg, h3.pc]
  rw [eval_declared (m := m) h2 hv' (p := p) (hp _ (view_reg hs h2 hlook) fun b w hb hw => by
    obtain ⟨k1, k2⟩ := cell_of_view hs hsz hw
    exact view_cell h2 hsz k1 (by rw [h3.mem b hb, k2]))]
  exact Prod.ext h6 rfl

/-- C44 for variables in registers (without floating point numbers): the register has the value, and nothing else has changed. If the register is
PC, the variable may not be visible any more at the address that was assigned; it has the value if it is, and the register has it anyway. -/
theorem C44_register_partial {Tx : Str → Instr → Prop} {prog P : List Instr} {data : List Word} {inp : List (BitVec 8)}
    (ht : Texts h Tx) (hl : prog.length < 2 ^ 63) (hp : ∀ i ∈ prog, Plain h i) (hset : Setup h.cfg prog data)
    (hc : Careful h c Tx prog data inp P n) (hs : Native.Shows h n s) (hg : h.cfg.nreg ≤ c.gp) (h64 : h.cfg.nreg ≤ 2 ^ 64)
    {name : Str} {rhs : Expr} {x y : Val} {ty : Ty} {r : Reg} (hr : r ∈ shown h.cfg)
    (hv : Declared env s name ty [.push (.reg r.print)]) (hty : (∃ p sz, ty = .prim p sz) ∨ ∃ t sz, ty = .ptr t sz)
    (hx : eval (target h c) m fo env (.ident name) n = (.ok x, n))
    (hy : eval (target h c) m fo env rhs n = (.ok y, n)) (hlike : x.Like y) :
    ∃ n' v w x', eval (target h c) m fo env (.bin .assign (.ident name) rhs) n = (.ok v, n') ∧
      ((r = .pc → Declared env (s.poke (.int r) w) name ty [.push (.reg r.print)]) → eval (target h c) m fo env (.ident name) n' = (.ok x', n')) ∧
      evaluateTL m env.types ((target h c).view n') (.reg r.print) ty = .ok x' ∧ x'.Same y ∧ Native.Shows h n' (s.poke (.int r) w) ∧ n'.bps = n.bps ∧ n'.wps = n.wps ∧ Careful h c Tx prog data inp P n' := by
  have hi : ∀ v, interpret m v [.push (.reg r.print)] = .ok (.reg r.print) := fun v => rfl
  have hxe := hx
  rw [eval_declared hs hv (hi _)] at hxe
  have hat : evaluateTL m env.types ((target h c).view n) (.reg r.print) ty = .ok x := congrArg Prod.fst hxe
  -- what reading gives for any content of the register
  suffices ∃ w, (∀ n', setRegister h c r.print w n = (.ok (), n') → ∃ v, assign (target h c) fo x y n = (.ok v, n')) ∧
      ∀ n', getRegister h r.print n' = (.ok w, n') → ∃ x', evaluateTL m env.types ((target h c).view n') (.reg r.print) ty = .ok x' ∧ x'.Same y by
    obtain ⟨w, h1, h2⟩ := this
    obtain ⟨n', h3, h4, h5, h6, h7⟩ := C49_write_register ht hl hp hset hc hs hg h64 r hr w
    obtain ⟨v, h1⟩ := h1 n' h3
    obtain ⟨x', h8, h9⟩ := h2 n' (by rw [h4.regs r hr, look_poke, if_pos rfl])
    refine ⟨n', v, w, x', ?_, ?_, h8, h9, h4, h5, h6, h7⟩
    · rw [eval_assign, job_ok hx, job_ok hy]
      exact h1
    · intro hstill
      have hdecl : Declared env (s.poke (.int r) w) name ty [.push (.reg r.print)] := by
        by_cases hpc : r = .pc
        · exact hstill hpc
        · have hq : (s.poke (.int r) w).pc = s.pc := by
            unfold State.poke
            rw [if_neg (by simpa using hpc)]
            rfl
          exact ⟨by rw [hq]; exact hv.found, hv.some⟩
      rw [eval_declared h4 (p := .reg r.print) hdecl (hi _), h8]
  have hget : ∀ n' w, getRegister h r.print n' = (.ok w, n') → getRaw ((target h c).view n') (.reg r.print) = .ok w := by
    intro n' w hw
    show (getRegister h r.print n').1 = _
    rw [hw]
  unfold evaluateTL at hat ⊢
  rcases hty with ⟨p, sz, rfl⟩ | ⟨t, sz, rfl⟩
  · simp only [evaluateAt] at hat ⊢
    obtain ⟨raw, _, hat⟩ := ebind hat
    cases p with
    | float =>
      cases hat
      cases y <;> simp only [Val.Like, Val.Agree] at hlike
    | unsigned => cases hat
    | signed =>
      cases hat
      cases y with
      | int w l =>
        refine ⟨w, fun n' h1 => ⟨.int w (some (.reg r.print)), ?_⟩, fun n' h1 => ?_⟩
        · simp only [assign]
          rw [job_ok (show setRaw (target h c) (.reg r.print) w n = (.ok (), n') from h1)]
          rfl
        · rw [hget n' w h1]
          exact ⟨.int w _, rfl, by simp only [Val.Same, Val.Agree]; exact fun _ => trivial⟩
      | _ => simp only [Val.Like, Val.Agree] at hlike
    | char =>
      cases hat
      cases y with
      | char w l =>
        refine ⟨w.signExtend 64, fun n' h1 => ⟨.char w (some (.reg r.print)), ?_⟩, fun n' h1 => ?_⟩
        · simp only [assign]
          rw [job_ok (show setRaw (target h c) (.reg r.print) _ n = (.ok (), n') from h1)]
          rfl
        · rw [hget n' _ h1]
          refine ⟨.char ((w.signExtend 64).truncate 8) _, rfl, ?_⟩
          simp only [Val.Same, Val.Agree]
          exact fun _ => low_byte w
      | _ => simp only [Val.Like, Val.Agree] at hlike
  · simp only [evaluateAt] at hat ⊢
    obtain ⟨raw, _, hat⟩ := ebind hat
    cases hat
    cases y with
    | ptr t' sz' w l =>
      simp only [Val.Like, Val.Agree] at hlike
      refine ⟨w, fun n' h1 => ⟨.ptr t sz w (some (.reg r.print)), ?_⟩, fun n' h1 => ?_⟩
      · simp only [assign]
        rw [if_neg (by simp [hlike.1]), job_ok (show setRaw (target h c) (.reg r.print) _ n = (.ok (), n') from h1)]
        rfl
      · rw [hget n' _ h1]
        refine ⟨.ptr t sz w _, rfl, ?_⟩
        simp only [Val.Same, Val.Agree]
        exact ⟨hlike.1, fun _ => trivial⟩
    | _ => simp only [Val.Like, Val.Agree] at hlike

/-- C44 fails for floating point numbers: what is stored is not the number but its conversion to an integer. -/
theorem C44_float (hs : Native.Shows h n s) (hsz : c.size < 2 ^ 63) {lhs rhs : Expr} {a v w u : Word} {l : Option Loc}
    (hx : eval (target h c) m fo env lhs n = (.ok (.float v (some (.off a))), n)) (ha : s.Cell c (some (.off a)))
    (hy : eval (target h c) m fo env rhs n = (.ok (.float w l), n)) (hu : fo.toUnsigned w = some u) :
    ∃ n' x, eval (target h c) m fo env (.bin .assign lhs rhs) n = (.ok x, n') ∧ Native.Shows h n' (s.write a [u]) := by
  obtain ⟨n', h1, h2, _⟩ := setRaw_cell hs hsz ha u
  refine ⟨n', .float w (some (.off a)), ?_, h2⟩
  rw [eval_assign, job_ok hx, job_ok hy]
  simp only [assign, hu]
  rw [job_ok h1]
  rfl

/-- What cannot be assigned is refused, with the error that leaves the debugger running, and nothing is changed. -/
theorem C44_refused {σ : Type} {t : Target σ} {a b : Expr} {x y : Val} {s s1 s2 : σ} (hx : eval t m fo env a s = (.ok x, s1))
    (hy : eval t m fo env b s1 = (.ok y, s2)) (hf : x.Foreign y) : eval t m fo env (.bin .assign a b) s = (.error .debugger, s2) := by
  rw [eval_assign, job_ok hx, job_ok hy]
  cases hf with
  | noPlace h =>
    cases x <;> (simp only [Val.loc] at h; subst h; cases y <;> rfl)
  | sort h =>
    cases x <;> (rename_i l; cases l <;> cases y <;> first | rfl | exact absurd rfl h)
  | @pointee _ _ _ _ _ _ l _ h => cases l <;> simp only [assign, if_pos h] <;> rfl
  | @element _ _ _ _ _ _ l _ _ _ h => cases l <;> simp only [assign, if_pos h] <;> rfl
  | @name _ _ _ _ l _ _ _ h => cases l <;> simp only [assign, if_pos h] <;> rfl
  | @member na nb n _ _ x l _ ms ms' h =>
    cases l with
    | none => rfl
    | some l =>
      simp only [assign]
      by_cases e : na = nb
      · rw [if_neg (by simp [e])]
        have : assignMembers t fo ((n, x) :: ms) ms' = Job.throw .debugger := by
          simp only [assignMembers, h]
        rw [this]
        rfl
      · rw [if_pos e]
        rfl

/-- And an assignment that succeeds was one between values that match in every part. -/
theorem C44_matches {σ : Type} {t : Target σ} {a b : Expr} {x y v : Val} {s s1 s2 s3 : σ} (hx : eval t m fo env a s = (.ok x, s1))
    (hy : eval t m fo env b s1 = (.ok y, s2)) (h : eval t m fo env (.bin .assign a b) s = (.ok v, s3)) : x.Takes y := by
  rw [eval_assign, job_ok hx, job_ok hy] at h
  exact assign_takes x y h

end

/-! ## Examples -/

namespace Sample

/-- `int x` in cell 8, `struct s q` in the cells 3 and 4, `struct s r` in 5 and 6, `float f` in 9, `int y` in R0, `struct s t` where R0
points to, and `int z` where the cell points to that R0 points to. -/
def scope2 : Die := .mk .unit []
  [.mk .variable [.name "x".toList, .type 0, .location [.push (.off 8)]] [],
   .mk .variable [.name "q".toList, .type 1, .location [.push (.off 3)]] [],
   .mk .variable [.name "r".toList, .type 1, .location [.push (.off 5)]] [],
   .mk .variable [.name "f".toList, .type 5, .location [.push (.off 9)]] [],
   .mk .variable [.name "y".toList, .type 0, .location [.push (.reg "R0".toList)]] [],
   .mk .variable [.name "t".toList, .type 1, .location [.push (.reg "R0".toList)]] [],
   .mk .variable [.name "z".toList, .type 0, .location [.push (.reg "R0".toList), .deref]] []]

def env2 : Env := ⟨some scope2, types ++ [(5, .prim .float 1)], []⟩

/-- 1.5 is converted to 1. -/
def floats2 : Floats := { floats with toUnsigned := fun w => if w = 0x3FF8000000000000 then some 1 else some 0 }

/-- The stop at the end of the history. -/
def stop : Native := after (started calls) history

/-- Evaluating one text after another; the value of the last one. -/
def session (n : Native) : List String → Except Err Word
  | [] => .error .runtime
  | [t] => show' (evaluate (target host client) .strict floats2 exStod env2 t.toList n).1
  | t :: l => session (evaluate (target host client) .strict floats2 exStod env2 t.toList n).2 l

end Sample

/-- Assignments to variables in memory and in registers, and of a structure. -/
example : Sample.session Sample.stop ["x"] = .ok 7 ∧ Sample.session Sample.stop ["x = 5 * x", "x"] = .ok 35 ∧
    Sample.session Sample.stop ["q.b = 9", "r = q", "r.b"] = .ok 9 ∧ Sample.session Sample.stop ["q.b = 9", "x"] = .ok 7 ∧
    Sample.session Sample.stop ["y = x + 1", "y"] = .ok 8 ∧ Sample.session Sample.stop ["q = x"] = .error .debugger ∧
    Sample.session Sample.stop ["3 = x"] = .error .debugger ∧
    Sample.session Sample.stop ["y = 3", "t.b = 9", "q.b"] = .ok 9 ∧
    Sample.session Sample.stop ["y = 3", "r.b = 9", "t = r", "q.b"] = .ok 9 ∧
    Sample.session Sample.stop ["y = 8", "x = 5", "z = 9", "r.a"] = .ok 9 := by
  decide +kernel

/-- C44 fails for a variable whose location depends on its own contents: after an assignment of 5 to `z`, which is in cell 8 because
this is what cell 8 contains, the variable is elsewhere and is 0. -/
theorem C44_moves : Sample.session Sample.stop ["y = 8", "x = 8", "z"] = .ok 8 ∧
    Sample.session Sample.stop ["y = 8", "x = 8", "z = 5", "x"] = .ok 5 ∧
    Sample.session Sample.stop ["y = 8", "x = 8", "z = 5", "z"] = .ok 0 := by
  decide +kernel

/-- Non-vacuity of `C44_refused`: `3 = 4`, whatever the program, has no place to write to; and of a structure with members `a` and `b`
and one without `a`. -/
example {σ : Type} (t : Target σ) (m : Mode) (fo : Floats) (env : Env) (s : σ) : eval t m fo env (.bin .assign (.int 3) (.int 4)) s = (.error .debugger, s) :=
  C44_refused (x := .int 3 none) (y := .int 4 none) rfl rfl (.noPlace rfl)

example : Val.Foreign (.struct "s".toList 2 [("a".toList, .int 1 (some (.off 5))), ("b".toList, .int 2 (some (.off 6)))] (some (.off 5)))
    (.struct "s".toList 1 [("b".toList, .int 2 (some (.off 8)))] (some (.off 8))) := .member (by decide)

/-- Non-vacuity of `C44_variable_partial`: the structure `q`, assigned from `r`. -/
example : ∃ s x y, Native.Shows Sample.host Sample.stop s ∧ Sample.client.size < 2 ^ 63 ∧
    Declared Sample.env2 s "q".toList (.struct "s".toList 2 [⟨"a".toList, 0, 0⟩, ⟨"b".toList, 0, 1⟩]) [.push (.off 3)] ∧
    Steady .strict ((target Sample.host Sample.client).view Sample.stop) [.push (.off 3)] x.places (.off 3) ∧
    (∀ q ∈ x.places, ∃ b, q = some (.off b)) ∧
    eval (target Sample.host Sample.client) .strict Sample.floats2 Sample.env2 (.ident "q".toList) Sample.stop = (.ok x, Sample.stop) ∧
    eval (target Sample.host Sample.client) .strict Sample.floats2 Sample.env2 (.ident "r".toList) Sample.stop = (.ok y, Sample.stop) ∧
    x.Like y ∧ x.places = [some (.off 3), some (.off 4)] ∧ x.places.Nodup := by
  obtain ⟨s, hs⟩ := Sample.calls_shows
  have hs : Native.Shows Sample.host Sample.stop s := hs
  have hd : ∀ nm a, (getVariableDie Sample.env2.top s.pc.toNat nm = some (.mk .variable [.name nm, .type 1, .location [.push (.off a)]] [])) →
      Declared Sample.env2 s nm (.struct "s".toList 2 [⟨"a".toList, 0, 0⟩, ⟨"b".toList, 0, 1⟩]) [.push (.off a)] :=
    fun nm a h => ⟨⟨_, 1, h, rfl, rfl, rfl⟩, by simp⟩
  have h1 := hd "q".toList 3 rfl
  have h2 := hd "r".toList 5 rfl
  have cell : ∀ a : Word, a.toNat < 16 → s.mem a = some 0 → ((target Sample.host Sample.client).view Sample.stop).mem a = .ok 0 :=
    fun a ha hm => view_cell hs (by decide) ha hm
  have mem : ∀ a : Word, Sample.stop.link.vm.cpu.ram.mem[a.toNat]? = some 0 → s.mem a = some 0 := fun a ha => by rw [← hs.machine.mem]; exact ha
  have c3 := cell 3 (by decide) (mem 3 (by decide +kernel))
  have c4 := cell 4 (by decide) (mem 4 (by decide +kernel))
  have c5 := cell 5 (by decide) (mem 5 (by decide +kernel))
  have c6 := cell 6 (by decide) (mem 6 (by decide +kernel))
  have hval : ∀ a b : Word, (addS .strict 0#64 a = .ok a) → (addS .strict 1#64 a = .ok b) →
      ((target Sample.host Sample.client).view Sample.stop).mem a = .ok 0 → ((target Sample.host Sample.client).view Sample.stop).mem b = .ok 0 →
      evaluateTL .strict Sample.env2.types ((target Sample.host Sample.client).view Sample.stop) (.off a)
        (.struct "s".toList 2 [⟨"a".toList, 0, 0⟩, ⟨"b".toList, 0, 1⟩]) =
      .ok (.struct "s".toList 2 [("a".toList, .int 0 (some (.off a))), ("b".toList, .int 0 (some (.off b)))] (some (.off a))) := by
    intro a b e1 e2 m1 m2
    generalize ((target Sample.host Sample.client).view Sample.stop) = v at m1 m2
    obtain ⟨vr, vm⟩ := v
    simp only at m1 m2
    simp [evaluateTL, evaluateAt, interpret, locRun, locStep, addOperands, Loc.value, e1, e2, getRaw, m1, m2, primitive, Sample.env2,
      Sample.types, Map.find, Map.emplace, List.foldlM, bind, Except.bind, pure, Except.pure, Val.setLoc]
  refine ⟨s, .struct "s".toList 2 [("a".toList, .int 0 (some (.off 3))), ("b".toList, .int 0 (some (.off 4)))] (some (.off 3)),
    .struct "s".toList 2 [("a".toList, .int 0 (some (.off 5))), ("b".toList, .int 0 (some (.off 6)))] (some (.off 5)), hs, by decide, h1,
    steady_of_regs (by simp) rfl, by simp [Val.places, Val.placesM], ?_, ?_, ?_, ?_, ?_⟩
  · rw [eval_declared hs h1 (p := .off 3) rfl, hval 3 4 (by decide) (by decide) c3 c4]
  · rw [eval_declared hs h2 (p := .off 5) rfl, hval 5 6 (by decide) (by decide) c5 c6]
  · have hi : ∀ v l w k, Val.Agree false (.int v l) (.int w k) := fun v l w k => by simp only [Val.Agree]; exact fun h => (by cases h)
    have hq : ∀ n sz ms l ms' l', Val.AgreeM false ms ms' → Val.Agree false (.struct n sz ms l) (.struct n sz ms' l') :=
      fun n sz ms l ms' l' h => by simp only [Val.Agree]; exact ⟨trivial, h⟩
    have hm : ∀ n x ms y ms', Map.find ms' n = some y → Val.Agree false x y → Val.AgreeM false ms ms' → Val.AgreeM false ((n, x) :: ms) ms' :=
      fun n x ms y ms' h1 h2 h3 => by simp only [Val.AgreeM]; exact ⟨⟨y, h1, h2⟩, h3⟩
    exact hq _ _ _ _ _ _ (hm _ _ _ _ _ rfl (hi _ _ _ _) (hm _ _ _ _ _ rfl (hi _ _ _ _) (by simp only [Val.AgreeM])))
  · simp [Val.places, Val.placesM]
  · simp [Val.places, Val.placesM]

/-- Assigning 1.5 to a float variable stores the integer 1, which is another number when it is read as a float. -/
theorem C44_float_truncated :
    (readMemory Sample.host Sample.client 9 1 (eval (target Sample.host Sample.client) .strict Sample.floats2 Sample.env2
      (.bin .assign (.ident "f".toList) (.float 0x3FF8000000000000)) Sample.stop).2).1 = .ok [1] := by
  decide +kernel

end T86
