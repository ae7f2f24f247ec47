import Verif.Lemmas.Variable
import Verif.Props.Display
import Verif.Props.CliMove

/-! # The values of variables (C79)

The specification is `Verif/Spec/Variable.lean`. -/

set_option maxRecDepth 100000
set_option linter.unusedVariables false

namespace T86
open Dbg Str Native Isa Ex

section
variable {h : Host} {c : Client} {m : Mode} {fo : Floats} {env : Ex.Env} {n : Native} {s : State}

/-- C79. The value of a variable that is visible is the value of its type at its location; reading it changes nothing. -/
theorem C79_variable (hs : Native.Shows h n s) (hsz : c.size < 2 ^ 63) {name : Str} {ty : Ty} {l : List LocIns} (hd : Declared env s name ty l)
    {p : Loc} (hp : Place h.cfg s l p) {x : Val} (hx : ValueAt h.cfg c.size env.types s p ty x) :
    eval (target h c) m fo env (.ident name) n = (.ok x, n) := by
  have hv := shows_sees (c := c) hs hsz
  rw [eval_declared hs hd (sees_place hv m hp), sees_variable hv m hx]

/-- C79. What a pointer points to is the value of the type pointed to at the address that is the pointer. -/
theorem C79_pointer (hs : Native.Shows h n s) (hsz : c.size < 2 ^ 63) {e : Expr} {t : Nat} {sz a : Word} {l : Option Loc}
    (he : eval (target h c) m fo env e n = (.ok (.ptr t sz a l), n)) {u : Ty} (hu : env.types.find t = some u) {x : Val}
    (hx : ValueAt h.cfg c.size env.types s (.off a) u x) :
    eval (target h c) m fo env (.un .deref e) n = (.ok x, n) := by
  have hv := shows_sees (c := c) hs hsz
  rw [eval_un, job_ok he]
  change ((match env.types.find t with
    | none => Except.error Err.debugger
    | some ty => evaluateTL m env.types ((target h c).view n) (.off a) ty), n) = _
  rw [hu]
  exact Prod.ext (sees_variable hv m hx) rfl

theorem find_zip {ms : List Member} {vs : List Val} (hn : (ms.map (·.name)).Nodup) (hl : vs.length = ms.length) {i : Nat} {mem : Member} {v : Val}
    (h1 : ms[i]? = some mem) (h2 : vs[i]? = some v) : Map.find ((ms.map (·.name)).zip vs) mem.name = some v := by
  refine Map.find_eq_some_of_mem ?_ ?_
  · show (((ms.map (·.name)).zip vs).map Prod.fst).Nodup
    rw [List.map_fst_zip (by simp [hl])]
    exact hn
  · refine List.mem_of_getElem? (i := i) ?_
    rw [List.getElem?_zip_eq_some]
    exact ⟨by simp [h1], h2⟩

/-- C79. A member of a structure is the value of its type at its offset from the beginning of the structure. -/
theorem C79_member {e : Expr} {x : Val} (he : eval (target h c) m fo env e n = (.ok x, n)) {l : Loc} {name : Str} {sz a : Word} {ms : List Member}
    (hx : ValueAt h.cfg c.size env.types s l (.struct name sz ms) x) (ha : Number h.cfg s l a) {mem : Member} (hm : mem ∈ ms) {u : Ty}
    (hu : env.types.find mem.typeId = some u) :
    ∃ y, eval (target h c) m fo env (.member e mem.name) n = (.ok y, n) ∧ ValueAt h.cfg c.size env.types s (.off (a + mem.offset)) u y := by
  cases hx with
  | @struct _ a' _ _ _ us vs begins names fits types_ known all members =>
    obtain ⟨i, hi, rfl⟩ := List.getElem_of_mem hm
    have h1 : ms[i]? = some ms[i] := by simp [hi]
    have h2 : us[i]? = some (us[i]'(by omega)) := by simp
    have h3 : vs[i]? = some (vs[i]'(by omega)) := by simp
    have e1 := known i _ _ h1 h2
    rw [hu] at e1
    have e2 : a = a' := by
      cases ha with
      | off => cases begins; rfl
      | reg k =>
        generalize hq : Reg.print _ = q at begins
        cases begins with
        | reg k' => rw [Reg.print_inj k k' hq]
    have e3 := members i _ _ _ h1 h2 h3
    rw [← Option.some.inj e1, ← e2] at e3
    refine ⟨_, ?_, e3⟩
    refine (job_ok (f := fun a => reading (target h c) fun _ => accessMember a ms[i].name) he).trans ?_
    change ((match Map.find ((ms.map (·.name)).zip vs) ms[i].name with
      | some v => Except.ok v
      | none => Except.error Err.debugger), n) = _
    rw [find_zip names all h1 h3]

/-- C79. The same through a pointer to the structure. -/
theorem C79_arrow (hs : Native.Shows h n s) (hsz : c.size < 2 ^ 63) {e : Expr} {t : Nat} {sz sz' a : Word} {l : Option Loc}
    (he : eval (target h c) m fo env e n = (.ok (.ptr t sz a l), n)) {name : Str} {ms : List Member}
    (ht : env.types.find t = some (.struct name sz' ms)) {x : Val}
    (hx : ValueAt h.cfg c.size env.types s (.off a) (.struct name sz' ms) x) {mem : Member} (hm : mem ∈ ms) {u : Ty}
    (hu : env.types.find mem.typeId = some u) :
    ∃ y, eval (target h c) m fo env (.arrow e mem.name) n = (.ok y, n) ∧ ValueAt h.cfg c.size env.types s (.off (a + mem.offset)) u y := by
  have hv := shows_sees (c := c) hs hsz
  obtain ⟨y, h1, h2⟩ := C79_member (e := .un .deref e) (fo := fo) (m := m) (C79_pointer hs hsz he ht hx) hx .off hm hu
  refine ⟨y, ?_, h2⟩
  have h3 : (dereference m env ((target h c).view n) (.ptr t sz a l) >>= fun d => accessMember d mem.name) = .ok y := by
    have h4 : dereference m env ((target h c).view n) (.ptr t sz a l) = .ok x := by
      unfold dereference
      simp only [ht]
      exact sees_variable hv m hx
    rw [h4]
    have h5 := (job_ok (f := fun a => reading (target h c) fun _ => accessMember a mem.name) (C79_pointer (fo := fo) (m := m) hs hsz he ht hx)).symm.trans h1
    exact congrArg Prod.fst h5
  refine (job_ok (f := fun a => reading (target h c) fun v => dereference m env v a >>= fun d => accessMember d mem.name) he).trans ?_
  exact Prod.ext h3 rfl

/-- C79. An element of an array is the value of its type as many times the size of this type from the beginning as its index says. -/
theorem C79_element {e i : Expr} {x : Val} (he : eval (target h c) m fo env e n = (.ok x, n)) {a cnt k : Word} {li : Option Loc} {t z : Nat}
    (hi : eval (target h c) m fo env i n = (.ok (.int k li), n)) (hx : ValueAt h.cfg c.size env.types s (.off a) (.arr t cnt) x) (h0 : 0 ≤ k.toInt)
    (hk : k.toInt < cnt.toNat) {u : Ty} (hu : env.types.find t = some u) (hz : SizeOf env.types t z) :
    ∃ y, eval (target h c) m fo env (.index e i) n = (.ok y, n) ∧
      ValueAt h.cfg c.size env.types s (.off (a + BitVec.ofNat 64 (k.toInt.toNat * z))) u y := by
  cases hx with
  | @arr _ _ _ k' u' vs known size_ all elements =>
    rw [hu] at known
    cases known
    have hlt : k.toInt.toNat < vs.length := by omega
    have h1 : vs[k.toInt.toNat]? = some vs[k.toInt.toNat] := by simp [hlt]
    refine ⟨_, (C43_array_index_partial _ m fo env n e i t cnt a k vs _ li hi he).1 _ h0 h1, ?_⟩
    have e1 := C41_size _ _ _ hz
    rw [C41_size _ _ _ size_] at e1
    have e2 : BitVec.ofNat 64 k' = BitVec.ofNat 64 z := by injection e1
    have e3 : ∀ j, BitVec.ofNat 64 (k.toInt.toNat * j) = BitVec.ofNat 64 k.toInt.toNat * BitVec.ofNat 64 j := by
      intro j
      apply BitVec.eq_of_toNat_eq
      simp [BitVec.toNat_mul, Nat.mul_mod]
    have := elements _ _ h1
    rw [e3, e2, ← e3] at this
    exact this

/-- C79. A variable is read by its name, with any blanks around it. -/
theorem C79_text (hs : Native.Shows h n s) (hsz : c.size < 2 ^ 63) {name text : Str} {ty : Ty} {l : List LocIns} (hd : Declared env s name ty l)
    (ht : Layout h.stod [.id name] text) {p : Loc} (hp : Place h.cfg s l p) {x : Val} (hx : ValueAt h.cfg c.size env.types s p ty x) :
    Ex.evaluate (target h c) m fo h.stod env text n = (.ok x, n) := by
  rw [evaluate_parsed (e := .ident name) (C42_round_trip_partial trivial trivial ht) (target_ip hs)]
  exact C79_variable hs hsz hd hp hx

end

/-! ## The variables in scope -/

theorem enter_ok : ∀ (l : List Die) (r : Map Str Die), Map.Ok r → Map.Ok (enter r l)
  | [], r, h => h
  | d :: l, r, h => by
    unfold enter
    rw [List.foldl_cons]
    refine enter_ok l _ ?_
    cases d.findName with
    | none => exact h
    | some n => exact Map.Ok.assign h n d

/-- C79. The variables in scope are those that are visible, each once, in the order of their names. -/
theorem C79_scope (src : Src.Source) {top : Die} (ht : src.top = some top) (a : Nat) :
    (Src.scopedVariables src a).Pairwise (· < ·) ∧
    ∀ name, name ∈ Src.scopedVariables src a ↔ ∃ k v, Visible a top k v ∧ v.findName = some name := by
  have ok : Map.Ok (getActiveVariables (some top) a) := by
    show Map.Ok (findVariables a [] top)
    rw [findVariables_eq]
    exact enter_ok _ _ Map.Ok.nil
  obtain ⟨h1, h2⟩ := foldKeys (getActiveVariables (some top) a) [] List.Pairwise.nil
  rw [List.append_nil] at h1
  unfold Src.scopedVariables
  rw [ht]
  constructor
  · rw [List.pairwise_map]
    have hn : (Src.sortKeys (getActiveVariables (some top) a)).Pairwise fun x y => x.1 ≠ y.1 :=
      List.pairwise_map.1 ((h1.map Prod.fst).nodup_iff.2 ok)
    refine (h2.and hn).imp fun {x y} hxy => ?_
    by_cases hlt : x.1 < y.1
    · exact hlt
    · exact absurd (str_eq hlt hxy.1) hxy.2
  · intro name
    rw [show (name ∈ (Src.sortKeys (getActiveVariables (some top) a)).map (·.1)) ↔ name ∈ (getActiveVariables (some top) a).map (·.1) from
      (h1.map Prod.fst).mem_iff]
    obtain ⟨c1, c2⟩ := C39_visible top a name
    constructor
    · intro h
      obtain ⟨⟨k, d⟩, hd, rfl⟩ := List.mem_map.1 h
      obtain ⟨e1, k', e2⟩ := c2 d (Map.find_eq_some_of_mem ok hd)
      exact ⟨k', d, e2, e1⟩
    · rintro ⟨k, v, hv, hn⟩
      obtain ⟨v', hv'⟩ := c1 k v hv hn
      exact List.mem_map.2 ⟨(name, v'), Map.mem_of_find hv', rfl⟩

/-! ## Showing them -/

/-- What is shown of a variable: its type, its name and its value; nothing if its location is not known. -/
inductive VarLine (h : Host) (size : Nat) (env : Ex.Env) (s : State) : Str → List Str → Prop
  | shown {name : Str} {ty : Ty} {l : List LocIns} {p : Loc} {x : Val} {w t : Str} (word : Layout h.stod [.id name] name)
      (declared : Declared env s name ty l) (place : Place h.cfg s l p) (value : ValueAt h.cfg size env.types s p ty x)
      (type_ : TypeText env.types ty w) (text : ValText s size env.types h.ftos x t) :
      VarLine h size env s name ["(".toList ++ w ++ ") ".toList ++ name ++ " = ".toList ++ t]
  | hidden {name : Str} {d : Die} (word : Layout h.stod [.id name] name) (found : getVariableDie env.top s.pc.toNat name = some d)
      (missing : d.findLocation = none ∨ d.findLocation = some []) : VarLine h size env s name []

section
open Cli
variable {n : Native} {s : State}

theorem evaluate_keeps (e : Cli.Env) {cli : Cli} (hp : cli.process = some n) {text : Str} {r : Except Err Val}
    (h : Ex.evaluate (target cli.host cli.client) e.mode e.fo cli.host.stod cli.source.env text n = (r, n)) :
    Cli.evaluate e text false cli = (r.map fun v => (v, 0), cli) := by
  have hc : { cli with process := some n } = cli := by rw [← hp]
  have k : Src.evaluateExpression cli.host cli.client e.mode e.fo text false cli.source n = (r.map fun v => (v, 0, cli.source), n) := by
    unfold Src.evaluateExpression
    cases r with
    | ok v => exact (Job.bind_eq h).trans rfl
    | error er => exact Job.bind_error h
  unfold Cli.evaluate
  rw [hp]
  simp only [k]
  cases r with
  | ok v => exact Prod.ext rfl hc
  | error er => exact Prod.ext rfl hc

theorem needRunning_eq {cli : Cli} (hr : cli.running = true) : needRunning cli = (.ok (), cli) := by
  unfold needRunning
  refine (Job.bind_eq (x := Job.get) (a := cli) (t := cli) rfl).trans ?_
  rw [if_pos hr]
  rfl

theorem printVariable_line (e : Cli.Env) {cli : Cli} (hp : cli.process = some n) (hs : Native.Shows cli.host n s) (hsz : cli.client.size < 2 ^ 63)
    (hf : cli.client.size ≤ e.fuel) {name : Str} {out : List Str} (hv : VarLine cli.host cli.client.size cli.source.env s name out) :
    ignoring (printVariable e name) cli = (.ok (), { cli with out := cli.out ++ out.map .print }) := by
  have hc : { cli with process := some n } = cli := by rw [← hp]
  cases hv with
  | @shown ty l p x w t word declared place value type_ text =>
    have k1 := evaluate_keeps e hp (C79_text (m := e.mode) (fo := e.fo) hs hsz declared word place value)
    have k2 : printVariable e name cli = (.ok (), { cli with out := cli.out ++ [.print ("(".toList ++ w ++ ") ".toList ++ name ++ " = ".toList ++ t)] }) := by
      unfold printVariable
      refine (Job.bind_eq k1).trans ?_
      refine (Job.bind_eq (x := Job.get) rfl).trans ?_
      refine (Job.bind_eq (call_eq hp (C78_value hs hsz hf text))).trans ?_
      have k3 : Native.getIP cli.host n = (.ok s.pc, n) := hs.regs .pc (by simp [shown])
      rw [hc]
      refine (Job.bind_eq (call_eq hp k3)).trans ?_
      obtain ⟨d, id, h1, h2, h3, h4⟩ := declared.found
      have k4 : getVariableType cli.source.env s.pc.toNat name = some ty := by
        unfold getVariableType
        rw [h1]
        simp only [h2, h3]
      rw [k4, hc]
      dsimp only
      have k5 : Src.typeToString cli.source.types ty = .ok w := ((C78_type ty).1 w).2 type_
      rw [k5]
      refine (Job.bind_eq (x := Job.ofExcept (.ok w)) rfl).trans ?_
      rfl
    unfold ignoring
    rw [k2]
    rfl
  | @hidden d word found missing =>
    have k0 : Ex.evaluate (target cli.host cli.client) e.mode e.fo cli.host.stod cli.source.env name n = (.error .debugger, n) := by
      rw [evaluate_parsed (e := .ident name) (C42_round_trip_partial trivial trivial word) (target_ip hs)]
      show (((target cli.host cli.client).ip n >>= fun ip => variableValue e.mode cli.source.env ((target cli.host cli.client).view n) ip name), n) = _
      rw [target_ip hs]
      congr 1
      show variableValue e.mode cli.source.env ((target cli.host cli.client).view n) s.pc.toNat name = _
      have : getVariableLocation e.mode ((target cli.host cli.client).view n) cli.source.env.top s.pc.toNat name = .ok none := by
        unfold getVariableLocation
        rcases missing with h | h
        · simp only [found, h]
        · simp only [found, h]; rfl
      unfold variableValue
      rw [this]
      rfl
    have k1 := evaluate_keeps e hp k0
    have k2 : printVariable e name cli = (.error .debugger, cli) := by
      unfold printVariable
      exact Job.bind_error k1
    unfold ignoring
    rw [k2]
    simp

theorem printVariables_lines (e : Cli.Env) : ∀ {names : List Str} {outs : List (List Str)} {cli : Cli}, cli.process = some n →
    Native.Shows cli.host n s → cli.client.size < 2 ^ 63 → cli.client.size ≤ e.fuel →
    List.Forall₂ (VarLine cli.host cli.client.size cli.source.env s) names outs →
    printVariables e names cli = (.ok (), { cli with out := cli.out ++ outs.flatten.map .print })
  | _, _, cli, _, _, _, _, .nil => by simp [printVariables]; rfl
  | _, _, cli, hp, hs, hsz, hf, .cons (l₁ := ns) (l₂ := os) (b := o) hv hl => by
    unfold printVariables
    refine (Job.bind_eq (printVariable_line e hp hs hsz hf hv)).trans ?_
    rw [printVariables_lines e (cli := { cli with out := cli.out ++ o.map .print }) hp hs hsz hf hl]
    simp

/-- C79. `frame` shows the function the next instruction belongs to, with its first address and the address behind its end, and then each
variable in scope, in the order of their names. Nothing changes. -/
theorem C79_frame (e : Cli.Env) {cli : Cli} {raw : Str} (hk : Is .frame raw) (hp : cli.process = some n) (hr : cli.running = true)
    (hs : Native.Shows cli.host n s) (hsz : cli.client.size < 2 ^ 63) (hf : cli.client.size ≤ e.fuel) {f : Str} {b d : Nat}
    (h1 : getFunctionNameByAddress cli.source.top s.pc.toNat = some f) (h2 : getFunctionAddrByName cli.source.top f = some (b, d))
    {outs : List (List Str)} (hv : List.Forall₂ (VarLine cli.host cli.client.size cli.source.env s) (Src.scopedVariables cli.source s.pc.toNat) outs) :
    typed e raw cli = (.ok (), { cli with
      out := cli.out ++ .print ("function ".toList ++ f ++ " at ".toList ++ decimal b ++ "-".toList ++ decimal d) :: outs.flatten.map .print }) := by
  have hc : { cli with process := some n } = cli := by rw [← hp]
  rw [typed_is e hk (by decide) (by decide) (by decide) (by rw [hp]; rfl)]
  have k : perform e (some .frame) (firstWord (squashStrip raw)).2 cli = (.ok (), { cli with
      out := cli.out ++ .print ("function ".toList ++ f ++ " at ".toList ++ decimal b ++ "-".toList ++ decimal d) :: outs.flatten.map .print }) := by
    change handleFrame e cli = _
    unfold handleFrame
    refine (Job.bind_eq (process_eq (by rw [hp]; rfl))).trans ?_
    refine (Job.bind_eq (needRunning_eq hr)).trans ?_
    have k3 : Native.getIP cli.host n = (.ok s.pc, n) := hs.regs .pc (by simp [shown])
    refine (Job.bind_eq (call_eq hp k3)).trans ?_
    rw [hc]
    unfold printFunction
    refine (Job.bind_eq (x := Job.get) rfl).trans ?_
    simp only [h1, h2]
    rw [ofNat_decimal, ofNat_decimal]
    refine (Job.bind_eq (x := put _) rfl).trans ?_
    have := printVariables_lines e (cli := { cli with
      out := cli.out ++ [.print ("function ".toList ++ f ++ " at ".toList ++ decimal b ++ "-".toList ++ decimal d ++ [])] }) hp hs hsz hf hv
    refine Eq.trans this ?_
    simp
  rw [k]
  rfl

end

/-! ## A type that cannot be read -/

/-- C79 fails for variables of type unsigned: they cannot be read, and the error is none the debugger catches. -/
theorem C79_unsigned {h : Host} {c : Client} {m : Mode} {fo : Floats} {env : Ex.Env} {n : Native} {s : State} (hs : Native.Shows h n s)
    (hsz : c.size < 2 ^ 63) {name : Str} {sz : Word} {l : List LocIns} (hd : Declared env s name (.prim .unsigned sz) l) {p : Loc}
    (hp : Place h.cfg s l p) {w : Word} (hw : Stored h.cfg c.size s p w) :
    eval (target h c) m fo env (.ident name) n = (.error .runtime, n) := by
  have hv := shows_sees (c := c) hs hsz
  rw [eval_declared hs hd (sees_place hv m hp)]
  show (getRaw ((target h c).view n) p >>= fun raw => _, n) = _
  rw [sees_raw hv hw]
  rfl

/-! ## Examples -/

namespace Sample

/-- A function with a structure in the cells 3 and 4, an array in the cells 3 to 5, and a variable that is nowhere. -/
def framed : Die := .mk .unit []
  [.mk .function [.name "f".toList, .beginAddr 0, .endAddr 9]
    [.mk .variable [.name "v".toList, .type 6, .location [.push (.off 1), .push (.off 2), .add]] [],
     .mk .variable [.name "u".toList, .type 0] [],
     .mk .variable [.name "q".toList, .type 1, .location [.push (.off 3)]] []]]

/-- The debugger at the end of the history. -/
def frameCli : Cli := { host := host, client := client, process := some stop, source := { top := some framed, types := types ++ [(6, .arr 0 3)] } }

theorem frameCli_cells {s : State} (hs : Native.Shows host stop s) (a : Word) (ha : a = 3 ∨ a = 4 ∨ a = 5) :
    Stored host.cfg client.size s (.off a) 0 := by
  rcases ha with rfl | rfl | rfl <;> refine .cell (by decide) ?_ <;> rw [← hs.machine.mem] <;> decide +kernel

theorem frameCli_word (c : Char) (h : Lexer.isIdStart c = true) : Layout host.stod [.id [c]] [c] :=
  .cons (g := []) (w := [c]) (rest := []) .nil (.id h (by simp)) (.nil (.gap .nil)) (fun _ _ h => by cases h)

end Sample

/-- What is shown of the function. -/
example : (Cli.typed Cli.exEnv " frame".toList Sample.frameCli) = (.ok (), { Sample.frameCli with
    out := ["function f at 0-9", "(s) q = { a = 0, b = 0 }", "(int[]) v = [0, 0, 0]"].map fun x => .print x.toList }) := by
  obtain ⟨s, hs⟩ := Sample.calls_shows
  have hs : Native.Shows Sample.frameCli.host Sample.stop s := hs
  have hpc : s.pc = 4 := by
    have h1 : getIP Sample.host Sample.stop = (.ok s.pc, Sample.stop) := hs.regs .pc (by simp [shown])
    have h2 : (getIP Sample.host Sample.stop).1 = .ok 4 := by decide +kernel
    rw [h1] at h2
    injection h2
  have int : ∀ a : Word, a = 3 ∨ a = 4 ∨ a = 5 → ValueAt Sample.host.cfg Sample.client.size Sample.frameCli.source.env.types s (.off a)
      (.prim .signed 1) (.int 0 (some (.off a))) := fun a ha => .int (Sample.frameCli_cells hs a ha)
  have q : VarLine Sample.host Sample.client.size Sample.frameCli.source.env s "q".toList ["(s) q = { a = 0, b = 0 }".toList] := by
    refine .shown (ty := .struct "s".toList 2 [⟨"a".toList, 0, 0⟩, ⟨"b".toList, 0, 1⟩]) (l := [.push (.off 3)]) (p := .off 3)
      (x := .struct "s".toList 2 [("a".toList, .int 0 (some (.off 3))), ("b".toList, .int 0 (some (.off 4)))] (some (.off 3)))
      (w := "s".toList) (t := "{ a = 0, b = 0 }".toList) (Sample.frameCli_word _ (by decide)) ⟨⟨_, 1, by rw [hpc]; rfl, rfl, rfl, rfl⟩, by simp⟩
      ⟨[], .cons .push .nil⟩ ?_ .struct ?_
    · refine .struct (us := [.prim .signed 1, .prim .signed 1]) (vs := [.int 0 (some (.off 3)), .int 0 (some (.off 4))]) .off (by decide) ?_ rfl ?_ rfl ?_
      · intro m hm
        simp only [List.mem_cons, List.not_mem_nil, or_false] at hm
        rcases hm with rfl | rfl <;> unfold NoOverflow <;> decide
      · rintro (_ | _ | i) m u h1 h2 <;> simp at h1 h2 <;> subst h1 h2 <;> rfl
      · rintro (_ | _ | i) m u v h1 h2 h3 <;> simp at h1 h2 h3 <;> subst h1 h2 h3
        · exact int 3 (by simp)
        · exact int 4 (by simp)
    · exact .struct (ts := ["0".toList, "0".toList]) (ys := [("a".toList, "0".toList), ("b".toList, "0".toList)])
        (.cons .int (.cons .int .nil)) (.refl _) (by decide)
  have v : VarLine Sample.host Sample.client.size Sample.frameCli.source.env s "v".toList ["(int[]) v = [0, 0, 0]".toList] := by
    refine .shown (ty := .arr 0 3) (l := [.push (.off 1), .push (.off 2), .add]) (p := .off 3)
      (x := .arr 0 3 3 [.int 0 (some (.off 3)), .int 0 (some (.off 4)), .int 0 (some (.off 5))] (some (.off 3)))
      (w := "int[]".toList) (t := "[0, 0, 0]".toList) (Sample.frameCli_word _ (by decide)) ⟨⟨_, 6, by rw [hpc]; rfl, rfl, rfl, rfl⟩, by simp⟩
      ⟨[], .cons .push (.cons .push (.cons (.add .off .off (by unfold NoOverflow; decide)) .nil))⟩ ?_ (.arr rfl .signed) ?_
    · refine .arr (u := .prim .signed 1) (k := 1) rfl (.prim 0 .signed 1 rfl) rfl ?_
      rintro (_ | _ | _ | i) v h1 <;> simp at h1 <;> subst h1
      · exact int 3 (by simp)
      · exact int 4 (by simp)
      · exact int 5 (by simp)
    · exact .arr (ts := ["0".toList, "0".toList, "0".toList]) (by simp) (.cons .int (.cons .int (.cons .int .nil)))
  have u : VarLine Sample.host Sample.client.size Sample.frameCli.source.env s "u".toList [] :=
    .hidden (Sample.frameCli_word _ (by decide)) (by rw [hpc]; rfl) (.inl rfl)
  refine (C79_frame Cli.exEnv (f := "f".toList) (b := 0) (d := 9) (outs := [["(s) q = { a = 0, b = 0 }".toList], [], ["(int[]) v = [0, 0, 0]".toList]])
    ⟨by decide, by decide⟩ rfl rfl hs (by decide) (by decide) (by rw [hpc]; rfl) (by rfl) ?_).trans rfl
  rw [hpc]
  exact .cons q (.cons u (.cons v .nil))

/-- A variable of type unsigned ends the debugger. -/
theorem C79_ends : (Cli.typed Cli.exEnv "frame".toList { Sample.frameCli with
    source := { top := some Sample.framed, types := [(0, .prim .unsigned 1), (6, .arr 0 3)] } }).1 = .error .runtime := by
  decide +kernel


end T86
