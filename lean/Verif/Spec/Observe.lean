import Verif.Spec.Cli

/-! Debugging without changing anything. -/

namespace T86
open Dbg Str

/-- Calls that only look at the program or let it go on: they write no text, no register and no memory. -/
def Op.Looks : Op → Prop
  | .write _ _ | .setRegister _ _ | .setFloat _ _ | .writeMemory _ _ => False
  | _ => True

/-- Calls that let the program go on. -/
def Op.Moves : Op → Prop
  | .step | .raw | .over _ _ | .out _ | .go => True
  | _ => False

instance : DecidablePred Op.Looks := fun o => by cases o <;> unfold Op.Looks <;> infer_instance
instance : DecidablePred Op.Moves := fun o => by cases o <;> unfold Op.Moves <;> infer_instance

/-- A session of any successful calls that only look and let the program go on: breakpoints and watchpoints may come and go. -/
inductive Observing (h : Host) (c : Client) (prog : List Instr) (data : List Word) (inp : List (BitVec 8)) : Native → Prop
  | begin {n : Native} {e : Event} : Native.waitEvent h c (Native.connect h prog data inp) = (.ok e, n) → Observing h c prog data inp n
  | call {n n' : Native} (o : Op) : Observing h c prog data inp n → o.Looks → o.run h c n = (.ok (), n') → Observing h c prog data inp n'

/-- An expression with an assignment in it. -/
def Ex.Expr.Assigns : Ex.Expr → Prop
  | .un _ x | .member x _ | .arrow x _ => x.Assigns
  | .bin o x y => o = .assign ∨ x.Assigns ∨ y.Assigns
  | .index x y => x.Assigns ∨ y.Assigns
  | _ => False

/-- A text that is an expression with an assignment in it. -/
def Ex.Assigns (stod : Str → Except Err Word) (text : Str) : Prop := ∃ x, Ex.parse stod text = .ok x ∧ x.Assigns

/-- A line of the command line that only looks or lets the program go on: no new program, no text assembled, no memory or register
set (no parameter of these commands that stands for setting, in any abbreviation), no assignment evaluated. `frame` goes on after
errors, and is left out. -/
structure Cli.Looks (stod : Str → Except Err Word) (raw : Str) : Prop where
  run : ¬ Is .run raw
  attach : ¬ Is .attach raw
  assemble : ¬ Is .assemble raw
  frame : ¬ Is .frame raw
  memory : Is .memory raw → ∀ w, (split (firstWord (squashStrip raw)).2 ' ').head? = some w → ¬ w <+: "setstr".toList
  register : Is .register raw → ∀ w, (split (firstWord (squashStrip raw)).2 ' ').head? = some w → ¬ w <+: "set".toList ∧ ¬ w <+: "fset".toList
  expression : Is .expression raw → ¬ Ex.Assigns stod (firstWord (squashStrip raw)).2

/-- Lines that only look, typed one after the other and carried out. -/
inductive Cli.Watching (e : Env) : Cli → Cli → Prop
  | refl {s : Cli} : Watching e s s
  | line {s s' s'' : Cli} {raw : Str} : Watching e s s' → Looks s'.host.stod raw → Done e raw s' s'' → Watching e s s''

end T86
