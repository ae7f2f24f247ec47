import Verif.Model.Source

/-! # What source level information means

Written from docs/source-info.md. -/

namespace T86
namespace Dbg

/-- The entry of a line mapping that counts for a line: the last one. -/
def entryOf (l : List (Nat × Nat)) (line : Nat) : Option Nat := (l.reverse.find? (·.1 = line)).map (·.2)

/-- A variable with a name. -/
def Die.NamedVariable (d : Die) : Prop := d.tag = .variable ∧ d.findName ≠ none

/-- A scope or function, whose variables only live inside its range. -/
def Die.Limited (d : Die) : Prop := d.tag = .scope ∨ d.tag = .function

/-- `Visible a top k v`: the variable `v` is `k` levels below `top` and every scope or function around it contains the
address `a`. -/
inductive Visible (a : Nat) : Die → Nat → Die → Prop
  | here (v : Die) : v.NamedVariable → Visible a v 0 v
  | inside (d c v : Die) (k : Nat) : ¬d.NamedVariable → (d.Limited → d.covers a = true) → c ∈ d.children →
      Visible a c k v → Visible a d (k + 1) v

/-- Every level declares its variables before its inner scopes, and of two scopes of one level at most one has variables
visible at `a`. -/
inductive Nested (a : Nat) : Die → Prop
  | mk (d : Die) : (∀ c ∈ d.children, Nested a c) →
      (∀ l x m y r, d.children = l ++ x :: m ++ y :: r → ¬x.NamedVariable →
        ¬y.NamedVariable ∧ ∀ k k' v v', Visible a x k v → ¬Visible a y k' v') → Nested a d

/-- The documented meaning of one instruction of a location expression, on a stack with its top first. An addition wraps. -/
def docStep (v : View) (s : List Loc) : LocIns → Except Err (List Loc)
  | .push x => .ok (x :: s)
  | .add =>
    match s with
    | a :: b :: s => do
        let x ← a.value v
        let y ← b.value v
        return .off (x + y) :: s
    | _ => .error .ub
  | .baseOffset off => do
      let bp ← v.reg "BP".toList
      return .off (bp + off) :: s
  | .deref =>
    match s with
    | [] => .error .ub
    | x :: s => do
        let a ← x.value v
        let w ← v.mem a
        return .off w :: s

/-- The documented result of a location expression: what is on the top at the end. -/
def docRun (v : View) (s : List Loc) : List LocIns → Except Err (List Loc)
  | [] => .ok s
  | i :: l => do
      let s' ← docStep v s i
      docRun v s' l

/-- The documented result of a location expression: what is on the top at the end. -/
def docEval (v : View) (l : List LocIns) : Except Err Loc := do
  let s ← docRun v [] l
  match s with
  | [] => .error .debugger
  | x :: _ => .ok x

/-- The type a debugging information entry declares, if it is complete. -/
def Die.declares (d : Die) : Option (Nat × Ty) :=
  match d.tag, d.findId with
  | .primitiveType, some id =>
      match d.findName.bind toPrimitive, d.findSize with
      | some p, some s => some (id, .prim p (BitVec.ofNat 64 s))
      | _, _ => none
  | .pointerType, some id =>
      match d.findType, d.findSize with
      | some t, some s => some (id, .ptr t (BitVec.ofNat 64 s))
      | _, _ => none
  | .arrayType, some id =>
      match d.findType, d.findSize with
      | some t, some s => some (id, .arr t (BitVec.ofNat 64 s))
      | _, _ => none
  | .structuredType, some id =>
      match d.findName, d.findSize, d.findMembers with
      | some n, some s, some ms => some (id, .struct n (BitVec.ofNat 64 s) ms)
      | _, _, _ => none
  | _, _ => none

/-- The number of cells of a type: the declared one, and for an array the number of elements times the size of one. -/
inductive SizeOf (types : Types) : Nat → Nat → Prop
  | prim (id : Nat) (p : Prim) (s : Word) : types.find id = some (.prim p s) → SizeOf types id s.toNat
  | ptr (id t : Nat) (s : Word) : types.find id = some (.ptr t s) → SizeOf types id s.toNat
  | struct (id : Nat) (n : Str) (s : Word) (ms : List Member) : types.find id = some (.struct n s ms) → SizeOf types id s.toNat
  | arr (id t n : Nat) (cnt : Word) : types.find id = some (.arr t cnt) → SizeOf types t n →
      SizeOf types id (n * cnt.toNat)

end Dbg
end T86
