import Verif.Model.Expr
import Verif.Spec.Native

/-! # Values that agree, and where they are stored -/

namespace T86
open Dbg
namespace Ex

mutual
/-- Two values of the same shape: integers, characters, pointers to the same type, arrays of the same type and length, and
structures of the same name, where the second has all members of the first. With `eq` they have the same contents, too. Floating
point numbers are left out (see `C44_float`). -/
def Val.Agree (eq : Bool) : Val → Val → Prop
  | .int v _, .int w _ => eq = true → v = w
  | .char v _, .char w _ => eq = true → v = w
  | .ptr a _ v _, .ptr b _ w _ => a = b ∧ (eq = true → v = w)
  | .arr a _ _ ms _, .arr b _ _ ms' _ => a = b ∧ Val.AgreeL eq ms ms'
  | .struct n _ ms _, .struct n' _ ms' _ => n = n' ∧ Val.AgreeM eq ms ms'
  | _, _ => False

/-- Element by element. -/
def Val.AgreeL (eq : Bool) : List Val → List Val → Prop
  | [], [] => True
  | x :: l, y :: l' => Val.Agree eq x y ∧ Val.AgreeL eq l l'
  | _, _ => False

/-- Member by member. -/
def Val.AgreeM (eq : Bool) : List (Str × Val) → List (Str × Val) → Prop
  | [], _ => True
  | (n, x) :: l, ms' => (∃ y, Map.find ms' n = some y ∧ Val.Agree eq x y) ∧ Val.AgreeM eq l ms'
end

/-- The same shape. -/
abbrev Val.Like (x y : Val) : Prop := x.Agree false y

/-- The same shape and contents. -/
abbrev Val.Same (x y : Val) : Prop := x.Agree true y

mutual
/-- The values that can be assigned: as `Val.Like`, with floating point numbers, and every part of the first has a place. -/
def Val.Takes : Val → Val → Prop
  | .int _ l, .int _ _ => l ≠ none
  | .float _ l, .float _ _ => l ≠ none
  | .char _ l, .char _ _ => l ≠ none
  | .ptr a _ _ l, .ptr b _ _ _ => l ≠ none ∧ a = b
  | .arr a _ _ ms l, .arr b _ _ ms' _ => l ≠ none ∧ a = b ∧ Val.TakesL ms ms'
  | .struct n _ ms l, .struct n' _ ms' _ => l ≠ none ∧ n = n' ∧ Val.TakesM ms ms'
  | _, _ => False

/-- Element by element. -/
def Val.TakesL : List Val → List Val → Prop
  | [], [] => True
  | x :: l, y :: l' => Val.Takes x y ∧ Val.TakesL l l'
  | _, _ => False

/-- Member by member. -/
def Val.TakesM : List (Str × Val) → List (Str × Val) → Prop
  | [], _ => True
  | (n, x) :: l, ms' => (∃ y, Map.find ms' n = some y ∧ Val.Takes x y) ∧ Val.TakesM l ms'
end

/-- Which of the six kinds of values it is. -/
def Val.sort : Val → Nat
  | .int .. => 0
  | .float .. => 1
  | .char .. => 2
  | .ptr .. => 3
  | .arr .. => 4
  | .struct .. => 5

/-- What can be seen at once to be no assignment: to something without a place, between different kinds of values, between pointers
to or arrays of different types, and between structures of different names, or where the first member is missing. -/
inductive Val.Foreign : Val → Val → Prop
  | noPlace {x y : Val} : x.loc = none → Val.Foreign x y
  | sort {x y : Val} : x.sort ≠ y.sort → Val.Foreign x y
  | pointee {a b : Nat} {p q v w : Word} {l l' : Option Loc} : a ≠ b → Val.Foreign (.ptr a p v l) (.ptr b q w l')
  | element {a b : Nat} {p q v w : Word} {l l' : Option Loc} {ms ms' : List Val} : a ≠ b → Val.Foreign (.arr a p v ms l) (.arr b q w ms' l')
  | name {a b : Str} {p q : Word} {l l' : Option Loc} {ms ms' : List (Str × Val)} : a ≠ b →
      Val.Foreign (.struct a p ms l) (.struct b q ms' l')
  | member {a b n : Str} {p q : Word} {x : Val} {l l' : Option Loc} {ms ms' : List (Str × Val)} : Map.find ms' n = none →
      Val.Foreign (.struct a p ((n, x) :: ms) l) (.struct b q ms' l')

mutual
/-- Where the numbers, characters and addresses are that a value consists of. -/
def Val.places : Val → List (Option Loc)
  | .int _ l => [l]
  | .float _ l => [l]
  | .char _ l => [l]
  | .ptr _ _ _ l => [l]
  | .arr _ _ _ ms _ => Val.placesL ms
  | .struct _ _ ms _ => Val.placesM ms

/-- Of all elements. -/
def Val.placesL : List Val → List (Option Loc)
  | [] => []
  | x :: l => x.places ++ Val.placesL l

/-- Of all members. -/
def Val.placesM : List (Str × Val) → List (Option Loc)
  | [] => []
  | (_, x) :: l => x.places ++ Val.placesM l
end

/-- The location expression leads to `p`, whatever is in the places `ps`: also with any other contents of these it does, as long as
the registers and the other cells are the same. -/
def Steady (m : Mode) (v : View) (l : List LocIns) (ps : List (Option Loc)) (p : Loc) : Prop :=
  ∀ v' : View, (∀ r, v'.reg r = v.reg r) → (∀ b w, some (.off b) ∉ ps → v.mem b = .ok w → v'.mem b = .ok w) →
    interpret m v' l = .ok p

end Ex

/-- A cell of the program's memory which the debugger can reach. -/
def Isa.State.Cell (c : Client) (s : Isa.State) (l : Option Loc) : Prop :=
  ∃ a, l = some (.off a) ∧ a.toNat < c.size ∧ (s.mem a).isSome = true

end T86
