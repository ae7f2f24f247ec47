import Verif.Model.Expr
import Verif.Spec.SourceDbg

/-! # How types and values should be written (C78) -/

namespace T86
open Dbg Isa Ex

/-- The decimal notation of a number. -/
def decimal (n : Int) : Str := if n < 0 then '-' :: Nat.toDigits 10 n.natAbs else Nat.toDigits 10 n.natAbs

/-- A type is written by its name, a pointer to it with an asterisk after it and an array of it with two brackets after it. -/
inductive TypeText (types : Types) : Ty → Str → Prop
  | float {sz : Word} : TypeText types (.prim .float sz) "float".toList
  | signed {sz : Word} : TypeText types (.prim .signed sz) "int".toList
  | unsigned {sz : Word} : TypeText types (.prim .unsigned sz) "unsigned".toList
  | char {sz : Word} : TypeText types (.prim .char sz) "char".toList
  | struct {name : Str} {sz : Word} {ms : List Member} : TypeText types (.struct name sz ms) name
  | ptr {t : Nat} {sz : Word} {u : Ty} {w : Str} (known : types.find t = some u) (text : TypeText types u w) :
      TypeText types (.ptr t sz) (w ++ ['*'])
  | arr {t : Nat} {cnt : Word} {u : Ty} {w : Str} (known : types.find t = some u) (text : TypeText types u w) :
      TypeText types (.arr t cnt) (w ++ ['[', ']'])
  | ptrUnknown {t : Nat} {sz : Word} (unknown : types.find t = none) : TypeText types (.ptr t sz) "<unknown>*".toList
  | arrUnknown {t : Nat} {cnt : Word} (unknown : types.find t = none) : TypeText types (.arr t cnt) "<unknown>*".toList

/-- The type of a value is written like this. -/
inductive ValTypeText (types : Types) : Val → Str → Prop
  | int {v : Word} {l : Option Loc} : ValTypeText types (.int v l) "int".toList
  | float {v : Word} {l : Option Loc} : ValTypeText types (.float v l) "float".toList
  | char {v : BitVec 8} {l : Option Loc} : ValTypeText types (.char v l) "char".toList
  | struct {name : Str} {sz : Word} {ms : List (Str × Val)} {l : Option Loc} : ValTypeText types (.struct name sz ms l) name
  | ptr {t : Nat} {sz v : Word} {l : Option Loc} {w : Str} (text : TypeText types (.ptr t sz) w) : ValTypeText types (.ptr t sz v l) w
  | arr {t : Nat} {cnt a : Word} {ms : List Val} {l : Option Loc} {w : Str} (text : TypeText types (.arr t cnt) w) :
      ValTypeText types (.arr t cnt a ms l) w

/-- The string that begins at `a`, in a memory of `size` cells: what is in the cells before the first zero. -/
def StringText (s : State) (size : Nat) (a : Word) (w : Str) : Prop :=
  ∃ l, s.Bytes a (l ++ [0]) ∧ 0 ∉ l ∧ a.toNat + l.length + 1 ≤ size ∧ w = l.flatMap shownByte

/-- How a value is written in the state `s`: a number in decimal notation, signed for an integer and unsigned for a pointer; a
character between apostrophes; a pointer to char and an array of char with the string it points to; any other array as the list of its members;
a structure as the list of its members with their names, in the order of the names. `ftos` writes numbers of type float. -/
inductive ValText (s : State) (size : Nat) (types : Types) (ftos : Word → Str) : Val → Str → Prop
  | int {v : Word} {l : Option Loc} : ValText s size types ftos (.int v l) (decimal v.toInt)
  | float {v : Word} {l : Option Loc} : ValText s size types ftos (.float v l) (ftos v)
  | char {v : BitVec 8} {l : Option Loc} : ValText s size types ftos (.char v l) ['\'', Char.ofNat v.toNat, '\'']
  | ptr {t : Nat} {sz v : Word} {l : Option Loc} (other : ∀ sz', types.find t ≠ some (.prim .char sz')) :
      ValText s size types ftos (.ptr t sz v l) (decimal v.toNat)
  | string {t : Nat} {sz sz' v : Word} {l : Option Loc} {w : Str} (char : types.find t = some (.prim .char sz'))
      (text : StringText s size v w) : ValText s size types ftos (.ptr t sz v l) (decimal v.toNat ++ " \"".toList ++ w ++ "\"".toList)
  | chars {t : Nat} {cnt a : Word} {ms : List Val} {b : BitVec 8} {l l' : Option Loc} {w : Str} (last : ms.getLast? = some (.char b l'))
      (text : StringText s size a w) : ValText s size types ftos (.arr t cnt a ms l) (decimal a.toNat ++ " \"".toList ++ w ++ "\"".toList)
  | arr {t : Nat} {cnt a : Word} {ms : List Val} {l : Option Loc} {ts : List Str} (last : ∀ b l', ms.getLast? ≠ some (.char b l'))
      (texts : List.Forall₂ (ValText s size types ftos) ms ts) :
      ValText s size types ftos (.arr t cnt a ms l) ("[".toList ++ List.intercalate ", ".toList ts ++ "]".toList)
  | struct {name : Str} {sz : Word} {ms : List (Str × Val)} {l : Option Loc} {ts : List Str} {ys : List (Str × Str)}
      (texts : List.Forall₂ (ValText s size types ftos) (ms.map Prod.snd) ts) (same : ys.Perm ((ms.map Prod.fst).zip ts))
      (sorted : ys.Pairwise fun x y => x.1 < y.1) :
      ValText s size types ftos (.struct name sz ms l)
        ("{ ".toList ++ List.intercalate ", ".toList (ys.map fun y => y.1 ++ " = ".toList ++ y.2) ++ " }".toList)

/-- Two values of the same type, in which there are no strings and no numbers of type float. -/
inductive ValSameType (types : Types) : Val → Val → Prop
  | int {v v' : Word} {l l' : Option Loc} : ValSameType types (.int v l) (.int v' l')
  | char {v v' : BitVec 8} {l l' : Option Loc} : ValSameType types (.char v l) (.char v' l')
  | ptr {t : Nat} {sz v v' : Word} {l l' : Option Loc} (other : ∀ sz', types.find t ≠ some (.prim .char sz')) :
      ValSameType types (.ptr t sz v l) (.ptr t sz v' l')
  | arr {t : Nat} {cnt a a' : Word} {ms ms' : List Val} {l l' : Option Loc} (last : ∀ b l', ms.getLast? ≠ some (.char b l'))
      (members : List.Forall₂ (ValSameType types) ms ms') : ValSameType types (.arr t cnt a ms l) (.arr t cnt a' ms' l')
  | struct {name : Str} {sz : Word} {ms ms' : List (Str × Val)} {l l' : Option Loc} (names : ms.map Prod.fst = ms'.map Prod.fst)
      (members : List.Forall₂ (ValSameType types) (ms.map Prod.snd) (ms'.map Prod.snd)) :
      ValSameType types (.struct name sz ms l) (.struct name sz ms' l')

/-- Two values with the same contents, no matter where they are stored. -/
inductive ValSame : Val → Val → Prop
  | int {v : Word} {l l' : Option Loc} : ValSame (.int v l) (.int v l')
  | char {v : BitVec 8} {l l' : Option Loc} : ValSame (.char v l) (.char v l')
  | ptr {t : Nat} {sz v : Word} {l l' : Option Loc} : ValSame (.ptr t sz v l) (.ptr t sz v l')
  | arr {t : Nat} {cnt a a' : Word} {ms ms' : List Val} {l l' : Option Loc} (members : List.Forall₂ ValSame ms ms') :
      ValSame (.arr t cnt a ms l) (.arr t cnt a' ms' l')
  | struct {name : Str} {sz : Word} {ms ms' : List (Str × Val)} {l l' : Option Loc} (names : ms.map Prod.fst = ms'.map Prod.fst)
      (members : List.Forall₂ ValSame (ms.map Prod.snd) (ms'.map Prod.snd)) :
      ValSame (.struct name sz ms l) (.struct name sz ms' l')

end T86
