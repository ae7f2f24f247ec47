import Verif.Model.Expr
import Verif.Spec.Session
import Verif.Spec.Source

/-! # What the value of a variable is (C79)

In terms of a state of the sequential machine. `size` is the number of memory cells the debugger can see. -/

namespace T86
open Dbg Isa Ex

/-- The sum of two signed numbers is one. -/
def NoOverflow (x y : Word) : Prop := x.toInt + y.toInt = (x + y).toInt

/-- The number a location stands for in an address: an offset for itself, a register for what is in it. -/
inductive Number (cfg : Cfg) (s : State) : Loc → Word → Prop
  | off {a : Word} : Number cfg s (.off a) a
  | reg {r : Reg} (known : r ∈ shown cfg) : Number cfg s (.reg r.print) (s.look (.int r))

/-- The meaning of an instruction of a location expression, on a stack with its top first. There is nothing about DEREFERENCE here. -/
inductive PlaceStep (cfg : Cfg) (s : State) : List Loc → LocIns → List Loc → Prop
  | push {x : Loc} {st : List Loc} : PlaceStep cfg s st (.push x) (x :: st)
  | add {a b : Loc} {x y : Word} {st : List Loc} (left : Number cfg s a x) (right : Number cfg s b y) (fits : NoOverflow x y) :
      PlaceStep cfg s (a :: b :: st) .add (.off (x + y) :: st)
  | base {o : Word} {st : List Loc} (fits : NoOverflow (s.look (.int .bp)) o) :
      PlaceStep cfg s st (.baseOffset o) (.off (s.look (.int .bp) + o) :: st)

/-- The meaning of a sequence of instructions. -/
inductive PlaceRun (cfg : Cfg) (s : State) : List Loc → List LocIns → List Loc → Prop
  | nil {st : List Loc} : PlaceRun cfg s st [] st
  | cons {st st1 st2 : List Loc} {i : LocIns} {l : List LocIns} (first : PlaceStep cfg s st i st1) (rest : PlaceRun cfg s st1 l st2) :
      PlaceRun cfg s st (i :: l) st2

/-- The location a location expression denotes. -/
def Place (cfg : Cfg) (s : State) (l : List LocIns) (p : Loc) : Prop := ∃ st, PlaceRun cfg s [] l (p :: st)

/-- The number that is stored at a location: in a memory cell the debugger can see, or in a register. -/
inductive Stored (cfg : Cfg) (size : Nat) (s : State) : Loc → Word → Prop
  | cell {a w : Word} (seen : a.toNat < size) (cell : s.mem a = some w) : Stored cfg size s (.off a) w
  | reg {r : Reg} (known : r ∈ shown cfg) : Stored cfg size s (.reg r.print) (s.look (.int r))

/-- The value of a type at a location. A number, a character or a pointer is what is stored there. The members of a structure are at their
offsets from its beginning, the elements of an array one after the other, each as far from the one before as the size of their type says. -/
inductive ValueAt (cfg : Cfg) (size : Nat) (types : Types) (s : State) : Loc → Ty → Val → Prop
  | int {l : Loc} {w sz : Word} (stored : Stored cfg size s l w) : ValueAt cfg size types s l (.prim .signed sz) (.int w (some l))
  | float {l : Loc} {w sz : Word} (stored : Stored cfg size s l w) : ValueAt cfg size types s l (.prim .float sz) (.float w (some l))
  | char {l : Loc} {w sz : Word} (stored : Stored cfg size s l w) :
      ValueAt cfg size types s l (.prim .char sz) (.char (w.truncate 8) (some l))
  | ptr {l : Loc} {t : Nat} {w sz : Word} (stored : Stored cfg size s l w) : ValueAt cfg size types s l (.ptr t sz) (.ptr t sz w (some l))
  | struct {l : Loc} {a sz : Word} {name : Str} {ms : List Member} {us : List Ty} {vs : List Val} (begins : Number cfg s l a)
      (names : (ms.map (·.name)).Nodup) (fits : ∀ m ∈ ms, NoOverflow m.offset a) (types_ : us.length = ms.length)
      (known : ∀ (i : Nat) (m : Member) (u : Ty), ms[i]? = some m → us[i]? = some u → types.find m.typeId = some u)
      (all : vs.length = ms.length)
      (members : ∀ (i : Nat) (m : Member) (u : Ty) (v : Val), ms[i]? = some m → us[i]? = some u → vs[i]? = some v →
        ValueAt cfg size types s (.off (a + m.offset)) u v) :
      ValueAt cfg size types s l (.struct name sz ms) (.struct name sz ((ms.map (·.name)).zip vs) (some l))
  | arr {a cnt : Word} {t k : Nat} {u : Ty} {vs : List Val} (known : types.find t = some u) (size_ : SizeOf types t k)
      (all : vs.length = cnt.toNat)
      (elements : ∀ (i : Nat) (v : Val), vs[i]? = some v → ValueAt cfg size types s (.off (a + BitVec.ofNat 64 (i * k))) u v) :
      ValueAt cfg size types s (.off a) (.arr t cnt) (.arr t cnt a vs (some (.off a)))

end T86
