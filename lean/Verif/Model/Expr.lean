import Verif.Model.ExprParse
import Verif.Model.Source
import Verif.Model.Native

/-! # Evaluating debugger expressions: src/debugger/Source/Expression.cpp -/

namespace T86
open Dbg Str

namespace Ex

/-- Models: src/debugger/Source/Expression.h:17-79 (`TypedValue` and the structures it consists of). -/
inductive Val
  | ptr (typeId : Nat) (size : Word) (v : Word) (loc : Option Loc)
  | int (v : Word) (loc : Option Loc)
  | float (v : Word) (loc : Option Loc)
  | char (v : BitVec 8) (loc : Option Loc)
  | struct (name : Str) (size : Word) (members : List (Str × Val)) (loc : Option Loc)
  | arr (typeId : Nat) (cnt : Word) (start : Word) (members : List Val) (loc : Option Loc)

namespace Val

/-- `Located::loc`. -/
def loc : Val → Option Loc
  | .ptr _ _ _ l => l
  | .int _ l => l
  | .float _ l => l
  | .char _ l => l
  | .struct _ _ _ l => l
  | .arr _ _ _ _ l => l

/-- Models: src/debugger/Source/Expression.cpp:27-34 (`AddLocation`). -/
def setLoc (l : Loc) : Val → Val
  | .ptr t s v _ => .ptr t s v (some l)
  | .int v _ => .int v (some l)
  | .float v _ => .float v (some l)
  | .char v _ => .char v (some l)
  | .struct n s ms _ => .struct n s ms (some l)
  | .arr t c b ms _ => .arr t c b ms (some l)

end Val

/-- Floating point operations of the debugger: those of the machine, comparisons, and the conversion to `uint64_t`, which is
undefined for some values. -/
structure Floats extends FloatOps where
  lt : Word → Word → Bool
  eq : Word → Word → Bool
  toUnsigned : Word → Option Word

/-- What the evaluation uses of `Native`: reading registers and memory cells, the current address, and writing. Simplification:
reading does not change the state (`C49_read_memory` and `C49_read_register` prove it for reads that succeed at a stop). -/
structure Target (σ : Type) where
  view : σ → View
  ip : σ → Except Err Nat
  setReg : Str → Word → Job σ Unit
  setMem : Word → Word → Job σ Unit

/-- The source level information and the values of earlier expressions. Models: src/debugger/Source/Source.h:172-176 (data members
of `Source`). -/
structure Env where
  top : Option Die
  types : Types
  evaluated : List Val

/-- Signed arithmetic of the debugger's own C++ code. -/
def ub {α : Type} : Res α → Except Err α
  | .ok a => .ok a
  | .error _ => .error .ub

/-- Models: src/debugger/Source/Expression.cpp:9-18 (`GetRawValue`). -/
def getRaw (v : View) : Loc → Except Err Word
  | .reg n => v.reg n
  | .off a => v.mem a

/-- `IntegerValue`, `FloatValue` or `CharValue` with these bits. Models: src/debugger/Source/Expression.cpp:39-50. -/
def primitive (p : Prim) (raw : Word) (l : Loc) : Except Err Val :=
  match p with
  | .signed => .ok (.int raw (some l))
  | .float => .ok (.float raw (some l))
  | .char => .ok (.char (raw.truncate 8) (some l))
  | .unsigned => .error .runtime

/-- Models: src/debugger/Source/Expression.cpp:36-95 (`EvaluateTypeAndLocation`). `fuel` bounds the depth of the recursion, which
goes from a type to the types of its parts. Simplification: a type that contains itself is `diverge`, although reading its parts
may fail first. -/
def evaluateAt (m : Mode) (types : Types) (v : View) : Nat → Loc → Ty → Except Err Val
  | 0, _, _ => .error .diverge
  | fuel + 1, l, ty =>
    match ty with
    | .prim p _ => do
        let raw ← getRaw v l
        primitive p raw l
    | .ptr t s => do
        let raw ← getRaw v l
        return .ptr t s raw (some l)
    | .struct n s ms => do
        let vs ← ms.foldlM (fun acc mem => do
          let ml ← interpret m v [.push l, .push (.off mem.offset), .add]
          match types.find mem.typeId with
          | none => .error .debugger
          | some mt => do
            let mv ← evaluateAt m types v fuel ml mt
            return Map.emplace acc mem.name (mv.setLoc ml)) []
        return .struct n s vs (some l)
    | .arr t cnt =>
      match l with
      | .reg _ => .error .debugger
      | .off a =>
        match types.find t with
        | none => .error .debugger
        | some mt => do
          let vs ← (List.range cnt.toNat).mapM (fun i => do
            let size ← getTypeSize types t
            let ml := Loc.off (a + BitVec.ofNat 64 i * size)
            let mv ← evaluateAt m types v fuel ml mt
            return mv.setLoc ml)
          return .arr t cnt a vs (some l)

/-- With the bound that is never reached for types that do not contain themselves. -/
def evaluateTL (m : Mode) (types : Types) (v : View) (l : Loc) (ty : Ty) : Except Err Val :=
  evaluateAt m types v (types.length + 2) l ty

/-- Models: src/debugger/Source/Source.cpp:268-287 (`GetVariableTypeInformation`). -/
def getVariableType (e : Env) (ip : Nat) (name : Str) : Option Ty :=
  match getVariableDie e.top ip name with
  | none => none
  | some d =>
    match d.findType with
    | none => none
    | some t => e.types.find t

/-- Models: src/debugger/Source/Expression.cpp:97-104 (`Visit(Identifier)`). -/
def variableValue (m : Mode) (e : Env) (v : View) (ip : Nat) (name : Str) : Except Err Val := do
  let l ← getVariableLocation m v e.top ip name
  match l, getVariableType e ip name with
  | some l, some ty => evaluateTL m e.types v l ty
  | _, _ => .error .debugger

/-- Models: src/debugger/Source/Expression.cpp:113-125 (`Dereference`). -/
def dereference (m : Mode) (e : Env) (v : View) : Val → Except Err Val
  | .ptr t _ a _ =>
    match e.types.find t with
    | none => .error .debugger
    | some ty => evaluateTL m e.types v (.off a) ty
  | _ => .error .debugger

/-- A `char` as an `int`. -/
def prom (c : BitVec 8) : BitVec 32 := c.signExtend 32

/-- An `int` as an `int64_t`. -/
def wide (x : BitVec 32) : Word := x.signExtend 64

/-- Models: src/debugger/Source/Expression.cpp:127-150 (`AddValues`). -/
def addValues (m : Mode) (fo : Floats) (types : Types) : Val → Val → Except Err Val
  | .int x _, .int y _ => do
      let r ← ub (sadd m x y)
      return .int r none
  | .float x _, .float y _ => .ok (.float (fo.add x y) none)
  | .char x _, .char y _ => .ok (.int (wide (prom x + prom y)) none)
  | .int x _, .ptr t s y _ => do
      let size ← getTypeSize types t
      return .ptr t s (x * size + y) none
  | .ptr t s x _, .int y _ => do
      let size ← getTypeSize types t
      return .ptr t s (x + y * size) none
  | _, _ => .error .debugger

/-- Models: src/debugger/Source/Expression.cpp:152-174 (`SubValues`). -/
def subValues (m : Mode) (fo : Floats) (types : Types) : Val → Val → Except Err Val
  | .int x _, .int y _ => do
      let r ← ub (ssub m x y)
      return .int r none
  | .float x _, .float y _ => .ok (.float (fo.sub x y) none)
  | .ptr t s x _, .int y _ => do
      let size ← getTypeSize types t
      return .ptr t s (x - y * size) none
  | .ptr t _ x _, .ptr t' _ y _ => if t ≠ t' then .error .debugger else .ok (.int (x - y) none)
  | _, _ => .error .debugger

/-- Models: src/debugger/Source/Expression.cpp:176-192 (`ArithmeticOp`), for `std::multiplies`. -/
def mulValues (m : Mode) (fo : Floats) : Val → Val → Except Err Val
  | .int x _, .int y _ => do
      let r ← ub (smul m x y)
      return .int r none
  | .float x _, .float y _ => .ok (.float (fo.mul x y) none)
  | .char x _, .char y _ => .ok (.int (wide (prom x * prom y)) none)
  | _, _ => .error .debugger

/-- Models: src/debugger/Source/Expression.cpp:176-192 (`ArithmeticOp`), for `std::divides`. -/
def divValues (fo : Floats) : Val → Val → Except Err Val
  | .int x _, .int y _ => do
      let r ← ub (sdivC x y)
      return .int r none
  | .float x _, .float y _ => .ok (.float (fo.div x y) none)
  | .char x _, .char y _ => if y = 0 then .error .ub else .ok (.int (wide ((prom x).sdiv (prom y))) none)
  | _, _ => .error .debugger

/-- A `bool` as an `int64_t`. -/
def ofBool (b : Bool) : Word := if b then 1 else 0

/-- A comparison or logical operator on the four kinds of values. -/
structure Cmp where
  int : Word → Word → Bool
  float : Word → Word → Bool
  char : BitVec 8 → BitVec 8 → Bool
  ptr : Word → Word → Bool

/-- Models: src/debugger/Source/Expression.cpp:194-213 (`CompareValues`). -/
def compareValues (o : Cmp) : Val → Val → Except Err Val
  | .int x _, .int y _ => .ok (.int (ofBool (o.int x y)) none)
  | .float x _, .float y _ => .ok (.int (ofBool (o.float x y)) none)
  | .char x _, .char y _ => .ok (.int (ofBool (o.char x y)) none)
  | .ptr _ _ x _, .ptr _ _ y _ => .ok (.int (ofBool (o.ptr x y)) none)
  | _, _ => .error .debugger

/-- The operators given to `CompareValues`: signed on integers and characters, unsigned on pointers.
Models: src/debugger/Source/Expression.cpp:404-435. -/
def cmpEq (fo : Floats) : Cmp := ⟨fun x y => x == y, fo.eq, fun x y => x == y, fun x y => x == y⟩
def cmpNeq (fo : Floats) : Cmp := ⟨fun x y => x != y, fun x y => !fo.eq x y, fun x y => x != y, fun x y => x != y⟩
def cmpLess (fo : Floats) : Cmp :=
  ⟨fun x y => decide (x.toInt < y.toInt), fo.lt, fun x y => decide (x.toInt < y.toInt), fun x y => decide (x.toNat < y.toNat)⟩
def cmpGreater (fo : Floats) : Cmp :=
  ⟨fun x y => decide (x.toInt > y.toInt), fun x y => fo.lt y x, fun x y => decide (x.toInt > y.toInt),
    fun x y => decide (x.toNat > y.toNat)⟩
def cmpLeq (fo : Floats) : Cmp :=
  ⟨fun x y => decide (x.toInt ≤ y.toInt), fun x y => fo.lt x y || fo.eq x y, fun x y => decide (x.toInt ≤ y.toInt),
    fun x y => decide (x.toNat ≤ y.toNat)⟩
def cmpGeq (fo : Floats) : Cmp :=
  ⟨fun x y => decide (x.toInt ≥ y.toInt), fun x y => fo.lt y x || fo.eq x y, fun x y => decide (x.toInt ≥ y.toInt),
    fun x y => decide (x.toNat ≥ y.toNat)⟩
def cmpAnd (fo : Floats) : Cmp :=
  ⟨fun x y => x != 0 && y != 0, fun x y => !fo.eqZero x && !fo.eqZero y, fun x y => x != 0 && y != 0, fun x y => x != 0 && y != 0⟩
def cmpOr (fo : Floats) : Cmp :=
  ⟨fun x y => x != 0 || y != 0, fun x y => !fo.eqZero x || !fo.eqZero y, fun x y => x != 0 || y != 0, fun x y => x != 0 || y != 0⟩

/-- Models: src/debugger/Source/Expression.cpp:215-228 (`BitValues`); characters become `int`s. -/
def bitValues (int : Word → Word → Except Err Word) (char : BitVec 32 → BitVec 32 → Except Err (BitVec 32)) : Val → Val → Except Err Val
  | .int x _, .int y _ => do
      let r ← int x y
      return .int r none
  | .char x _, .char y _ => do
      let r ← char (prom x) (prom y)
      return .int (wide r) none
  | _, _ => .error .debugger

/-- `%`, `<<` and `>>` on `int`s. -/
def mod32 (x y : BitVec 32) : Except Err (BitVec 32) := if y = 0 then .error .ub else .ok (x.srem y)
def shl32 (x y : BitVec 32) : Except Err (BitVec 32) :=
  if 0 ≤ y.toInt ∧ y.toInt < 32 then .ok (x <<< y.toNat) else .error .ub
def shr32 (x y : BitVec 32) : Except Err (BitVec 32) :=
  if 0 ≤ y.toInt ∧ y.toInt < 32 then .ok (x.sshiftRight y.toNat) else .error .ub

/-- Models: src/debugger/Source/Expression.cpp:253-268 (`CheckZero`): whether the value is *not* zero. -/
def checkZero (fo : Floats) : Val → Bool
  | .int x _ => x != 0
  | .float x _ => !fo.eqZero x
  | .char x _ => x != 0
  | _ => true

/-- Models: src/debugger/Source/Expression.cpp:270-283 (`EvaluateUnary`). -/
def evaluateUnary (int : Word → Except Err Word) (char : BitVec 8 → BitVec 8) : Val → Except Err Val
  | .int x _ => do
      let r ← int x
      return .int r none
  | .char x _ => .ok (.char (char x) none)
  | _ => .error .debugger

/-- Models: src/debugger/Source/Expression.cpp:285-298 (`Visit(UnaryOperator)`). -/
def unaryValue (m : Mode) (e : Env) (v : View) (o : UOp) (x : Val) : Except Err Val :=
  match o with
  | .deref => dereference m e v x
  | .not => evaluateUnary (fun a => .ok (~~~a)) (fun a => ~~~a) x
  | .lnot => evaluateUnary (fun a => .ok (ofBool (a == 0))) (fun a => if a = 0 then 1 else 0) x
  | .negate => evaluateUnary (fun a => ub (sneg m a)) (fun a => -a) x

/-- Models: src/debugger/Source/Expression.cpp:376-457 (`Visit(BinaryOperator)`) without the assignment. -/
def binaryValue (m : Mode) (fo : Floats) (e : Env) (o : BOp) (x y : Val) : Except Err Val :=
  match o with
  | .add => addValues m fo e.types x y
  | .sub => subValues m fo e.types x y
  | .mul => mulValues m fo x y
  | .div => if checkZero fo y then divValues fo x y else .error .debugger
  | .mod => if checkZero fo y then bitValues (fun a b => ub (smodC a b)) mod32 x y else .error .debugger
  | .eq => compareValues (cmpEq fo) x y
  | .neq => compareValues (cmpNeq fo) x y
  | .less => compareValues (cmpLess fo) x y
  | .greater => compareValues (cmpGreater fo) x y
  | .leq => compareValues (cmpLeq fo) x y
  | .geq => compareValues (cmpGeq fo) x y
  | .and => compareValues (cmpAnd fo) x y
  | .or => compareValues (cmpOr fo) x y
  | .iand => bitValues (fun a b => .ok (a &&& b)) (fun a b => .ok (a &&& b)) x y
  | .ior => bitValues (fun a b => .ok (a ||| b)) (fun a b => .ok (a ||| b)) x y
  | .ixor => bitValues (fun a b => .ok (a ^^^ b)) (fun a b => .ok (a ^^^ b)) x y
  | .lshift => bitValues (fun a b => ub (shlC a b)) shl32 x y
  | .rshift => bitValues (fun a b => ub (sarC a b)) shr32 x y
  | .assign => .error .runtime

/-- Models: src/debugger/Source/Expression.cpp:230-251 (`Visit(ArrayAccess)`, on the values). A negative index is not rejected:
it becomes a huge one, out of the bounds of the vector. -/
def indexValue (m : Mode) (fo : Floats) (e : Env) (v : View) (a i : Val) : Except Err Val :=
  match a with
  | .ptr t s x l => do
      let sum ← addValues m fo e.types (.ptr t s x l) i
      dereference m e v sum
  | .arr _ _ _ ms _ =>
    match i with
    | .int k _ =>
      if k.toInt ≥ ms.length then .error .debugger
      else
        match ms[k.toNat]? with
        | some x => .ok x
        | none => .error .ub
    | _ => .error .debugger
  | _ => .error .debugger

/-- Models: src/debugger/Source/Expression.cpp:462-472 (`AccessMember`). -/
def accessMember (x : Val) (n : Str) : Except Err Val :=
  match x with
  | .struct _ _ ms _ =>
    match Map.find ms n with
    | some v => .ok v
    | none => .error .debugger
  | _ => .error .debugger

section
variable {σ : Type}

/-- Models: src/debugger/Source/Expression.cpp:300-309 (`SetRaw`). -/
def setRaw (t : Target σ) (l : Loc) (w : Word) : Job σ Unit :=
  match l with
  | .reg n => t.setReg n w
  | .off a => t.setMem a w

mutual
/-- Models: src/debugger/Source/Expression.cpp:311-374 (`Assignment`). A floating point number is converted to `uint64_t`. -/
def assign (t : Target σ) (fo : Floats) : Val → Val → Job σ Val
  | .int _ (some l), .int y _ => do
      setRaw t l y
      return .int y (some l)
  | .float _ (some l), .float y _ =>
      match fo.toUnsigned y with
      | none => Job.throw .ub
      | some w => do
          setRaw t l w
          return .float y (some l)
  | .char _ (some l), .char y _ => do
      setRaw t l (y.signExtend 64)
      return .char y (some l)
  | .ptr a s _ (some l), .ptr b _ y _ =>
      if a ≠ b then Job.throw .debugger
      else do
        setRaw t l y
        return .ptr a s y (some l)
  | .arr a c b ms (some l), .arr a' _ _ ms' _ =>
      if a ≠ a' then Job.throw .debugger
      else if ms.length ≠ ms'.length then Job.throw .abort
      else do
        let vs ← assignList t fo ms ms'
        return .arr a c b vs (some l)
  | .struct n s ms (some l), .struct n' _ ms' _ =>
      if n ≠ n' then Job.throw .debugger
      else do
        let vs ← assignMembers t fo ms ms'
        return .struct n s vs (some l)
  | _, _ => Job.throw .debugger

/-- The loop over the elements. Models: src/debugger/Source/Expression.cpp:346-349. -/
def assignList (t : Target σ) (fo : Floats) : List Val → List Val → Job σ (List Val)
  | x :: l, y :: l' => do
      let v ← assign t fo x y
      let vs ← assignList t fo l l'
      return v :: vs
  | _, _ => pure []

/-- The loop over the members. Models: src/debugger/Source/Expression.cpp:358-365. Simplification: in the order of the list, not
sorted by name. -/
def assignMembers (t : Target σ) (fo : Floats) : List (Str × Val) → Map Str Val → Job σ (List (Str × Val))
  | [], _ => pure []
  | (n, x) :: l, ms' =>
    match Map.find ms' n with
    | none => Job.throw .debugger
    | some y => do
        let v ← assign t fo x y
        let vs ← assignMembers t fo l ms'
        return (n, v) :: vs
end

/-- Reading. -/
def reading (t : Target σ) {α : Type} (f : View → Except Err α) : Job σ α := fun s => (f (t.view s), s)

/-- Models: src/debugger/Source/Expression.cpp:97-111, 230-251, 285-298, 376-460, 474-498 (the functions `Visit`); the index of an
array is evaluated before the array. -/
def eval (t : Target σ) (m : Mode) (fo : Floats) (e : Env) : Expr → Job σ Val
  | .int v => pure (.int v none)
  | .float v => pure (.float v none)
  | .char c => pure (.char c none)
  | .ident n => fun s =>
      ((do
        let ip ← t.ip s
        variableValue m e (t.view s) ip n), s)
  | .evaluated i =>
      match e.evaluated[i]? with
      | some v => pure v
      | none => Job.throw .debugger
  | .un o x => do
      let a ← eval t m fo e x
      reading t fun v => unaryValue m e v o a
  | .bin .assign x y => do
      let a ← eval t m fo e x
      let b ← eval t m fo e y
      assign t fo a b
  | .bin o x y => do
      let a ← eval t m fo e x
      let b ← eval t m fo e y
      reading t fun _ => binaryValue m fo e o a b
  | .index x i => do
      let k ← eval t m fo e i
      let a ← eval t m fo e x
      reading t fun v => indexValue m fo e v a k
  | .member x n => do
      let a ← eval t m fo e x
      reading t fun _ => accessMember a n
  | .arrow x n => do
      let a ← eval t m fo e x
      reading t fun v => do
        let d ← dereference m e v a
        accessMember d n

/-- Reading the current address. Models: src/debugger/Source/Expression.cpp:20-25 (constructor). -/
def Target.address (t : Target σ) : Job σ Nat := fun s => (t.ip s, s)

/-- The outcome of parsing. Models: src/debugger/Source/Source.cpp:346-351. -/
def parsed (r : Except Err Expr) : Job σ Expr :=
  match r with
  | .ok x => pure x
  | .error .parser => Job.throw .debugger
  | .error er => Job.throw er

/-- Models: src/debugger/Source/Source.cpp:342-359 (`EvaluateExpression`), without the cache. Creating the evaluator reads the
current address. An error of the parser becomes a `DebuggerError`, except one from the first token, which is read outside the
`try`. -/
def evaluate (t : Target σ) (m : Mode) (fo : Floats) (stod : Str → Except Err Word) (e : Env) (text : Str) : Job σ Val := do
  let _ ← (Job.ofExcept ((Reader.next false fun tk => .pure tk).run stod text) : Job σ Tok)
  let x ← parsed (parse stod text)
  let _ ← t.address
  eval t m fo e x

end

/-- The debugger as the target of evaluations. -/
def target (h : Host) (c : Client) : Target Native where
  view n :=
    { reg := fun r => (Native.getRegister h r n).1
      mem := fun a => do
        let l ← (Native.readMemory h c a 1 n).1
        match l[0]? with
        | some w => .ok w
        | none => .error .ub }
  ip n := do
    let w ← (Native.getIP h n).1
    return w.toNat
  setReg r w := Native.setRegister h c r w
  setMem a w := Native.setMemory h c a [w]

end Ex
end T86
