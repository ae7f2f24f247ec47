import Verif.Model.DbgBase

/-! # Source level information: src/debugger/Source

Line mapping, source text, debugging information entries, types and location expressions. -/

namespace T86
namespace Dbg

/-! ## Lines -/

/-- Models: src/debugger/Source/LineMapping.h:20-21 (`location_mapping`). -/
abbrev LineMapping := Map Nat Nat

namespace LineMapping

/-- The mapping read from a list of entries: later ones replace earlier ones.
Models: src/debugger/Source/Parser.cpp:47-65 (`DebugLine`, the assignment in line 61), on already parsed entries. -/
def ofEntries (l : List (Nat × Nat)) : LineMapping := l.foldl (fun m e => Map.assign m e.1 e.2) []

/-- Models: src/debugger/Source/LineMapping.cpp:8-14 (`GetAddress`). -/
def getAddress (m : LineMapping) (line : Nat) : Option Nat := Map.find m line

/-- Models: src/debugger/Source/LineMapping.cpp:16-24 (`GetLines`). -/
def getLines (m : LineMapping) (address : Nat) : List Nat :=
  m.foldl (fun acc e => if e.2 = address then acc ++ [e.1] else acc) []

end LineMapping

/-- `std::max_element` (on a list, `none` for the end iterator). -/
def maxElement : List Nat → Option Nat
  | [] => none
  | x :: l => some (l.foldl (fun b y => if b < y then y else b) x)

/-- Models: src/debugger/Source/Source.cpp:48-58 (`AddrToLine`). -/
def addrToLine (m : Option LineMapping) (addr : Nat) : Option Nat :=
  match m with
  | none => none
  | some m => maxElement (m.getLines addr)

/-- Models: src/debugger/Source/Source.cpp:60-65 (`LineToAddr`). -/
def lineToAddr (m : Option LineMapping) (line : Nat) : Option Nat :=
  match m with
  | none => none
  | some m => m.getAddress line

/-! ## Source text -/

/-- The loop of the constructor of `SourceFile` with a bound on the number of passes.
Models: src/debugger/Source/SourceFile.h:9-20. -/
def sourceLoop : Nat → Str → List Str
  | 0, _ => []
  | fuel + 1, s =>
    match s.dropWhile (· != '\n') with
    | [] => if s ≠ [] then [s] else []
    | _ :: rest => s.takeWhile (· != '\n') :: sourceLoop fuel rest

/-- Models: src/debugger/Source/SourceFile.h:7-21 (constructor). -/
def sourceLines (text : Str) : List Str := sourceLoop (text.length + 1) text

/-- Models: src/debugger/Source/SourceFile.cpp:3-8 (`GetLine`). -/
def getLine (lines : List Str) (idx : Nat) : Option Str :=
  if idx ≥ lines.length then none else lines[idx]?

/-- The loop of `GetLinesRange` from `i` on; indices are 64-bit. Models: src/debugger/Source/Source.cpp:72-78. -/
def rangeLoop (lines : List Str) (idx : Word) : Nat → Nat → List Str
  | 0, _ => []
  | n + 1, i =>
    match getLine lines (BitVec.ofNat 64 i + idx).toNat with
    | none => []
    | some r => r :: rangeLoop lines idx n (i + 1)

/-- Models: src/debugger/Source/Source.cpp:67-80 (`GetLinesRange`). -/
def getLinesRange (lines : List Str) (idx amount : Word) : List Str := rangeLoop lines idx amount.toNat 0

/-! ## Location expressions -/

/-- Models: src/debugger/Source/LocExpr.h:12-20 (`Location`); an offset is an address. -/
inductive Loc
  | reg (name : Str)
  | off (v : Word)
  deriving DecidableEq, Repr

/-- Models: src/debugger/Source/LocExpr.h:33-51 (`LocExpr`). -/
inductive LocIns
  | push (v : Loc)
  | add
  | baseOffset (off : Word)
  | deref
  deriving DecidableEq, Repr

/-- What location expressions and debugger expressions need to know of the debuggee: registers by name and memory cells
(`Native::GetRegister`, `Native::ReadMemory`). -/
structure View where
  reg : Str → Except Err Word
  mem : Word → Except Err Word

/-- Signed addition of the debugger's own C++ code. -/
def addS (m : Mode) (x y : Word) : Except Err Word :=
  match sadd m x y with
  | .ok w => .ok w
  | .error _ => .error .ub

/-- The value of a location as a number. Models: the calls of `GetRegister` in
src/debugger/Source/ExpressionInterpreter.cpp:21-48. -/
def Loc.value (v : View) : Loc → Except Err Word
  | .reg n => v.reg n
  | .off w => .ok w

/-- Models: src/debugger/Source/ExpressionInterpreter.cpp:21-48 (`AddOperands`). -/
def addOperands (m : Mode) (v : View) (a b : Loc) : Except Err Loc := do
  let x ← a.value v
  let y ← b.value v
  let w ← addS m x y
  return .off w

/-- One instruction on the stack (its top first). `top` of an empty stack is undefined.
Models: src/debugger/Source/ExpressionInterpreter.cpp:52-83. -/
def locStep (m : Mode) (v : View) (s : List Loc) : LocIns → Except Err (List Loc)
  | .push x => .ok (x :: s)
  | .add =>
    match s with
    | a :: b :: s => do
        let r ← addOperands m v a b
        return r :: s
    | _ => .error .ub
  | .baseOffset off => do
      let bp ← v.reg "BP".toList
      let w ← addS m bp off
      return .off w :: s
  | .deref =>
    match s with
    | [] => .error .ub
    | .reg n :: _ => do
        let idx ← v.reg n
        let w ← v.mem idx
        return .off w :: s
    | .off o :: _ => do
        let idx ← v.mem o
        let w ← v.mem idx
        return .off w :: s

/-- Models: src/debugger/Source/ExpressionInterpreter.cpp:50-85 (the loop). -/
def locRun (m : Mode) (v : View) : List Loc → List LocIns → Except Err (List Loc)
  | s, [] => .ok s
  | s, i :: l => do
      let s' ← locStep m v s i
      locRun m v s' l

/-- Models: src/debugger/Source/ExpressionInterpreter.cpp:10-19 (`Interpret`). -/
def interpret (m : Mode) (v : View) (l : List LocIns) : Except Err Loc := do
  let s ← locRun m v [] l
  match s with
  | [] => .error .debugger
  | x :: _ => .ok x

/-! ## Debugging information entries -/

/-- Models: src/debugger/Source/Die.h:60-71 (`TAG`). -/
inductive Tag
  | function | scope | variable | primitiveType | structuredType | pointerType | arrayType | name | invalid | unit
  deriving DecidableEq, Repr

/-- A member of a structured type. Models: src/debugger/Source/Die.h:34-38 (`ATTR_member`), src/debugger/Source/Type.h:84-88. -/
structure Member where
  name : Str
  typeId : Nat
  offset : Word
  deriving DecidableEq, Repr

/-- Models: src/debugger/Source/Die.h:6-52 (`DIE_ATTR`). -/
inductive Attr
  | name (n : Str)
  | beginAddr (a : Nat)
  | endAddr (a : Nat)
  | type (id : Nat)
  | location (l : List LocIns)
  | size (n : Nat)
  | members (l : List Member)
  | id (n : Nat)
  deriving DecidableEq, Repr

/-- Models: src/debugger/Source/Die.h:58-117 (`DIE`). -/
inductive Die
  | mk (tag : Tag) (attrs : List Attr) (children : List Die)

namespace Die

/-- The tag, the attributes and the children. -/
def tag : Die → Tag | .mk t _ _ => t
def attrs : Die → List Attr | .mk _ a _ => a
def children : Die → List Die | .mk _ _ c => c

/-- The first attribute of a kind. Models: src/debugger/Source/Source.h:13-29 (`FindDieAttribute`), one instance per kind. -/
def findName (d : Die) : Option Str := d.attrs.findSome? fun | .name n => some n | _ => none
def findBegin (d : Die) : Option Nat := d.attrs.findSome? fun | .beginAddr a => some a | _ => none
def findEnd (d : Die) : Option Nat := d.attrs.findSome? fun | .endAddr a => some a | _ => none
def findType (d : Die) : Option Nat := d.attrs.findSome? fun | .type a => some a | _ => none
def findLocation (d : Die) : Option (List LocIns) := d.attrs.findSome? fun | .location a => some a | _ => none
def findSize (d : Die) : Option Nat := d.attrs.findSome? fun | .size a => some a | _ => none
def findMembers (d : Die) : Option (List Member) := d.attrs.findSome? fun | .members a => some a | _ => none
def findId (d : Die) : Option Nat := d.attrs.findSome? fun | .id a => some a | _ => none

/-- The range test of `GetFunctionNameByAddress` and `FindVariables`: both ends are known and the address is between.
Models: src/debugger/Source/Source.cpp:117-118, 324-325. -/
def covers (d : Die) (address : Nat) : Bool :=
  match d.findBegin, d.findEnd with
  | some b, some e => decide (b ≤ address) && decide (address < e)
  | _, _ => false

end Die

/-- The loop over the children. Models: src/debugger/Source/Source.cpp:112-126. -/
def nameByAddress (address : Nat) : List Die → Option Str
  | [] => none
  | d :: l =>
    if d.tag = .function ∧ d.covers address = true then
      match d.findName with
      | some n => some n
      | none => nameByAddress address l
    else nameByAddress address l

/-- Models: src/debugger/Source/Source.cpp:107-128 (`GetFunctionNameByAddress`). -/
def getFunctionNameByAddress (top : Option Die) (address : Nat) : Option Str :=
  match top with
  | none => none
  | some d => nameByAddress address d.children

/-- The loop over the children. Models: src/debugger/Source/Source.cpp:136-153. -/
def addrByName (name : Str) : List Die → Option (Nat × Nat)
  | [] => none
  | d :: l =>
    if d.tag = .function then
      if d.findName = some name then
        match d.findBegin with
        | none => none
        | some b =>
          match d.findEnd with
          | none => none
          | some e => some (b, e)
      else addrByName name l
    else addrByName name l

/-- Models: src/debugger/Source/Source.cpp:130-155 (`GetFunctionAddrByName`). -/
def getFunctionAddrByName (top : Option Die) (name : Str) : Option (Nat × Nat) :=
  match top with
  | none => none
  | some d => addrByName name d.children

mutual
/-- Models: src/debugger/Source/Source.cpp:312-332 (`FindVariables`). -/
def findVariables (address : Nat) (result : Map Str Die) : Die → Map Str Die
  | .mk tag attrs children =>
    match (if tag = .variable then (Die.mk tag attrs children).findName else none) with
    | some n => result.assign n (.mk tag attrs children)
    | none =>
      if (tag = .scope ∨ tag = .function) ∧ (Die.mk tag attrs children).covers address = false then result
      else findVariablesL address result children

/-- Models: src/debugger/Source/Source.cpp:329-331 (the loop over the children). -/
def findVariablesL (address : Nat) (result : Map Str Die) : List Die → Map Str Die
  | [] => result
  | d :: l => findVariablesL address (findVariables address result d) l
end

/-- Models: src/debugger/Source/Source.cpp:334-340 (`GetActiveVariables`). -/
def getActiveVariables (top : Option Die) (address : Nat) : Map Str Die :=
  match top with
  | none => []
  | some d => findVariables address [] d

/-- Models: src/debugger/Source/Source.cpp:157-165 (`GetVariableDie`). -/
def getVariableDie (top : Option Die) (address : Nat) (name : Str) : Option Die :=
  Map.find (getActiveVariables top address) name

/-- Models: src/debugger/Source/Source.cpp:167-185 (`GetVariableLocation`), for the current address `ip`. -/
def getVariableLocation (m : Mode) (v : View) (top : Option Die) (ip : Nat) (name : Str) : Except Err (Option Loc) :=
  match getVariableDie top ip name with
  | none => .ok none
  | some d =>
    match d.findLocation with
    | none => .ok none
    | some l => if l.isEmpty then .ok none else do
        let x ← interpret m v l
        return some x

/-! ## Types -/

/-- Models: src/debugger/Source/Type.h:17-25 (`PrimitiveType::Type`). -/
inductive Prim
  | float | signed | unsigned | char
  deriving DecidableEq, Repr

/-- Models: src/debugger/Source/Type.h:27-38 (`ToPrimitiveType`). -/
def toPrimitive (s : Str) : Option Prim :=
  if s = "float".toList then some .float
  else if s = "int".toList then some .signed
  else if s = "unsigned".toList then some .unsigned
  else if s = "char".toList then some .char
  else none

/-- Models: src/debugger/Source/Type.h:15 (`Type`), 17-25, 54-88. Sizes are `uint64_t`. -/
inductive Ty
  | prim (p : Prim) (size : Word)
  | struct (name : Str) (size : Word) (members : List Member)
  | ptr (typeId : Nat) (size : Word)
  | arr (typeId : Nat) (cnt : Word)
  deriving DecidableEq, Repr

abbrev Types := Map Nat Ty

/-- One pass of the loop: the types with the one described by `d`, if it describes one. Dereferencing a null attribute of
a structured type is undefined. Models: src/debugger/Source/Source.cpp:191-264. -/
def addType (types : Types) (d : Die) : Except Err Types :=
  match d.findId with
  | none => .ok types
  | some id =>
    match types.find id with
    | some _ => .ok types
    | none =>
      match d.tag with
      | .primitiveType =>
        match d.findName with
        | none => .ok types
        | some n =>
          match toPrimitive n with
          | none => .ok types
          | some p =>
            match d.findSize with
            | none => .ok types
            | some s => .ok (types.assign id (.prim p (BitVec.ofNat 64 s)))
      | .structuredType =>
        match d.findMembers, d.findName, d.findSize with
        | some ms, some n, some s => .ok (types.assign id (.struct n (BitVec.ofNat 64 s) ms))
        | _, _, _ => .error .ub
      | .pointerType =>
        match d.findType with
        | none => .ok types
        | some t =>
          match d.findSize with
          | none => .ok types
          | some s => .ok (types.assign id (.ptr t (BitVec.ofNat 64 s)))
      | .arrayType =>
        match d.findType with
        | none => .ok types
        | some t =>
          match d.findSize with
          | none => .ok types
          | some s => .ok (types.assign id (.arr t (BitVec.ofNat 64 s)))
      | _ => .ok types

/-- Models: src/debugger/Source/Source.cpp:187-266 (`ReconstructTypeInformation`, starting without types). -/
def reconstructTypes (top : Option Die) : Except Err Types :=
  match top with
  | none => .ok []
  | some d => d.children.foldlM addType []

/-- Models: src/debugger/Source/Source.h:130-144 (`GetTypeSize`). The recursion goes from an array to its elements; `fuel`
bounds its depth, and a computation that does not end within as many steps as there are types never ends (`diverge`). -/
def typeSizeLoop (types : Types) : Nat → Nat → Except Err Word
  | 0, _ => .error .diverge
  | fuel + 1, id =>
    match types.find id with
    | none => .error .debugger
    | some (.prim _ s) => .ok s
    | some (.ptr _ s) => .ok s
    | some (.struct _ s _) => .ok s
    | some (.arr t cnt) => do
        let sub ← typeSizeLoop types fuel t
        return sub * cnt

/-- Models: src/debugger/Source/Source.h:130-144 (`GetTypeSize`). -/
def getTypeSize (types : Types) (id : Nat) : Except Err Word := typeSizeLoop types (types.length + 1) id

end Dbg
end T86
