import Verif.Model.Expr
import Verif.Model.InfoParse

/-! # Debugging on the level of the source: the parts of src/debugger/Source/Source.cpp that use the debuggee -/

namespace T86
open Dbg Str Ex

namespace Src

/-- Models: src/debugger/Source/Source.h:172-176 (the data members of `Source`). -/
structure Source where
  lines : Option LineMapping := none
  file : Option (List Str) := none
  top : Option Die := none
  types : Types := []
  evaluated : List Val := []

/-- What the evaluation of expressions uses. -/
def Source.env (s : Source) : Env := ⟨s.top, s.types, s.evaluated⟩

/-- Models: src/dbg-cli/CLI.h:1190-1210 (`ParseDebugInfo`), src/debugger/Source/Source.h:34-45 (`Register...`). -/
def Source.ofInfos (u : Info.Infos) : Except Err Source := do
  let ts ← reconstructTypes u.top
  return { lines := u.lines, file := u.source, top := u.top, types := ts }

/-- Models: src/debugger/Source/Source.cpp:6-9, 15-18, 24-27, 33-36. -/
def lineAddress (s : Source) (line : Nat) : Except Err Word :=
  match s.lines with
  | none => .error .debugger
  | some m =>
    match m.getAddress line with
    | none => .error .debugger
    | some a => .ok (BitVec.ofNat 64 a)

/-- The four functions that work on the breakpoint of a line. Models: src/debugger/Source/Source.cpp:5-39
(`SetSourceSoftwareBreakpoint` and so on). -/
def onLine (s : Source) (op : Word → Native.N Unit) (line : Nat) : Native.N Word := do
  let a ← Job.ofExcept (lineAddress s line)
  op a
  return a

/-- Models: src/debugger/Source/Source.cpp:484-504 (`GetAddressFromString`). A number is what `from_chars` reads at the beginning
of the text. -/
def addressFromString (s : Source) (text : Str) (one : Bool) : Except Err Word :=
  match toUnsigned text with
  | none =>
    match getFunctionAddrByName s.top text with
    | none => .error .debugger
    | some f => .ok (BitVec.ofNat 64 f.1)
  | some line =>
    if line = 0 ∧ one = true then .error .debugger
    else
      match lineToAddr s.lines (if one then line - 1 else line) with
      | none => .error .debugger
      | some a => .ok (BitVec.ofNat 64 a)

section
variable (h : Host) (c : Client)

/-- The loop of `StepIn` and of `StepOver`, with a bound on the number of passes; `more` is the step it repeats.
Models: src/debugger/Source/Source.cpp:294-297, 305-308. -/
def stepLoop (s : Source) (more : Native.N Event) : Nat → Event → Native.N Event
  | 0, _ => Job.throw .diverge
  | fuel + 1, e =>
    if e = .singlestep then do
      let ip ← Native.getIP h
      match addrToLine s.lines ip.toNat with
      | some _ => pure e
      | none => do
        let e' ← more
        stepLoop s more fuel e'
    else pure e

/-- Models: src/debugger/Source/Source.cpp:288-299 (`StepIn`). -/
def stepIn (s : Source) (fuel : Nat) : Native.N Event := do
  let e ← Native.singleStep h c
  stepLoop h s (Native.rawStep h c) fuel e

/-- Models: src/debugger/Source/Source.cpp:301-310 (`StepOver`). -/
def stepOver (s : Source) (fuel : Nat) : Native.N Event := do
  let e ← Native.stepOver h c fuel true
  stepLoop h s (Native.stepOver h c fuel false) fuel e

/-- `vector::at(0)`. -/
def firstWord (l : List Word) : Except Err Word :=
  match l[0]? with
  | some w => .ok w
  | none => .error .outOfRange

/-- A byte as it is added to a string. -/
def charOf (b : BitVec 8) : Char := Char.ofNat b.toNat

/-- How one byte of a string is shown. Models: src/debugger/Source/Source.cpp:422-430. -/
def escape (b : BitVec 8) : Str :=
  if b = 10 then "\\n".toList
  else if b = 9 then "\\t".toList
  else [charOf b]

/-- Models: src/debugger/Source/Source.cpp:417-433 (`ReadMemoryAsString`), with a bound on the number of passes. -/
def readString : Nat → Word → Native.N Str
  | 0, _ => Job.throw .diverge
  | fuel + 1, a => do
    let l ← Native.readMemory h c a 1
    let w ← Job.ofExcept (firstWord l)
    if w.truncate 8 = (0 : BitVec 8) then pure []
    else do
      let rest ← readString fuel (a + 1)
      return escape (w.truncate 8) ++ rest

end

/-- Order of the keys of a `std::map<std::string, ...>`. -/
def insertKey {α : Type} (k : Str) (x : α) : List (Str × α) → List (Str × α)
  | [] => [(k, x)]
  | p :: l => if k < p.1 then (k, x) :: p :: l else p :: insertKey k x l

/-- The entries of a `std::map` in the order of its iterators. -/
def sortKeys {α : Type} (m : List (Str × α)) : List (Str × α) := m.foldl (fun l p => insertKey p.1 p.2 l) []

/-- Is this the id of the type char? Models: src/debugger/Source/Source.cpp:439-442. -/
def isCharType (types : Types) (id : Nat) : Bool :=
  match types.find id with
  | some (.prim .char _) => true
  | _ => false

/-- Is the last member a `CharValue`? Models: src/debugger/Source/Source.cpp:450-451. -/
def lastIsChar (ms : List Val) : Bool :=
  match ms.getLast? with
  | some (.char _ _) => true
  | _ => false

section
variable (h : Host) (c : Client) (types : Types) (fuel : Nat)

mutual
/-- Models: src/debugger/Source/Source.cpp:435-482 (`TypedValueToString`). Numbers of type float are printed by `std::to_string`. -/
def showValue : Val → Native.N Str
  | .ptr t _ v _ =>
    if isCharType types t then do
      let s ← readString h c fuel v
      return ofNat v.toNat ++ " \"".toList ++ s ++ "\"".toList
    else pure (ofNat v.toNat)
  | .int v _ => pure (ofInt v.toInt)
  | .float v _ => pure (h.ftos v)
  | .char v _ => pure ("'".toList ++ [charOf v] ++ "'".toList)
  | .arr _ _ a ms _ =>
    if lastIsChar ms then do
      let s ← readString h c fuel a
      return ofNat a.toNat ++ " \"".toList ++ s ++ "\"".toList
    else do
      let l ← showValues ms
      return "[".toList ++ join ", ".toList l ++ "]".toList
  | .struct _ _ ms _ => do
    let l ← showMembers ms
    return "{ ".toList ++ join ", ".toList ((sortKeys l).map fun p => p.1 ++ " = ".toList ++ p.2) ++ " }".toList
/-- The members of an array. Models: src/debugger/Source/Source.cpp:456-459. -/
def showValues : List Val → Native.N (List Str)
  | [] => pure []
  | v :: l => do
    let s ← showValue v
    let r ← showValues l
    return s :: r
/-- The members of a structure. Simplification: they are converted to strings in the order in which they are declared, not in
that of their names. Models: src/debugger/Source/Source.cpp:472-477. -/
def showMembers : List (Str × Val) → Native.N (List (Str × Str))
  | [] => pure []
  | (n, v) :: l => do
    let s ← showValue v
    let r ← showMembers l
    return (n, s) :: r
end

end

/-- Models: src/debugger/Source/Type.h:40-52 (`FromPrimitiveType`). -/
def primName : Prim → Str
  | .float => "float".toList
  | .signed => "int".toList
  | .unsigned => "unsigned".toList
  | .char => "char".toList

/-- Models: src/debugger/Source/Source.cpp:394-415 (`TypeToString`). `fuel` bounds the depth of the recursion. -/
def typeName (types : Types) : Nat → Ty → Except Err Str
  | 0, _ => .error .diverge
  | fuel + 1, ty =>
    match ty with
    | .ptr t _ =>
      match types.find t with
      | none => .ok "<unknown>*".toList
      | some u => do
        let s ← typeName types fuel u
        return s ++ "*".toList
    | .arr t _ =>
      match types.find t with
      | none => .ok "<unknown>*".toList
      | some u => do
        let s ← typeName types fuel u
        return s ++ "[]".toList
    | .struct n _ _ => .ok n
    | .prim p _ => .ok (primName p)

/-- With the bound that is never reached for types that do not contain themselves. -/
def typeToString (types : Types) (ty : Ty) : Except Err Str := typeName types (types.length + 2) ty

/-- Models: src/debugger/Source/Source.cpp:370-391 (`TypedValueTypeToString`). -/
def valueType (types : Types) : Val → Except Err Str
  | .ptr t s _ _ => typeToString types (.ptr t s)
  | .arr t n _ _ _ => typeToString types (.arr t n)
  | .char _ _ => .ok "char".toList
  | .int _ _ => .ok "int".toList
  | .float _ _ => .ok "float".toList
  | .struct n _ _ _ => .ok n

/-- Models: src/debugger/Source/Source.cpp:361-368 (`GetScopedVariables`). -/
def scopedVariables (s : Source) (a : Nat) : List Str := (sortKeys (getActiveVariables s.top a)).map (·.1)

/-- Models: src/debugger/Source/Source.cpp:342-359 (`EvaluateExpression`), with the cache. -/
def evaluateExpression (h : Host) (c : Client) (m : Mode) (fo : Floats) (text : Str) (cache : Bool) (s : Source) :
    Native.N (Val × Nat × Source) := do
  let v ← Ex.evaluate (Ex.target h c) m fo h.stod s.env text
  if cache then pure (v, s.evaluated.length, { s with evaluated := s.evaluated ++ [v] })
  else pure (v, 0, s)

end Src
end T86
