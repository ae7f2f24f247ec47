import Verif.Model.Lexer
import Verif.Model.Source

/-! # The parser of debugging information: src/debugger/Source/Parser.cpp -/

namespace T86
open Dbg Str Pars

namespace Info

/-- `ERR(token)`: reads the next token, which has to be the given one. Models: src/debugger/Source/Parser.cpp:17-20. -/
def expect (t : Tok) : Pars Unit := do
  next
  if (← tok) = t then pure () else throw .parser

/-- The same for a number, with its value (an `int` converted to `size_t` or `uint64_t`; it is never negative). -/
def expectNum : Pars Nat := do
  next
  match ← tok with
  | .num n => return n
  | _ => throw .parser

/-- The same for an identifier. -/
def expectId : Pars Str := do
  next
  match ← tok with
  | .id n => return n
  | _ => throw .parser

/-- One entry of a structured type, from its first token on, with the token after it read.
Models: src/debugger/Source/Parser.cpp:24-36. -/
def member : Pars Member := do
  match ← tok with
  | .num offset => do
      expect .colon
      expect .lbrace
      let type ← expectNum
      expect .colon
      let name ← expectId
      expect .rbrace
      next
      return ⟨name, type, BitVec.ofNat 64 offset⟩
  | _ => throw .parser

/-- What separates the entries. Models: src/debugger/Source/Parser.cpp:36-40, 253-257. -/
def separator : Pars Unit := do
  match ← tok with
  | .comma => next
  | .rbrace => pure ()
  | _ => throw .parser

/-- The loop of `StructuredMembers`; every pass reads a token, `fuel` bounds the passes.
Models: src/debugger/Source/Parser.cpp:22-44. -/
def members : Nat → List Member → Pars (List Member)
  | 0, _ => throw .diverge
  | fuel + 1, acc => do
      match ← tok with
      | .rbrace => do
          next
          return acc
      | _ => do
          let m ← member
          separator
          members fuel (acc ++ [m])

/-- One entry of the line table, with the token after it read. Models: src/debugger/Source/Parser.cpp:50-62. -/
def lineEntry : Pars (Nat × Nat) := do
  match ← tok with
  | .num line => do
      expect .colon
      let addr ← expectNum
      next
      return (line, addr)
  | _ => throw .parser

/-- The loop of `DebugLine`. Models: src/debugger/Source/Parser.cpp:47-65. -/
def debugLine : Nat → LineMapping → Pars LineMapping
  | 0, _ => throw .diverge
  | fuel + 1, m => do
      match ← tok with
      | .dot => return m
      | .eof => return m
      | _ => do
          let e ← lineEntry
          debugLine fuel (Map.assign m e.1 e.2)

/-- Models: src/debugger/Source/Parser.cpp:67-87 (`ParseDIETag`). -/
def dieTag (v : Str) : Pars Tag :=
  if v = "DIE_function".toList then pure .function
  else if v = "DIE_primitive_type".toList then pure .primitiveType
  else if v = "DIE_structured_type".toList then pure .structuredType
  else if v = "DIE_pointer_type".toList then pure .pointerType
  else if v = "DIE_array_type".toList then pure .arrayType
  else if v = "DIE_variable".toList then pure .variable
  else if v = "DIE_scope".toList then pure .scope
  else if v = "DIE_compilation_unit".toList then pure .unit
  else throw .parser

/-- The number of an offset, with its sign, as an `int64_t`. Models: src/debugger/Source/Parser.cpp:95-98. -/
def offsetNum (neg : Bool) : Pars Word := do
  match ← tok with
  | .num n => do
      next
      return BitVec.ofInt 64 (if neg then -(n : Int) else n)
  | _ => throw .parser

/-- Models: src/debugger/Source/Parser.cpp:89-102 (`ParseOffset`). -/
def offset : Pars Word := do
  match ← tok with
  | .minus => do
      next
      offsetNum true
  | _ => offsetNum false

/-- Models: src/debugger/Source/Parser.cpp:104-117 (`ParseOperand`). -/
def operand : Pars Loc := do
  match ← tok with
  | .num _ => do
      let w ← offset
      return .off w
  | .minus => do
      let w ← offset
      return .off w
  | .id n => do
      next
      return .reg n
  | _ => throw .parser

/-- Models: src/debugger/Source/Parser.cpp:119-139 (`ParseOneExprLoc`). -/
def oneLoc : Pars LocIns := do
  match ← tok with
  | .id n => do
      next
      if n = "BASE_REG_OFFSET".toList then do
        let w ← offset
        return .baseOffset w
      else if n = "PUSH".toList then do
        let l ← operand
        return .push l
      else if n = "ADD".toList then return .add
      else if n = "DEREFERENCE".toList then return .deref
      else throw .parser
  | _ => throw .parser

/-- The loop over the instructions in brackets. Models: src/debugger/Source/Parser.cpp:151-160. -/
def locList : Nat → List LocIns → Pars (List LocIns)
  | 0, _ => throw .diverge
  | fuel + 1, acc => do
      match ← tok with
      | .rbrack => do
          next
          return acc
      | _ => do
          let i ← oneLoc
          match ← tok with
          | .semi => do
              next
              locList fuel (acc ++ [i])
          | .rbrack => locList fuel (acc ++ [i])
          | _ => throw .parser

/-- Models: src/debugger/Source/Parser.cpp:141-165 (`ParseExprLoc`); the token taken for the closing backtick is not
checked. -/
def exprLoc (fuel : Nat) : Pars (List LocIns) := do
  match ← tok with
  | .backtick => do
      next
      match ← tok with
      | .backtick => do
          next
          return []
      | _ => do
          let i ← oneLoc
          next
          return [i]
  | .lbrack => do
      next
      locList fuel []
  | _ => throw .parser

/-- A number as the value of an attribute. Models: src/debugger/Source/Parser.cpp:185-191 (and the same in the other
branches). -/
def attrNum (f : Nat → Attr) : Pars Attr := do
  match ← tok with
  | .num n => do
      next
      return f n
  | _ => throw .parser

/-- The value of a name. Models: src/debugger/Source/Parser.cpp:172-184. -/
def attrName : Pars Attr := do
  match ← tok with
  | .id n => do
      next
      return .name n
  | .str n => do
      next
      return .name n
  | _ => throw .parser

/-- The members of a structured type. Models: src/debugger/Source/Parser.cpp:219-224. -/
def attrMembers (fuel : Nat) : Pars Attr := do
  match ← tok with
  | .lbrace => do
      next
      let l ← members fuel []
      return .members l
  | _ => throw .parser

/-- The value of the attribute with the given name. Models: src/debugger/Source/Parser.cpp:172-230. -/
def attrValue (fuel : Nat) (v : Str) : Pars Attr :=
  if v = "ATTR_name".toList then attrName
  else if v = "ATTR_type".toList then attrNum .type
  else if v = "ATTR_id".toList then attrNum .id
  else if v = "ATTR_begin_addr".toList then attrNum .beginAddr
  else if v = "ATTR_end_addr".toList then attrNum .endAddr
  else if v = "ATTR_size".toList then attrNum .size
  else if v = "ATTR_members".toList then attrMembers fuel
  else if v = "ATTR_location".toList then do
    let l ← exprLoc fuel
    return .location l
  else throw .parser

/-- Models: src/debugger/Source/Parser.cpp:167-231 (`ParseATTR`). -/
def attr (fuel : Nat) (v : Str) : Pars Attr := do
  match ← tok with
  | .colon => do
      next
      attrValue fuel v
  | _ => throw .parser

/-- The loop of `ParseDIE`. The name of an attribute or a child is the last identifier, whatever the current token is; names
with other prefixes are ignored. Models: src/debugger/Source/Parser.cpp:243-261. -/
def dieBody (n : Nat) (die : Str → Pars Die) : Nat → List Attr → List Die → Pars (List Attr × List Die)
  | 0, _, _ => throw .diverge
  | fuel + 1, as, ds => do
      match ← tok with
      | .rbrace => do
          next
          return (as, ds)
      | _ => do
          let id ← lastId
          next
          if "ATTR".toList.isPrefixOf id then do
            let a ← attr n id
            separator
            dieBody n die fuel (as ++ [a]) ds
          else if "DIE".toList.isPrefixOf id then do
            let d ← die id
            separator
            dieBody n die fuel as (ds ++ [d])
          else do
            separator
            dieBody n die fuel as ds

/-- Models: src/debugger/Source/Parser.cpp:233-262 (`ParseDIE`); `n` bounds the loops, the last argument but one the depth. -/
def die (n : Nat) : Nat → Str → Pars Die
  | 0, _ => throw .diverge
  | fuel + 1, name => do
      match ← tok with
      | .colon => do
          expect .lbrace
          next
          let tag ← dieTag name
          let b ← dieBody n (die n fuel) n [] []
          return .mk tag b.1 b.2
      | _ => throw .parser

/-- Models: src/debugger/Source/Parser.cpp:264-278 (`DebugInfo`). -/
def debugInfo (n : Nat) : Pars Die := do
  match ← tok with
  | .dot => return .mk .invalid [] []
  | .eof => return .mk .invalid [] []
  | .id name => do
      next
      die n n name
  | _ => throw .parser

/-- Models: src/debugger/Source/Parser.h:10-14 (`DebuggingInfo`); the source as its lines. -/
structure Infos where
  lines : Option LineMapping := none
  top : Option Die := none
  source : Option (List Str) := none

/-- Skipping a section. Models: src/debugger/Source/Parser.cpp:308-313. -/
def skipSection : Nat → Pars Unit
  | 0 => throw .diverge
  | fuel + 1 => do
      match ← tok with
      | .dot => pure ()
      | .eof => pure ()
      | _ => do
          next true
          skipSection fuel

/-- A section other than the source, from the token after its name on. Models: src/debugger/Source/Parser.cpp:303-314. -/
def section' (n : Nat) (name : Str) (u : Infos) : Pars Infos :=
  if name = "debug_line".toList then do
    let m ← debugLine n []
    return { u with lines := some m }
  else if name = "debug_info".toList then do
    let d ← debugInfo n
    return { u with top := some d }
  else do
    skipSection n
    return u

/-- The loop of `Parse`. Models: src/debugger/Source/Parser.cpp:280-317. -/
def sections (n : Nat) : Nat → Infos → Pars Infos
  | 0, _ => throw .diverge
  | fuel + 1, u => do
      match ← tok with
      | .eof => return u
      | .dot => do
          next
          match ← tok with
          | .id name =>
              if name = "debug_source".toList then do
                let text ← rawMode
                return { u with source := some (sourceLines text) }
              else do
                next
                let u ← section' n name u
                sections n fuel u
          | _ => throw .parser
      | _ => throw .parser

/-- The parser on a file. There are at most as many tokens as characters; the bound on the loops is never reached
(`T86.C51_terminates`). Models: src/debugger/Source/Parser.cpp:280-317 (`Parse`). -/
def parse (stod : Str → Except Err Word) (s : Str) : Except Err Infos :=
  (start (sections (2 * s.length + 2) (2 * s.length + 2) {})).run stod s

/-- Reading the debugging information of a file. The first token is read by the constructor, which is `noexcept`: an error in it
ends the process. Models: src/dbg-cli/CLI.h:1193-1195 (the use of `Parser`), src/debugger/Source/Parser.h:19. -/
def read (stod : Str → Except Err Word) (s : Str) : Except Err Infos :=
  match Lexer.lex stod false s with
  | .error _ => .error .abort
  | .ok _ => parse stod s

end Info
end T86
