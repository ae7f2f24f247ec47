import Verif.Model.Machine

/-! # Building programs from C++: src/t86/program/programbuilder.h -/

namespace T86

/-- An instruction of a program being built; `dbg` is a `DBG` instruction (its C++ function is not modelled). -/
inductive Item
  | ins (i : Instr)
  | dbg
  deriving DecidableEq, Repr

/-- Models: src/t86/cpu/register.h:48-56 (`isSpecial`). -/
def Reg.isSpecial : Reg → Bool
  | .pc => true
  | .flags => true
  | _ => false

/-- `true` where `validate` does not throw `InvalidOperand`. Models: src/t86/instruction.cpp:186-190 (binary), 259-263
(unary), 329-336 (MOV), 543-547 (POP), 632-636 (LEA), src/t86/instruction.h:110 (the others). -/
def Instr.valid : Instr → Bool
  | .bin _ _ _ reg _ => !reg.isSpecial
  | .un _ r => !r.isSpecial
  | .mov (.val (.reg r)) _ => !r.isSpecial
  | .pop r => r != .pc
  | .lea r _ => !(r.isSpecial || r == .sp || r == .bp)
  | _ => true

/-- Models: src/t86/program/label.h:14-16 (`Label::empty`). -/
def emptyLabel : Word := BitVec.allOnes 64

/-- The destination of an instruction that is a `PatchableJumpInstruction`. Models: src/t86/instruction.h:771-798, 800-835,
837-858, 904-937, 939-970. -/
def Instr.patchable : Instr → Option Operand
  | .jmp a => some a
  | .jcc _ a => some a
  | .loop _ a => some a
  | .call a => some a
  | _ => none

/-- The same instruction with another destination. -/
def Instr.withDest (d : Operand) : Instr → Instr
  | .jmp _ => .jmp d
  | .jcc c _ => .jcc c d
  | .loop r _ => .loop r d
  | .call _ => .call d
  | i => i

/-- Models: src/t86/instruction.cpp:626-630 (`setDestination`); the failing assertion is `abort`. -/
def Instr.setDestination (i : Instr) (dest : Word) : Res Instr :=
  match i.patchable with
  | some (.imm w) => if w = emptyLabel then .ok (i.withDest (.imm dest)) else .error .abort
  | _ => .error .abort

/-- Models: src/t86/program/programbuilder.h:84-89 (data members of `ProgramBuilder`). -/
structure Builder where
  items : List Item
  data : List Word
  release : Bool
  deriving DecidableEq, Repr

/-- The calls of the builder that change it. -/
inductive BuildCall
  | add (i : Instr)
  | addDbg
  | currentLabel
  | addData (v : Word)
  | addFill (v : Word) (n : Nat)
  | addString (s : List (BitVec 8))
  | patch (label dest : Word)
  deriving DecidableEq, Repr

namespace Builder

/-- Models: src/t86/program/programbuilder.h:20-31 (both `add`s for ordinary instructions). -/
def add (b : Builder) (i : Instr) : Res (Builder × Nat) :=
  if i.valid then .ok ({ b with items := b.items ++ [.ins i] }, (b.items ++ [Item.ins i]).length - 1)
  else .error (.exn .runtimeError)

/-- Models: src/t86/program/programbuilder.h:33-42 (`add(const DBG&)`). -/
def addDbg (b : Builder) : Builder × Nat :=
  if !b.release then ({ b with items := b.items ++ [.dbg] }, (b.items ++ [Item.dbg]).length - 1)
  else (b, b.items.length)

/-- Models: src/t86/program/programbuilder.h:45-47 (`currentLabel`). -/
def currentLabel (b : Builder) : Nat := b.items.length

/-- Models: src/t86/program/programbuilder.h:49-52 (`addData(int64_t)`). -/
def addData (b : Builder) (v : Word) : Builder × Nat :=
  ({ b with data := b.data ++ [v] }, (b.data ++ [v]).length - 1)

/-- The loop of `addData(int64_t, size_t)`. Models: src/t86/program/programbuilder.h:58-60. -/
def fillLoop (v : Word) : Nat → List Word → List Word
  | 0, d => d
  | n + 1, d => fillLoop v n (d ++ [v])

/-- Models: src/t86/program/programbuilder.h:55-62 (`addData(int64_t, size_t)`). -/
def addFill (b : Builder) (v : Word) (n : Nat) : Builder × Nat :=
  ({ b with data := fillLoop v n b.data }, b.data.length)

/-- The loop of `addData(const std::string&)`; a `char` becomes an `int64_t` with its sign.
Models: src/t86/program/programbuilder.h:66-68. -/
def stringLoop (b : Builder) : List (BitVec 8) → Builder
  | [] => b
  | c :: s => stringLoop (b.addData (c.signExtend 64)).1 s

/-- Models: src/t86/program/programbuilder.h:64-71 (`addData(const std::string&)`). -/
def addString (b : Builder) (s : List (BitVec 8)) : Builder × Nat :=
  (((stringLoop b s).addData 0).1, b.data.length)

/-- Models: src/t86/program/programbuilder.h:73-78 (`patch`). -/
def patch (b : Builder) (label dest : Word) : Res Builder :=
  match b.items[label.toNat]? with
  | none => .error (.exn .outOfRange)
  | some .dbg => .error .abort
  | some (.ins i) => do
      let i' ← i.setDestination dest
      return { b with items := b.items.set label.toNat (.ins i') }

/-- One call and the label it returns (0 for `patch`, which returns nothing). -/
def call (b : Builder) : BuildCall → Res (Builder × Nat)
  | .add i => b.add i
  | .addDbg => .ok b.addDbg
  | .currentLabel => .ok (b, b.currentLabel)
  | .addData v => .ok (b.addData v)
  | .addFill v n => .ok (b.addFill v n)
  | .addString s => .ok (b.addString s)
  | .patch l d => do let b' ← b.patch l d; return (b', 0)

/-- A sequence of calls with the labels they return. -/
def calls (b : Builder) : List BuildCall → Res (Builder × List Nat)
  | [] => .ok (b, [])
  | k :: l => do
      let x ← b.call k
      let y ← calls x.1 l
      return (y.1, x.2 :: y.2)

end Builder
end T86
