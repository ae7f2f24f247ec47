import Verif.Model.Stats
import Verif.Model.Print

/-! # The statistics by kind of instruction: `StatsLogger::processDetailedStats` -/

namespace T86
namespace Stats
open Str

/-- Models: src/t86/instructions/operand.cpp:344-384 (`typeToString`), without the brackets of memory operands. -/
def exprKind : RegExpr → Str
  | .reg _ => "Reg".toList
  | .regImm .. => "Reg + Imm".toList
  | .regReg .. => "Reg + Reg".toList
  | .regScaled .. => "Reg * Imm".toList
  | .regImmReg .. => "Reg + Imm + Reg".toList
  | .regRegScaled .. => "Reg + Reg * Imm".toList
  | .regImmRegScaled .. => "Reg + Imm + Reg * Imm".toList

/-- Models: src/t86/instructions/operand.cpp:303-384 (`getType`, `typeToString`). -/
def kind : Operand → Str
  | .imm _ => "Imm".toList
  | .fimm _ => "FImm".toList
  | .val e => exprKind e
  | .freg _ => "FReg".toList
  | .memImm _ => "[Imm]".toList
  | .mem e => '[' :: exprKind e ++ "]".toList

/-- The type of an instruction, given by its name, and the types of its operands.
Models: src/t86/instruction.cpp:141-149 (`getSignature`), src/t86/instruction.h:89-98 (`Signature`). -/
abbrev Signature := Str × List Str

/-- Models: src/t86/instruction.cpp:141-149 (`getSignature`). -/
def signature (i : Instr) : Signature := (i.name, i.shown.map kind)

/-- Models: src/t86/instruction.cpp:165-176 (`Signature::toString`). -/
def Signature.print (s : Signature) : Str :=
  s.1 ++ match s.2 with
    | [] => []
    | k :: ks => " ".toList ++ k ++ ks.flatMap fun k => ", ".toList ++ k

/-- One pass of the loop over the instructions: the entry of the signature, which is made if it is not there, is added to.
Models: src/t86/utils/stats_logger.cpp:75-77. Simplification: the entries are in the order in which they were made; the C++ keeps
and shows them in the order of their signatures. -/
def enter (k : Signature) (l : LifeTime) : List (Signature × LifeTime × Nat) → List (Signature × LifeTime × Nat)
  | [] => [(k, LifeTime.plus {} l, 1)]
  | e :: es => if e.1 = k then (k, e.2.1.plus l, e.2.2 + 1) :: es else e :: enter k l es

/-- What is shown for each signature, `none` if an assertion fails. Models: src/t86/utils/stats_logger.cpp:65-85
(`processDetailedStats`). -/
def detailedStats (l : Log) : Option (List (Signature × Averages)) := do
  let ls ← lifeTimes l
  let table := (l.instrs.zip ls).foldl (fun t x => enter (signature x.1.instr) x.2 t) []
  return table.map fun e => (e.1, averages e.2.1 e.2.2)

end Stats
end T86
