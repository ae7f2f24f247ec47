import Verif.Model.Lexer
import Verif.Model.Machine

/-! # The assembler: src/t86-parser/parser.cpp -/

namespace T86
open Dbg Str Pars

namespace Asm

/-- Models: src/t86-parser/parser.h:73-75 (`IsNumber`). -/
def isNumber : Tok → Bool
  | .num _ => true
  | .minus => true
  | _ => false

/-- `std::atoi` of an identifier without its first letter: the leading digits; beyond `int` it is undefined. -/
def atoi (s : Str) : Pars Nat :=
  let d := s.takeWhile isDigit
  if digits d < 2 ^ 31 then pure (digits d) else throw .ub

/-- Models: src/t86-parser/parser.cpp:31-43 (`getRegister`). -/
def getRegister (name : Str) : Pars Reg :=
  if name = "BP".toList then pure .bp
  else if name = "SP".toList then pure .sp
  else if name = "IP".toList then pure .pc
  else match name with
    | 'R' :: s => do
        let n ← atoi s
        return .gp n
    | _ => throw .parser

/-- Models: src/t86-parser/parser.cpp:45-51 (`getFloatRegister`). -/
def getFloatRegister (name : Str) : Pars Nat :=
  match name with
  | 'F' :: s => atoi s
  | _ => throw .parser

/-- Models: src/t86-parser/parser.cpp:54-63 (`Register`). -/
def register : Pars Reg := do
  match ← tok with
  | .id name => do
      let r ← getRegister name
      next
      return r
  | _ => throw .parser

/-- Models: src/t86-parser/parser.cpp:65-74 (`FloatRegister`). -/
def floatRegister : Pars Nat := do
  match ← tok with
  | .id name => do
      let r ← getFloatRegister name
      next
      return r
  | _ => throw .parser

/-- An `int` converted to `int64_t` or `uint64_t`. -/
def word (n : Int) : Word := BitVec.ofInt 64 n

/-- Models: src/t86-parser/parser.cpp:77-90 (`Imm`): the last number, whatever the token after a minus is. -/
def imm : Pars Int := do
  match ← tok with
  | .num _ => do
      let n ← lastNum
      next
      return n
  | .minus => do
      next
      let n ← lastNum
      next
      return -n
  | _ => throw .parser

/-- Models: src/t86-parser/parser.cpp:92-100 (`FloatImm`). -/
def floatImm : Pars Operand := do
  match ← tok with
  | .float w => do
      next
      return .fimm w
  | _ => throw .parser

/-- Models: src/t86-parser/parser.cpp:102-110 (`FloatImmOrRegister`). -/
def floatImmOrRegister : Pars Operand := do
  match ← tok with
  | .id _ => do
      let f ← floatRegister
      return .freg f
  | .float _ => floatImm
  | _ => throw .parser

/-- A register as an operand. -/
def regOperand : Pars Operand := do
  let r ← register
  return .val (.reg r)

/-- A number as an operand. -/
def immOperand : Pars Operand := do
  let n ← imm
  return .imm (word n)

/-- Models: src/t86-parser/parser.cpp:113-127 (`ImmOrRegister`); the branch for `-` is never reached because `IsNumber`
includes it. -/
def immOrRegister : Pars Operand := do
  match ← tok with
  | .id _ => regOperand
  | .num _ => immOperand
  | .minus => immOperand
  | _ => throw .parser

/-- Models: src/t86-parser/parser.cpp:130-148 (`ImmOrRegisterOrRegisterPlusImm`). -/
def immOrRegisterPlusImm : Pars Operand := do
  match ← tok with
  | .num _ => immOperand
  | .minus => immOperand
  | .id _ => do
      let r ← register
      match ← tok with
      | .plus => do
          next
          let n ← imm
          return .val (.regImm r (word n))
      | .minus => do
          next
          let n ← imm
          return .val (.regImm r (word (-n)))
      | _ => return .val (.reg r)
  | _ => throw .parser

/-- The closing bracket. -/
def rbrack : Pars Unit := do
  match ← tok with
  | .rbrack => next
  | _ => throw .parser

/-- Models: src/t86-parser/parser.cpp:151-185 (`SimpleMemory`). -/
def simpleMemory : Pars Operand := do
  match ← tok with
  | .lbrack => do
      next
      match ← tok with
      | .id _ => do
          let r ← register
          match ← tok with
          | .plus => do
              next
              let n ← imm
              rbrack
              return .mem (.regImm r (word n))
          | .minus => do
              next
              let n ← imm
              rbrack
              return .mem (.regImm r (word (-n)))
          | _ => do
              rbrack
              return .mem (.reg r)
      | _ => do
          let n ← imm
          rbrack
          return .memImm (word n)
  | _ => throw .parser

/-- Models: src/t86-parser/parser.cpp:199-207 (`ImmOrRegisterOrSimpleMemory`). -/
def immOrRegisterOrMemory : Pars Operand := do
  match ← tok with
  | .id _ => immOrRegister
  | .num _ => immOrRegister
  | .minus => immOrRegister
  | .lbrack => simpleMemory
  | _ => throw .parser

/-- Models: src/t86-parser/parser.cpp:211-219 (`ImmOrRegisterPlusImmOrSimpleMemory`). -/
def immOrRegisterPlusImmOrMemory : Pars Operand := do
  match ← tok with
  | .id _ => immOrRegisterPlusImm
  | .num _ => immOrRegisterPlusImm
  | .minus => immOrRegisterPlusImm
  | .lbrack => simpleMemory
  | _ => throw .parser

/-- A register inside brackets. Models: src/t86-parser/parser.cpp:236-238, 251-253, 274-276. -/
def innerReg (name : Str) : Pars Reg := do
  let r ← getRegister name
  next
  return r

/-- After `[R + i`. Models: src/t86-parser/parser.cpp:248-272. -/
def memoryOffset (r : Reg) (n : Int) : Pars Operand := do
  match ← tok with
  | .plus => do
      next
      match ← tok with
      | .id name => do
          let r2 ← innerReg name
          match ← tok with
          | .times => do
              next
              let m ← imm
              return .mem (.regImmRegScaled r (word n) r2 (word m))
          | _ => return .mem (.regImmReg r (word n) r2)
      | _ => throw .parser
  | _ => return .mem (.regImm r (word n))

/-- After `[R + R`; `none` is the empty optional. Models: src/t86-parser/parser.cpp:273-288. -/
def memoryReg (r r2 : Reg) : Pars (Option Operand) := do
  match ← tok with
  | .times => do
      next
      if isNumber (← tok) then do
        let m ← imm
        return some (.mem (.regRegScaled r r2 (word m)))
      else return none
  | _ => return some (.mem (.regReg r r2))

/-- After `[R +` or `[R -`. Models: src/t86-parser/parser.cpp:240-291. -/
def memoryPlus (r : Reg) (minus : Bool) : Pars (Option Operand) := do
  next
  match ← tok with
  | .num _ => do
      let n ← imm
      let o ← memoryOffset r (if minus then -n else n)
      return some o
  | .minus => do
      let n ← imm
      let o ← memoryOffset r (if minus then -n else n)
      return some o
  | .id name => do
      let r2 ← innerReg name
      memoryReg r r2
  | _ => throw .parser

/-- The inside of the brackets. Models: src/t86-parser/parser.cpp:228-303. -/
def memoryInner : Pars (Option Operand) := do
  match ← tok with
  | .num _ => do
      let n ← lastNum
      next
      return some (.memImm (word n))
  | .minus => do
      let n ← lastNum
      next
      return some (.memImm (word n))
  | .id name => do
      let r ← innerReg name
      match ← tok with
      | .plus => memoryPlus r false
      | .minus => memoryPlus r true
      | .times => do
          next
          if isNumber (← tok) then do
            let m ← imm
            return some (.mem (.regScaled r (word m)))
          else throw .parser
      | _ => return some (.mem (.reg r))
  | _ => throw .parser

/-- Models: src/t86-parser/parser.cpp:223-312 (`Memory`); the failing assertion of line 310 is `abort`. -/
def memory : Pars Operand := do
  match ← tok with
  | .lbrack => do
      next
      let o ← memoryInner
      rbrack
      match o with
      | some x => return x
      | none => throw .abort
  | _ => throw .parser

/-- Models: src/t86-parser/parser.cpp:315-332 (`Operand`). -/
def operand : Pars Operand := do
  match ← tok with
  | .lbrack => memory
  | .id name =>
      match name with
      | 'F' :: _ => do
          let f ← floatRegister
          return .freg f
      | _ => regOperand
  | .num _ => immOperand
  | .minus => immOperand
  | .float _ => floatImm
  | _ => throw .parser

/-- The comma between two operands. -/
def comma : Pars Unit := do
  match ← tok with
  | .comma => next
  | _ => throw .parser

/-- The combinations of operands that `MOV` takes. Models: src/t86-parser/parser.cpp:366-391. -/
def movOk : Operand → Operand → Bool
  | .imm _, _ => false
  | .val (.regImm _ _), _ => false
  | .val (.reg _), .val (.regImm _ _) => false
  | .val (.reg _), .fimm _ => false
  | .val (.reg _), _ => true
  | .freg _, .fimm _ => true
  | .freg _, .freg _ => true
  | .freg _, .val (.reg _) => true
  | .freg _, .memImm _ => true
  | .freg _, .mem (.reg _) => true
  | .freg _, _ => false
  | _, .val (.reg _) => true
  | _, .freg _ => true
  | _, .imm _ => true
  | _, _ => false

/-- Models: src/t86-parser/parser.cpp:357-393 (`ParseMOV`). -/
def mov : Pars Instr := do
  let dst ← operand
  comma
  let src ← operand
  if movOk dst src then return .mov dst src else throw .parser

/-- `LEA` takes neither `[R]` nor `[i]`. Models: src/t86-parser/parser.cpp:422-425. -/
def leaOk : Operand → Bool
  | .mem (.reg _) => false
  | .memImm _ => false
  | _ => true

/-- Models: src/t86-parser/parser.cpp:414-427. -/
def lea : Pars Instr := do
  let r ← register
  comma
  let m ← memory
  if leaOk m then return .lea r m else throw .parser

/-- Models: src/t86-parser/parser.cpp:334-343 (`PARSE_BINARY`). -/
def binary {α β : Type} (p : Pars α) (q : Pars β) (f : α → β → Instr) : Pars Instr := do
  let a ← p
  comma
  let b ← q
  return f a b

/-- Models: src/t86-parser/parser.cpp:345-349 (`PARSE_UNARY`). -/
def unary {α : Type} (p : Pars α) (f : α → Instr) : Pars Instr := do
  let a ← p
  return f a

/-- The arithmetic instructions the assembler knows. Models: src/t86-parser/parser.cpp:429-439 (the names). -/
def binOp (n : Str) : Option BinOp :=
  if n = "ADD".toList then some .add
  else if n = "SUB".toList then some .sub
  else if n = "MUL".toList then some .mul
  else if n = "DIV".toList then some .div
  else if n = "IMUL".toList then some .imul
  else if n = "IDIV".toList then some .idiv
  else if n = "AND".toList then some .and
  else if n = "OR".toList then some .or
  else if n = "XOR".toList then some .xor
  else if n = "LSH".toList then some .lsh
  else if n = "RSH".toList then some .rsh
  else none

/-- Models: src/t86-parser/parser.cpp:442-445 (the names). -/
def fbinOp (n : Str) : Option FBinOp :=
  if n = "FADD".toList then some .fadd
  else if n = "FSUB".toList then some .fsub
  else if n = "FMUL".toList then some .fmul
  else if n = "FDIV".toList then some .fdiv
  else none

/-- Models: src/t86-parser/parser.cpp:450-453 (the names). -/
def unOp (n : Str) : Option UnOp :=
  if n = "INC".toList then some .inc
  else if n = "DEC".toList then some .dec
  else if n = "NEG".toList then some .neg
  else if n = "NOT".toList then some .not
  else none

/-- Models: src/t86-parser/parser.cpp:455-470 (the names). -/
def cond (n : Str) : Option Cond :=
  if n = "JZ".toList then some .jz
  else if n = "JNZ".toList then some .jnz
  else if n = "JE".toList then some .je
  else if n = "JNE".toList then some .jne
  else if n = "JG".toList then some .jg
  else if n = "JGE".toList then some .jge
  else if n = "JL".toList then some .jl
  else if n = "JLE".toList then some .jle
  else if n = "JA".toList then some .ja
  else if n = "JAE".toList then some .jae
  else if n = "JB".toList then some .jb
  else if n = "JBE".toList then some .jbe
  else if n = "JO".toList then some .jo
  else if n = "JNO".toList then some .jno
  else if n = "JS".toList then some .js
  else if n = "JNS".toList then some .jns
  else none

/-- The instruction after its name. Models: src/t86-parser/parser.cpp:410-491. -/
def body (n : Str) : Pars Instr :=
  if n = "MOV".toList then mov
  else if n = "LEA".toList then lea
  else match binOp n with
  | some op => binary register immOrRegisterPlusImmOrMemory fun r v => .bin op false r r v
  | none =>
  if n = "CMP".toList then binary register immOrRegisterOrMemory .cmp
  else if n = "LOOP".toList then binary register immOrRegister .loop
  else match fbinOp n with
  | some op => binary floatRegister floatImmOrRegister (.fbin op)
  | none =>
  if n = "FCMP".toList then binary floatRegister floatImmOrRegister .fcmp
  else if n = "EXT".toList then binary floatRegister register .ext
  else if n = "NRW".toList then binary register floatRegister .nrw
  else match unOp n with
  | some op => unary register (.un op)
  | none =>
  if n = "JMP".toList then unary immOrRegister .jmp
  else match cond n with
  | some c => unary immOrRegisterOrMemory (.jcc c)
  | none =>
  if n = "CALL".toList then unary immOrRegister .call
  else if n = "PUSH".toList then unary immOrRegister .push
  else if n = "FPUSH".toList then unary floatImmOrRegister .fpush
  else if n = "POP".toList then unary register .pop
  else if n = "FPOP".toList then unary floatRegister .fpop
  else if n = "PUTCHAR".toList then unary register .putchar
  else if n = "PUTNUM".toList then unary register .putnum
  else if n = "GETCHAR".toList then unary register .getchar
  else if n = "HALT".toList then pure .halt
  else if n = "NOP".toList then pure .nop
  else if n = "BKPT".toList then pure .bkpt
  else if n = "BREAK".toList then pure .brk
  else if n = "RET".toList then pure .ret
  else throw .parser

/-- The name and the rest of an instruction. Models: src/t86-parser/parser.cpp:401-492. -/
def named : Pars Instr := do
  match ← tok with
  | .id n => do
      next
      body n
  | _ => throw .parser

/-- Models: src/t86-parser/parser.cpp:395-492 (`Instruction`). -/
def instruction : Pars Instr := do
  if isNumber (← tok) then do
    next
    named
  else named

/-- Models: src/t86-parser/parser.cpp:520-524 (`CheckEnd`). -/
def checkEnd : Pars Unit := do
  match ← tok with
  | .eof => pure ()
  | _ => throw .parser

/-- The text of one instruction. Models: src/debugger/T86Process.cpp:11-16, src/t86/debug.cpp:64-69 (`ParseInstruction`,
which does not check the end). -/
def oneInstruction : Reader Instr := start do
  let i ← instruction
  checkEnd
  return i

/-- Models: src/t86/debug.cpp:64-69 (`ParseInstruction`). -/
def pokedInstruction : Reader Instr := start instruction

/-- A program under construction. Models: src/t86-parser/parser.h:100-101. -/
structure Unit' where
  program : List Instr
  data : List Word
  deriving DecidableEq, Repr

/-- Whether a token begins an instruction. Models: src/t86-parser/parser.cpp:499. -/
def beginsInstruction : Tok → Bool
  | .id _ => true
  | t => isNumber t

/-- The loop of `Text`; every pass reads a token, `fuel` bounds the passes. Models: src/t86-parser/parser.cpp:498-503. -/
def text : Nat → Unit' → Pars Unit'
  | 0, _ => throw .diverge
  | fuel + 1, u => do
      if beginsInstruction (← tok) then do
        let i ← instruction
        text fuel { u with program := u.program ++ [i] }
      else return u

/-- A character of a string as an `int64_t` (`char` is signed). -/
def cell (c : Char) : Word := (BitVec.ofNat 8 c.toNat).signExtend 64

/-- The loop of `Data`. Models: src/t86-parser/parser.cpp:505-518. -/
def data : Nat → Unit' → Pars Unit'
  | 0, _ => throw .diverge
  | fuel + 1, u => do
      match ← tok with
      | .str s => do
          next
          data fuel { u with data := u.data ++ s.map cell ++ [0] }
      | .num _ => do
          let n ← imm
          data fuel { u with data := u.data ++ [word n] }
      | .minus => do
          let n ← imm
          data fuel { u with data := u.data ++ [word n] }
      | _ => return u

/-- Skipping a section. Models: src/t86-parser/parser.cpp:23-27. -/
def skipSection : Nat → Pars Unit
  | 0 => throw .diverge
  | fuel + 1 => do
      match ← tok with
      | .dot => pure ()
      | .eof => pure ()
      | _ => do
          next true
          skipSection fuel

/-- Models: src/t86-parser/parser.cpp:9-29 (`Section`). -/
def section' (fuel : Nat) (u : Unit') : Pars Unit' := do
  match ← tok with
  | .id n => do
      next
      if n = "text".toList then text fuel u
      else if n = "data".toList then data fuel u
      else do
        skipSection fuel
        return u
  | _ => throw .parser

/-- The loop of `Parse`. Models: src/t86-parser/parser.cpp:530-539. -/
def sections (n : Nat) : Nat → Unit' → Pars Unit'
  | 0, _ => throw .diverge
  | fuel + 1, u => do
      match ← tok with
      | .dot => do
          next
          if (← tok) = .id "debug_source".toList then return u
          else do
            let u ← section' n u
            sections n fuel u
      | _ => do
          checkEnd
          return u

/-- Models: src/t86-parser/parser.cpp:526-540 (`Parse`). -/
def parse (fuel : Nat) : Pars Unit' := do
  match ← tok with
  | .dot => sections fuel fuel ⟨[], []⟩
  | _ => throw .parser

/-- Assembling a text. There are at most as many tokens as characters; the bound on the loops is never reached
(`T86.Asm.assemble_terminates`). -/
def assemble (stod : Str → Except Err Word) (s : Str) : Except Err Unit' :=
  (start (parse (2 * s.length + 2))).run stod s

end Asm
end T86
