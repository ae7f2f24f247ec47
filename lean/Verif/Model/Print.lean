import Verif.Model.Machine
import Verif.Model.Str

/-! # The text of an instruction: `Instruction::toString` (src/t86/instruction.cpp:151-163) and what it calls

The debug interface sends this text for `PEEKTEXT`. `ftos` is `std::to_string(double)`. -/

namespace T86
open Str

/-- Models: src/t86/cpu/register.h:86-99. -/
def Reg.print : Reg → Str
  | .pc => "IP".toList
  | .sp => "SP".toList
  | .bp => "BP".toList
  | .flags => "FLAGS".toList
  | .gp i => 'R' :: ofNat i

/-- Models: src/t86/cpu/register.h:297-299. -/
def printFloatReg (i : Nat) : Str := 'F' :: ofNat i

/-- Models: src/t86/cpu/register.h:118-120, 147-149, 175-177, 202-204, 225-227, 250-252. -/
def RegExpr.print : RegExpr → Str
  | .reg r => r.print
  | .regImm r w => r.print ++ " + ".toList ++ ofInt w.toInt
  | .regReg r s => r.print ++ " + ".toList ++ s.print
  | .regScaled r w => r.print ++ " * ".toList ++ ofInt w.toInt
  | .regImmReg r w s => r.print ++ " + ".toList ++ ofInt w.toInt ++ " + ".toList ++ s.print
  | .regRegScaled r s w => r.print ++ " + ".toList ++ s.print ++ " * ".toList ++ ofInt w.toInt
  | .regImmRegScaled r w s v =>
      r.print ++ " + ".toList ++ ofInt w.toInt ++ " + ".toList ++ s.print ++ " * ".toList ++ ofInt v.toInt

/-- Models: src/t86/instructions/operand.cpp:386-425 (`Operand::toString`), src/t86/cpu/memory.h:17-124. -/
def Operand.print (ftos : Word → Str) : Operand → Str
  | .imm w => ofInt w.toInt
  | .fimm w => ftos w
  | .val e => e.print
  | .freg i => printFloatReg i
  | .memImm a => '[' :: ofNat a.toNat ++ "]".toList
  | .mem e => '[' :: e.print ++ "]".toList

/-- Models: src/t86/instruction.cpp:30-58 (`typeToString`). -/
def BinOp.print : BinOp → Str
  | .mod => "MOD".toList | .add => "ADD".toList | .sub => "SUB".toList | .mul => "MUL".toList | .div => "DIV".toList
  | .imul => "IMUL".toList | .idiv => "IDIV".toList | .and => "AND".toList | .or => "OR".toList | .xor => "XOR".toList
  | .lsh => "LSH".toList | .rsh => "RSH".toList

/-- Models: src/t86/instruction.cpp:125-132 (`typeToString`). -/
def FBinOp.print : FBinOp → Str
  | .fadd => "FADD".toList | .fsub => "FSUB".toList | .fmul => "FMUL".toList | .fdiv => "FDIV".toList

/-- Models: src/t86/instruction.cpp:34-39, 56-57 (`typeToString`). -/
def UnOp.print : UnOp → Str
  | .inc => "INC".toList | .dec => "DEC".toList | .neg => "NEG".toList | .not => "NOT".toList

/-- Models: src/t86/instruction.cpp:76-107 (`typeToString`). -/
def Cond.print : Cond → Str
  | .jz => "JZ".toList | .jnz => "JNZ".toList | .je => "JE".toList | .jne => "JNE".toList | .jg => "JG".toList
  | .jge => "JGE".toList | .jl => "JL".toList | .jle => "JLE".toList | .ja => "JA".toList | .jae => "JAE".toList
  | .jb => "JB".toList | .jbe => "JBE".toList | .jo => "JO".toList | .jno => "JNO".toList | .js => "JS".toList
  | .jns => "JNS".toList

/-- Models: src/t86/instruction.cpp:13-139 (`typeToString`). -/
def Instr.name : Instr → Str
  | .mov .. => "MOV".toList
  | .lea .. => "LEA".toList
  | .nop => "NOP".toList
  | .halt => "HALT".toList
  | .brk => "BREAK".toList
  | .bkpt => "BKPT".toList
  | .clf => "CLF".toList
  | .bin op .. => op.print
  | .fbin op .. => op.print
  | .un op _ => op.print
  | .cmp .. => "CMP".toList
  | .fcmp .. => "FCMP".toList
  | .jmp _ => "JMP".toList
  | .jcc c _ => c.print
  | .loop .. => "LOOP".toList
  | .call _ => "CALL".toList
  | .ret => "RET".toList
  | .push _ => "PUSH".toList
  | .fpush _ => "FPUSH".toList
  | .pop _ => "POP".toList
  | .fpop _ => "FPOP".toList
  | .putchar _ => "PUTCHAR".toList
  | .putnum _ => "PUTNUM".toList
  | .getchar _ => "GETCHAR".toList
  | .ext .. => "EXT".toList
  | .nrw .. => "NRW".toList

/-- Models: src/t86/instruction.h:124-126, 182-188, 488-490, 620-622, 653-655, 684-686, 714-716, 821-823, 953-955, 981-983,
1030-1032, 1128-1130, 1162-1164, 1195-1197 (`signatureOperands`). -/
def Instr.shown : Instr → List Operand
  | .mov d v => [d, v]
  | .lea r m => [.val (.reg r), m]
  | .bin _ risc d r v => if risc then [.val (.reg d), .val (.reg r), v] else [.val (.reg r), v]
  | .fbin _ f v => [.freg f, v]
  | .un _ r => [.val (.reg r)]
  | .cmp r v => [.val (.reg r), v]
  | .fcmp f v => [.freg f, v]
  | .jmp a => [a]
  | .jcc _ a => [a]
  | .loop r a => [.val (.reg r), a]
  | .call a => [a]
  | .push v => [v]
  | .fpush v => [v]
  | .pop r => [.val (.reg r)]
  | .fpop f => [.freg f]
  | .putchar r => [.val (.reg r)]
  | .putnum r => [.val (.reg r)]
  | .getchar r => [.val (.reg r)]
  | .ext f r => [.freg f, .val (.reg r)]
  | .nrw r f => [.val (.reg r), .freg f]
  | .nop => [] | .halt => [] | .brk => [] | .bkpt => [] | .clf => [] | .ret => []

/-- The operands after the first. Models: src/t86/instruction.cpp:158-160. -/
def printMore (ftos : Word → Str) : List Operand → Str
  | [] => []
  | o :: l => ", ".toList ++ o.print ftos ++ printMore ftos l

/-- Models: src/t86/instruction.cpp:151-163 (`Instruction::toString`). -/
def Instr.print (ftos : Word → Str) (i : Instr) : Str :=
  match i.shown with
  | [] => i.name
  | o :: l => i.name ++ " ".toList ++ o.print ftos ++ printMore ftos l

end T86
