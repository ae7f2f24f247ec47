import Verif.Model.Operand

/-! # What each instruction reads, produces and computes: src/t86/instruction.h, src/t86/instruction.cpp -/

namespace T86

/-- Models: src/t86/instructions/product.h (`std::variant` `product_`). -/
inductive Product
  | reg (r : Reg)
  | freg (i : Nat)
  | memImm (a : Word)
  | memReg
  deriving DecidableEq, Repr

/-- Models: src/t86/instructions/product.cpp:6-30 (`Product::fromOperand`). -/
def Product.fromOperand : Operand → Res Product
  | .val (.reg r) => .ok (.reg r)
  | .memImm a => .ok (.memImm a)
  | .mem _ => .ok .memReg
  | .freg i => .ok (.freg i)
  | _ => .error (.exn .runtimeError)

/-- The registers of an address, in the order in which their values are supplied.
Models: src/t86/instruction.cpp:288-312 (the tails of the vectors in `MOV::operands`), 640-660 (`LEA::operands`). -/
def RegExpr.regs : RegExpr → List Reg
  | .reg r => [r]
  | .regImm r _ => [r]
  | .regReg r1 r2 => [r1, r2]
  | .regScaled r _ => [r]
  | .regImmReg r1 _ r2 => [r1, r2]
  | .regRegScaled r1 r2 _ => [r2, r1]
  | .regImmRegScaled r1 _ r2 _ => [r2, r1]

/-- A register read as an operand. -/
def Operand.ofReg (r : Reg) : Operand := .val (.reg r)

/-- The top of the stack as an operand (`Memory::Register{Register::StackPointer()}`, src/t86/instruction.h:681,711,978). -/
def Operand.top : Operand := .mem (.reg .sp)

/-- Models the `operands()` functions: src/t86/instruction.cpp:284-314 (MOV), 638-662 (LEA), src/t86/instruction.h:190-192
(binary), 271-273 (float binary), 321-323 (unary), 362-364 (no operands), 513-515 (CLF), 553-555 (CMP), 588-590 (FCMP),
616-618 (PUSH), 649-651 (FPUSH), 680-682 (POP), 710-712 (FPOP), 817-819 (conditional jumps), 847-849 (JMP), 922-924
(LOOP), 949-951 (CALL), 977-979 (RET), 1064-1066 (PUTCHAR), 1094-1096 (PUTNUM), 1124-1126 (GETCHAR), 1158-1160 (EXT),
1191-1193 (NRW). -/
def Instr.operands : Instr → Res (List Operand)
  | .mov (.val (.reg _)) v => .ok [v]
  | .mov (.memImm _) v => .ok [v]
  | .mov (.freg _) v => .ok [v]
  | .mov (.mem e) v => .ok (v :: e.regs.map .ofReg)
  | .mov _ _ => .error (.exn .runtimeError)
  | .lea _ (.mem (.reg _)) => .error (.exn .runtimeError)
  | .lea _ (.mem e) => .ok (e.regs.map .ofReg)
  | .lea _ _ => .error (.exn .runtimeError)
  | .nop => .ok []
  | .halt => .ok []
  | .brk => .ok []
  | .bkpt => .ok []
  | .clf => .ok []
  | .bin _ _ _ r v => .ok [.ofReg r, v]
  | .fbin _ f v => .ok [.freg f, v]
  | .un _ r => .ok [.ofReg r]
  | .cmp r v => .ok [.ofReg r, v]
  | .fcmp f v => .ok [.freg f, v]
  | .jmp a => .ok [a]
  | .jcc _ a => .ok [a, .ofReg .flags]
  | .loop r a => .ok [.ofReg r, a]
  | .call a => .ok [a, .ofReg .pc, .ofReg .sp]
  | .ret => .ok [.top, .ofReg .sp]
  | .push v => .ok [v, .ofReg .sp]
  | .fpush v => .ok [v, .ofReg .sp]
  | .pop _ => .ok [.top, .ofReg .sp]
  | .fpop _ => .ok [.top, .ofReg .sp]
  | .putchar r => .ok [.ofReg r]
  | .putnum r => .ok [.ofReg r]
  | .getchar _ => .ok []
  | .ext _ r => .ok [.ofReg r]
  | .nrw _ f => .ok [.freg f]

/-- Models the `produces()` functions: src/t86/instruction.h:194-196 (binary), 275-277 (float binary), 325-327 (unary),
366-368 (none), 492-494 (MOV), 517-519 (CLF), 557-559 (CMP), 592-594 (FCMP), 624-626 (PUSH), 657-659 (FPUSH), 688-690
(POP), 718-720 (FPOP), 789-791 (jumps), 926-928 (LOOP), 957-962 (CALL), 985-987 (RET), 1034-1036 (LEA), 1068-1070
(PUTCHAR), 1098-1100 (PUTNUM), 1132-1134 (GETCHAR), 1166-1168 (EXT), 1199-1201 (NRW). -/
def Instr.produces : Instr → Res (List Product)
  | .mov dst _ => do let p ← Product.fromOperand dst; return [p]
  | .lea r _ => .ok [.reg r]
  | .nop => .ok []
  | .halt => .ok []
  | .brk => .ok []
  | .bkpt => .ok []
  | .clf => .ok [.reg .flags]
  | .bin _ _ d _ _ => .ok [.reg d, .reg .flags]
  | .fbin _ f _ => .ok [.freg f, .reg .flags]
  | .un _ r => .ok [.reg r, .reg .flags]
  | .cmp _ _ => .ok [.reg .flags]
  | .fcmp _ _ => .ok [.reg .flags]
  | .jmp _ => .ok [.reg .pc]
  | .jcc _ _ => .ok [.reg .pc]
  | .loop r _ => .ok [.reg r, .reg .pc, .reg .flags]
  | .call _ => .ok [.reg .pc, .reg .sp, .memReg]
  | .ret => .ok [.reg .sp, .reg .pc]
  | .push _ => .ok [.memReg, .reg .sp]
  | .fpush _ => .ok [.memReg, .reg .sp]
  | .pop r => .ok [.reg r, .reg .sp]
  | .fpop f => .ok [.freg f, .reg .sp]
  | .putchar _ => .ok []
  | .putnum _ => .ok []
  | .getchar r => .ok [.reg r]
  | .ext f _ => .ok [.freg f]
  | .nrw r _ => .ok [.reg r]

/-- Models the `needsAlu()` functions: src/t86/instruction.h:172-174, 263-265, 311-313, 353-355, 480-482, 543-545, 578-580,
916-918, 1022-1024, 1060-1062, 1090-1092, 1120-1122, 1154-1156, 1187-1189. -/
def Instr.needsAlu : Instr → Bool
  | .bin .. => true
  | .fbin .. => true
  | .un .. => true
  | .cmp .. => true
  | .fcmp .. => true
  | .loop .. => true
  | .ext .. => true
  | .nrw .. => true
  | _ => false

/-- Models: src/t86/cpu.cpp:389-400 (`Config::getExecutionLength`). -/
def Instr.execLength : Instr → Nat
  | .mov (.val (.reg _)) (.imm _) => 2
  | _ => 3

/-- The destination of a jump as the branch predictor sees it, `none` for instructions that are not
`JumpInstruction`s. Models: src/t86/instruction.h:765-797 (`JumpInstruction`, `PatchableJumpInstruction::getDestination`),
989-991 (`RET::getDestination`). -/
def Instr.jumpDest : Instr → Option Operand
  | .jmp a => some a
  | .jcc _ a => some a
  | .loop _ a => some a
  | .call a => some a
  | .ret => some .top
  | _ => none

/-- Models: src/t86/cpu/branch_predictors/naive_branch_predictor.cpp:3-12 (`nextGuess`). -/
def nextGuess (pc : Word) (dest : Operand) : Word :=
  match dest with
  | .imm w => w
  | .fimm w => w
  | _ => pc + 1

/-- Models: src/t86/instruction.cpp:212-234. -/
def BinOp.alu (m : Mode) : BinOp → Word → Word → Res Alu.Result
  | .mod => Alu.mod
  | .add => Alu.add m
  | .sub => Alu.subtract m
  | .mul => Alu.multiply
  | .div => Alu.divide
  | .imul => Alu.signedMultiply m
  | .idiv => Alu.signedDivide
  | .and => Alu.bitAnd
  | .or => Alu.bitOr
  | .xor => Alu.bitXor
  | .lsh => Alu.bitLeftShift
  | .rsh => Alu.bitRightShift

/-- Models: src/t86/instruction.cpp:276-282. -/
def UnOp.alu (m : Mode) : UnOp → Word → Res Alu.Result
  | .inc => fun x => Alu.add m x 1
  | .dec => fun x => Alu.subtract m x 1
  | .neg => Alu.negate m
  | .not => Alu.bitNot

/-- Models: src/t86/instruction.cpp:254-257. -/
def FBinOp.alu (fo : FloatOps) : FBinOp → Word → Word → Alu.Result
  | .fadd => Alu.fadd fo
  | .fsub => Alu.fsubtract fo
  | .fmul => Alu.fmultiply fo
  | .fdiv => Alu.fdivide fo

/-- The calls an `execute` function makes on its reservation station entry, in order.
Models: src/t86/cpu/reservation_station.h:110-140 (`setRegister`/`setFloatRegister`/`setFlags`/`setStackPointer`/
`setProgramCounter` are all `set`). -/
inductive Act
  | set (r : LReg) (v : Word)
  | specifyAddress (a : Word)
  | setValue (v : Word)
  deriving DecidableEq, Repr

/-- The address named by a memory operand once its registers are known.
Models: src/t86/instruction.cpp:355-396 (nested `Operand::supply(...).index()` in `MOV::execute`), 666-703 (`LEA::execute`). -/
def RegExpr.address (m : Mode) (e : RegExpr) (vs : List Word) : Res Word :=
  match vs with
  | [a] => do
      let x ← e.supply m a
      match x with
      | .inl w => return w
      | .inr _ => .error .abort
  | [a, b] => do
      let x ← e.supply m a
      match x with
      | .inl _ => .error .abort
      | .inr e' => do
          let y ← e'.supply m b
          match y with
          | .inl w => return w
          | .inr _ => .error .abort
  | _ => .error .abort

/-- Result of `execute`: the calls made, and the operands appended to the entry (LOOP only). -/
structure ExecOut where
  acts : List Act
  extra : List Operand

/-- Models the `execute` functions: src/t86/instruction.cpp:192-198 (binary), 235-241 (float binary), 265-271 (unary),
338-402 (MOV), 414-420 (conditional jumps), 428-432 (JMP), 474-479 (CMP), 481-486 (FCMP), 488-498 (LOOP), 514-522 (PUSH),
524-533 (FPUSH), 553-558 (POP), 560-566 (FPOP), 581-590 (CALL), 598-603 (RET), 664-707 (LEA), 727-731 (EXT), 733-737 (NRW);
the others do nothing (src/t86/instruction.h:124). The argument is the list of fetched operand values. -/
def Instr.exec (cfg : Cfg) (i : Instr) (vs : List Word) : Res ExecOut :=
  match i, vs with
  | .bin op _ d _ _, [x, y] => do
      let r ← op.alu cfg.mode x y
      return ⟨[.set (.int d) r.value, .set (.int .flags) (Alu.flagsToWord r.flags)], []⟩
  | .fbin op f _, [x, y] =>
      let r := op.alu cfg.fo x y
      .ok ⟨[.set (.flt f) r.value, .set (.int .flags) (Alu.flagsToWord r.flags)], []⟩
  | .un op d, [x] => do
      let r ← op.alu cfg.mode x
      return ⟨[.set (.int d) r.value, .set (.int .flags) (Alu.flagsToWord r.flags)], []⟩
  | .mov (.val (.reg d)) _, [x] => .ok ⟨[.set (.int d) x], []⟩
  | .mov (.freg f) _, [x] => .ok ⟨[.set (.flt f) x], []⟩
  | .mov (.memImm _) _, [x] => .ok ⟨[.setValue x], []⟩
  | .mov (.mem e) _, x :: as => do
      let a ← e.address cfg.mode as
      return ⟨[.specifyAddress a, .setValue x], []⟩
  | .lea _ (.mem (.regReg _ _)), _ => .error .ub
  | .lea d (.mem e), as => do
      let a ← e.address cfg.mode as
      return ⟨[.set (.int d) a], []⟩
  | .cmp _ _, [x, y] => do
      let r ← Alu.subtract cfg.mode x y
      return ⟨[.set (.int .flags) (Alu.flagsToWord r.flags)], []⟩
  | .fcmp _ _, [x, y] =>
      .ok ⟨[.set (.int .flags) (Alu.flagsToWord (Alu.fsubtract cfg.fo x y).flags)], []⟩
  | .jmp _, [a] => .ok ⟨[.set (.int .pc) a], []⟩
  | .jcc c _, [a, f] => .ok ⟨if c.taken f then [.set (.int .pc) a] else [], []⟩
  | .loop d _, [x, a] => do
      let r ← Alu.subtract cfg.mode x 1
      return ⟨[.set (.int d) r.value, .set (.int .flags) (Alu.flagsToWord r.flags)] ++
        (if r.value ≠ 0 then [.set (.int .pc) a] else []), [.imm r.value]⟩
  | .call _, [a, pc, sp] => do
      let s ← ssub cfg.mode sp 1
      return ⟨[.set (.int .pc) a, .specifyAddress s, .setValue pc, .set (.int .sp) s], []⟩
  | .ret, [a, sp] => do
      let s ← sadd cfg.mode sp 1
      return ⟨[.set (.int .pc) a, .set (.int .sp) s], []⟩
  | .push _, [x, sp] => do
      let s ← ssub cfg.mode sp 1
      return ⟨[.specifyAddress s, .setValue x, .set (.int .sp) s], []⟩
  | .fpush _, [x, sp] => do
      let s ← ssub cfg.mode sp 1
      return ⟨[.specifyAddress s, .setValue x, .set (.int .sp) s], []⟩
  | .pop d, [x, sp] => do
      let s ← sadd cfg.mode sp 1
      return ⟨[.set (.int d) x, .set (.int .sp) s], []⟩
  | .fpop f, [x, sp] => do
      let s ← sadd cfg.mode sp 1
      return ⟨[.set (.flt f) x, .set (.int .sp) s], []⟩
  | .ext f _, [x] => .ok ⟨[.set (.flt f) (cfg.fo.ofInt x)], []⟩
  | .nrw d _, [x] =>
      match cfg.fo.toInt x with
      | some w => .ok ⟨[.set (.int d) w], []⟩
      | none => .error .ub
  | .nop, [] => .ok ⟨[], []⟩
  | .halt, [] => .ok ⟨[], []⟩
  | .brk, [] => .ok ⟨[], []⟩
  | .bkpt, [] => .ok ⟨[], []⟩
  | .clf, [] => .ok ⟨[], []⟩
  | .putchar _, [_] => .ok ⟨[], []⟩
  | .putnum _, [_] => .ok ⟨[], []⟩
  | .getchar _, [] => .ok ⟨[], []⟩
  | _, _ => .error .abort

end T86
