import Verif.Model.Alu

/-! # Registers, operands and instructions (syntax): src/t86/cpu/register.h, src/t86/instructions/*, src/t86/instruction.h -/

namespace T86

/-- An integer register name.
Models: src/t86/cpu/register.h:24-103 (`class Register`). The C++ class stores one `size_t`; the four special
registers are the indices `max`, `max-1`, `max-2`, `max-3`. Simplification: those four are separate constructors, so
`gp i` with such a huge `i` (which the C++ would confuse with a special register) is a distinct, invalid register. -/
inductive Reg
  | gp (i : Nat)
  | pc
  | sp
  | bp
  | flags
  deriving DecidableEq, Repr

/-- A register of either bank. Models: the key of `RegisterAllocationTable::table_`
(src/t86/cpu/register_allocation_table.h, `std::variant<Register, FloatRegister>`). -/
inductive LReg
  | int (r : Reg)
  | flt (i : Nat)
  deriving DecidableEq, Repr

/-- The seven register expressions.
Models: src/t86/cpu/register.h:24-256 (`Register`, `RegisterOffset`, `RegisterRegister`, `RegisterScaled`,
`RegisterOffsetRegister`, `RegisterRegisterScaled`, `RegisterOffsetRegisterScaled`). -/
inductive RegExpr
  | reg (r : Reg)
  | regImm (r : Reg) (off : Word)
  | regReg (r1 r2 : Reg)
  | regScaled (r : Reg) (scale : Word)
  | regImmReg (r1 : Reg) (off : Word) (r2 : Reg)
  | regRegScaled (r1 r2 : Reg) (scale : Word)
  | regImmRegScaled (r1 : Reg) (off : Word) (r2 : Reg) (scale : Word)
  deriving DecidableEq, Repr

/-- The eighteen alternatives of `Operand`.
Models: src/t86/instructions/operand.h (the `std::variant` `value_`), src/t86/instructions/operand.cpp:303-342
(`getType`). `mem e` is the `Memory::X` counterpart of the register expression `e`; floats are bit patterns. -/
inductive Operand
  | imm (w : Word)
  | fimm (w : Word)
  | val (e : RegExpr)
  | freg (i : Nat)
  | memImm (a : Word)
  | mem (e : RegExpr)
  deriving DecidableEq, Repr

/-- Models: src/t86/instruction.cpp:212-234 (the instances of `BINARY_ARITH_INS_IMPL`). -/
inductive BinOp
  | mod | add | sub | mul | div | imul | idiv | and | or | xor | lsh | rsh
  deriving DecidableEq, Repr

/-- Models: src/t86/instruction.cpp:254-257 (the instances of `FLOAT_BINARY_ARITH_INS_IMPL`). -/
inductive FBinOp
  | fadd | fsub | fmul | fdiv
  deriving DecidableEq, Repr

/-- Models: src/t86/instruction.cpp:276-282 (the instances of `UNARY_ARITH_INS_IMPL`). -/
inductive UnOp
  | inc | dec | neg | not
  deriving DecidableEq, Repr

/-- The instruction classes of src/t86/instruction.h:140-1211, except `DBG`, whose effect is an arbitrary C++
function of the embedding program (it cannot be written in a T86 source file: src/t86-parser/parser.cpp:485-489).
`bin` with `risc = true` is the three-register form (src/t86/instruction.h:155-170). -/
inductive Instr
  | mov (dst value : Operand)
  | lea (r : Reg) (m : Operand)
  | nop
  | halt
  | brk
  | bkpt
  | clf
  | bin (op : BinOp) (risc : Bool) (dest reg : Reg) (value : Operand)
  | fbin (op : FBinOp) (f : Nat) (value : Operand)
  | un (op : UnOp) (r : Reg)
  | cmp (r : Reg) (value : Operand)
  | fcmp (f : Nat) (value : Operand)
  | jmp (a : Operand)
  | jcc (c : Cond) (a : Operand)
  | loop (r : Reg) (a : Operand)
  | call (a : Operand)
  | ret
  | push (value : Operand)
  | fpush (value : Operand)
  | pop (r : Reg)
  | fpop (f : Nat)
  | putchar (r : Reg)
  | putnum (r : Reg)
  | getchar (r : Reg)
  | ext (f : Nat) (r : Reg)
  | nrw (r : Reg) (f : Nat)
  deriving DecidableEq, Repr

/-- What a program can print. Models: src/t86/instruction.cpp:709-719 (`PUTCHAR` prints one byte, `PUTNUM` an `int`). -/
inductive Out
  | char (c : BitVec 8)
  | num (n : BitVec 32)
  deriving DecidableEq, Repr

/-- The machine configuration.
Models: the constructor arguments of src/t86/cpu.cpp:120-131 (`Cpu::Cpu`), plus the arithmetic mode of the compiled
C++ and the floating point unit. -/
structure Cfg where
  nreg : Nat
  nfreg : Nat
  alus : Nat
  rsMax : Nat
  ramSize : Nat
  gates : Nat
  mode : Mode
  fo : FloatOps

/-- Models: src/t86/cpu.cpp:124 (`physicalRegisterCnt_`), src/t86/cpu.h:76-85. -/
def Cfg.nphys (cfg : Cfg) : Nat := 4 + cfg.nreg + cfg.nfreg + cfg.rsMax * 7

/-- Number of logical registers: the size of an allocation table.
Models: src/t86/cpu/register_allocation_table.cpp:11-25. -/
def Cfg.nkeys (cfg : Cfg) : Nat := cfg.nreg + cfg.nfreg + 4

/-- The position of a register in an allocation table (see `Rat`), `none` for a register the machine does not have.
Models: the key set built in src/t86/cpu/register_allocation_table.cpp:11-25. -/
def Cfg.key (cfg : Cfg) : LReg → Option Nat
  | .int (.gp i) => if i < cfg.nreg then some i else none
  | .flt i => if i < cfg.nfreg then some (cfg.nreg + i) else none
  | .int .pc => some (cfg.nreg + cfg.nfreg)
  | .int .sp => some (cfg.nreg + cfg.nfreg + 1)
  | .int .bp => some (cfg.nreg + cfg.nfreg + 2)
  | .int .flags => some (cfg.nreg + cfg.nfreg + 3)

end T86
