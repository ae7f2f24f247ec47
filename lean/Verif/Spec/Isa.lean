import Verif.Model.Instr

/-! # The sequential T86 machine

A specification, not a model of the C++: one instruction after the other, no pipeline, no renaming, no latency. It is
the reading of the instruction set that a T86 programmer has (docs in /repo/README.md and src/t86/README.md). Arithmetic
results and flags are those of the ALU (whose meaning is the subject of `Verif/Props/Alu.lean`). -/

namespace T86
namespace Isa

/-- Architectural state. `mem a = none` means that the machine has no memory cell `a`. -/
structure State where
  pc : Word
  reg : LReg → Word
  mem : Word → Option Word
  out : List Out
  inp : List (BitVec 8)
  halted : Bool

/-- Reading a register. Reading IP gives the address of the following instruction. -/
def State.get (s : State) : LReg → Word
  | .int .pc => s.pc + 1
  | r => s.reg r

/-- Writing a register other than IP. -/
def State.set (s : State) (r : LReg) (v : Word) : State :=
  { s with reg := fun r' => if r' = r then v else s.reg r' }

/-- The value of a register expression, in 64-bit arithmetic. -/
def ea (get : LReg → Word) : RegExpr → Word
  | .reg r => get (.int r)
  | .regImm r i => get (.int r) + i
  | .regReg r1 r2 => get (.int r1) + get (.int r2)
  | .regScaled r k => get (.int r) * k
  | .regImmReg r1 i r2 => get (.int r1) + i + get (.int r2)
  | .regRegScaled r1 r2 k => get (.int r1) + get (.int r2) * k
  | .regImmRegScaled r1 i r2 k => get (.int r1) + i + get (.int r2) * k

/-- Reading memory; there is an error for cells that do not exist. -/
def State.load (s : State) (a : Word) : Res Word :=
  match s.mem a with
  | some v => .ok v
  | none => .error (.exn .outOfRange)

/-- Writing memory; there is an error for cells that do not exist. -/
def State.store (s : State) (a v : Word) : Res State :=
  match s.mem a with
  | some _ => .ok { s with mem := fun a' => if a' = a then some v else s.mem a' }
  | none => .error (.exn .outOfRange)

/-- The value of an operand. -/
def State.operand (s : State) : Operand → Res Word
  | .imm w => .ok w
  | .fimm w => .ok w
  | .val e => .ok (ea s.get e)
  | .freg i => .ok (s.get (.flt i))
  | .memImm a => s.load a
  | .mem e => s.load (ea s.get e)

/-- Setting the FLAGS register. -/
def State.setFlags (s : State) (f : Flags) : State := s.set (.int .flags) (Alu.flagsToWord f)

/-- Going on with the next instruction. -/
def State.next (s : State) : State := { s with pc := s.pc + 1 }

/-- The input with leading white space skipped (`>>` on a C++ stream). -/
def skipSpace : List (BitVec 8) → List (BitVec 8) :=
  List.dropWhile fun b => b = 32 || (9 ≤ b.toNat && b.toNat ≤ 13)

/-- The effect of one instruction. -/
def exec (cfg : Cfg) (s : State) : Instr → Res State
  | .nop => .ok s.next
  | .bkpt => .ok s.next
  | .brk => .ok s.next
  | .halt => .ok { s.next with halted := true }
  | .clf => .ok (s.setFlags ⟨false, false, false, false⟩).next
  | .mov dst v => do
      let x ← s.operand v
      match dst with
      | .val (.reg d) => return (s.set (.int d) x).next
      | .freg f => return (s.set (.flt f) x).next
      | .memImm a => do let s ← s.store a x; return s.next
      | .mem e => do let s ← s.store (ea s.get e) x; return s.next
      | _ => .error (.exn .runtimeError)
  | .lea d m =>
      match m with
      | .mem e => .ok (s.set (.int d) (ea s.get e)).next
      | _ => .error (.exn .runtimeError)
  | .bin op _ d r v => do
      let y ← s.operand v
      let z ← op.alu cfg.mode (s.get (.int r)) y
      return ((s.set (.int d) z.value).setFlags z.flags).next
  | .fbin op f v => do
      let y ← s.operand v
      let z := op.alu cfg.fo (s.get (.flt f)) y
      return ((s.set (.flt f) z.value).setFlags z.flags).next
  | .un op r => do
      let z ← op.alu cfg.mode (s.get (.int r))
      return ((s.set (.int r) z.value).setFlags z.flags).next
  | .cmp r v => do
      let y ← s.operand v
      let z ← Alu.subtract cfg.mode (s.get (.int r)) y
      return (s.setFlags z.flags).next
  | .fcmp f v => do
      let y ← s.operand v
      return (s.setFlags (Alu.fsubtract cfg.fo (s.get (.flt f)) y).flags).next
  | .jmp a => do
      let t ← s.operand a
      return { s with pc := t }
  | .jcc c a => do
      let t ← s.operand a
      return if c.taken (s.get (.int .flags)) then { s with pc := t } else s.next
  | .loop r a => do
      let t ← s.operand a
      let z ← Alu.subtract cfg.mode (s.get (.int r)) 1
      let s' := (s.set (.int r) z.value).setFlags z.flags
      return if z.value ≠ 0 then { s' with pc := t } else s'.next
  | .call a => do
      let t ← s.operand a
      let sp := s.get (.int .sp) - 1
      let s ← s.store sp (s.pc + 1)
      return { s.set (.int .sp) sp with pc := t }
  | .ret => do
      let t ← s.load (s.get (.int .sp))
      return { s.set (.int .sp) (s.get (.int .sp) + 1) with pc := t }
  | .push v => do
      let x ← s.operand v
      let sp := s.get (.int .sp) - 1
      let s ← s.store sp x
      return (s.set (.int .sp) sp).next
  | .fpush v => do
      let x ← s.operand v
      let sp := s.get (.int .sp) - 1
      let s ← s.store sp x
      return (s.set (.int .sp) sp).next
  | .pop r => do
      let x ← s.load (s.get (.int .sp))
      return ((s.set (.int r) x).set (.int .sp) (s.get (.int .sp) + 1)).next
  | .fpop f => do
      let x ← s.load (s.get (.int .sp))
      return ((s.set (.flt f) x).set (.int .sp) (s.get (.int .sp) + 1)).next
  | .putchar r => .ok { s.next with out := s.out ++ [.char ((s.get (.int r)).setWidth 8)] }
  | .putnum r => .ok { s.next with out := s.out ++ [.num ((s.get (.int r)).setWidth 32)] }
  | .getchar r =>
      match skipSpace s.inp with
      | [] => .error .ub
      | b :: rest => .ok { (s.set (.int r) (b.signExtend 64)).next with inp := rest }
  | .ext f r => .ok (s.set (.flt f) (cfg.fo.ofInt (s.get (.int r)))).next
  | .nrw r f =>
      match cfg.fo.toInt (s.get (.flt f)) with
      | some w => .ok (s.set (.int r) w).next
      | none => .error .ub

/-- The instruction at an address; past the end of the program there are only NOPs. -/
def instrAt (prog : List Instr) (pc : Word) : Instr := prog[pc.toNat]?.getD .nop

/-- One step of the sequential machine. -/
def step (cfg : Cfg) (prog : List Instr) (s : State) : Res State := exec cfg s (instrAt prog s.pc)

/-- `n` steps of the sequential machine. -/
def steps (cfg : Cfg) (prog : List Instr) : Nat → State → Res State
  | 0, s => .ok s
  | n + 1, s => do
      let s ← step cfg prog s
      steps cfg prog n s

/-- The address that an instruction writes to, if it is one that writes memory. -/
def writeAddr (s : State) : Instr → Option Word
  | .mov (.memImm a) _ => some a
  | .mov (.mem e) _ => some (ea s.get e)
  | .call _ => some (s.get (.int .sp) - 1)
  | .push _ => some (s.get (.int .sp) - 1)
  | .fpush _ => some (s.get (.int .sp) - 1)
  | _ => none

/-- Debug register `i` (0..3) watches address `a`: it holds `a` and bit `i` of the control register (number 4) is set. -/
def watches (dbg : List Word) (a : Word) (i : Nat) : Bool := (dbg.getD 4 0).getLsbD i && dbg.getD i 0 == a

/-- The highest-numbered debug register that watches an address. -/
def watchHit (dbg : List Word) (a : Word) : Option Nat := [3, 2, 1, 0].find? (watches dbg a)

/-- The interrupt an instruction causes when it takes effect: 3 for BKPT, 2 for a write to a watched address. -/
def stopCode (dbg : List Word) (s : State) (i : Instr) : Nat :=
  if i = .bkpt then 3
  else match writeAddr s i with
    | some a => if (watchHit dbg a).isSome then 2 else 0
    | none => 0

/-- `k` steps from `s` to `s'` that are neither preceded by a halt nor cause an interrupt. -/
def passes (cfg : Cfg) (prog : List Instr) (dbg : List Word) : Nat → State → State → Prop
  | 0, s, s' => s' = s
  | k + 1, s, s' => s.halted = false ∧ stopCode dbg s (instrAt prog s.pc) = 0 ∧
      ∃ t, step cfg prog s = .ok t ∧ passes cfg prog dbg k t s'

/-- The state in which a program starts: registers are zero except SP and BP, which hold the memory size; the data
section is at the bottom of the memory. -/
def start (cfg : Cfg) (data : List Word) (inp : List (BitVec 8)) : State where
  pc := 0
  reg := fun r => if r = .int .sp ∨ r = .int .bp then BitVec.ofNat 64 cfg.ramSize else 0
  mem := fun a => if a.toNat < cfg.ramSize then some (data[a.toNat]?.getD 0) else none
  out := []
  inp := inp
  halted := false

end Isa

/-- A register the machine has. -/
def Cfg.hasReg (cfg : Cfg) (r : Reg) : Bool := (cfg.key (.int r)).isSome

/-- A register that an instruction may have as destination: IP and FLAGS are excluded, as in the `validate` functions
of src/t86/instruction.cpp:186-190,259-263,329-336. -/
def Cfg.destReg (cfg : Cfg) (r : Reg) : Bool := cfg.hasReg r && r != .pc && r != .flags

/-- All registers of an expression exist. -/
def RegExpr.ok (cfg : Cfg) (e : RegExpr) : Bool := e.regs.all cfg.hasReg

/-- All registers of an operand exist. -/
def Operand.ok (cfg : Cfg) : Operand → Bool
  | .imm _ => true
  | .fimm _ => true
  | .val e => e.ok cfg
  | .freg i => decide (i < cfg.nfreg)
  | .memImm _ => true
  | .mem e => e.ok cfg

/-- Well-formed instructions: registers exist, destinations are neither IP nor FLAGS, `POP SP` is excluded (the C++
aborts on it), and `MOV`/`LEA` have one of the destination/address forms that the assembler accepts
(src/t86-parser/parser.cpp:357-393, 413-426). -/
def Instr.wf (cfg : Cfg) : Instr → Bool
  | .mov dst v => v.ok cfg && (match dst with
      | .val (.reg d) => cfg.destReg d
      | .freg i => decide (i < cfg.nfreg)
      | .memImm _ => true
      | .mem e => e.ok cfg
      | _ => false)
  | .lea d m => cfg.destReg d && (match m with
      | .mem (.reg _) => false
      | .mem e => e.ok cfg
      | _ => false)
  | .nop => true
  | .halt => true
  | .brk => true
  | .bkpt => true
  | .clf => true
  | .bin _ _ d r v => cfg.destReg d && cfg.hasReg r && v.ok cfg
  | .fbin _ f v => decide (f < cfg.nfreg) && v.ok cfg
  | .un _ r => cfg.destReg r
  | .cmp r v => cfg.hasReg r && v.ok cfg
  | .fcmp f v => decide (f < cfg.nfreg) && v.ok cfg
  | .jmp a => a.ok cfg
  | .jcc _ a => a.ok cfg
  | .loop r a => cfg.destReg r && a.ok cfg
  | .call a => a.ok cfg
  | .ret => true
  | .push v => v.ok cfg
  | .fpush v => v.ok cfg
  | .pop r => cfg.destReg r && r != .sp
  | .fpop f => decide (f < cfg.nfreg)
  | .putchar r => cfg.hasReg r
  | .putnum r => cfg.hasReg r
  | .getchar r => cfg.destReg r
  | .ext f r => decide (f < cfg.nfreg) && cfg.hasReg r
  | .nrw r f => cfg.destReg r && decide (f < cfg.nfreg)

/-- Instructions whose C++ implementation has undefined behaviour for some operands or pipeline states even when signed
overflow wraps: divisions and shifts (operand values), `LEA` of two registers (out-of-bounds vector access), `NRW` (value
out of range), `GETCHAR` (end of input) and the memory writes (dangling references of the write queue). -/
def Instr.risky : Instr → Bool
  | .bin op _ _ _ _ => match op with
      | .add | .sub | .mul | .and | .or | .xor => false
      | _ => true
  | .lea _ (.mem (.regReg _ _)) => true
  | .nrw _ _ => true
  | .getchar _ => true
  | .mov (.memImm _) _ => true
  | .mov (.mem _) _ => true
  | .call _ => true
  | .push _ => true
  | .fpush _ => true
  | _ => false

/-- The machine or the program leaves room for undefined behaviour of the C++. -/
def UbPossible (cfg : Cfg) (prog : List Instr) : Prop := cfg.mode = .strict ∨ ∃ i ∈ prog, i.risky = true

end T86
