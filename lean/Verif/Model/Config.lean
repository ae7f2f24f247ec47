import Verif.Model.DbgBase
import Verif.Model.Cpu
import Verif.Model.Str

/-! # The configuration of a program that uses the library: src/common/config.h, `Cpu::Config` and the constructors of `Cpu` -/

namespace T86
open Dbg Str

/-- The settings read from the command line. Models: src/common/config.h:98 (`args_`); the members `interactive_`, `verbose_` and
`input_` are never read. -/
abbrev Config := Map Str Str

namespace Config

/-- Models: src/common/config.h:14-16. -/
def verboseKey : Str := " verbose".toList
def modeKey : Str := " mode".toList
def inputKey : Str := " input".toList

/-- Models: src/common/config.h:89-93 (`setOption`). -/
def setOption (c : Config) (name value : Str) : Except Err Config :=
  match c.find name with
  | some _ => .error .runtime
  | none => .ok (c.emplace name value)

/-- One argument of the command line. `arg[0]` of an empty argument is the terminating zero, so an empty argument is an input.
Models: src/common/config.h:19-43, the body of the loop. -/
def parseArg (c : Config) (arg : Str) : Except Err Config :=
  if arg = "--verbose".toList || arg = "-v".toList then setOption c verboseKey "true".toList
  else if arg = "--interactive".toList || arg = "-i".toList || arg = "--repl".toList then setOption c modeKey "interactive".toList
  else if arg = "--compile".toList || arg = "-c".toList then setOption c modeKey "compile".toList
  else if arg.head? = some '-' then
    match arg.dropWhile (· != '=') with
    | [] => setOption c arg []
    | _ :: value => setOption c (arg.takeWhile (· != '=')) value
  else setOption c inputKey arg

/-- Models: src/common/config.h:19-43, the loop. -/
def parseArgs (c : Config) : List Str → Except Err Config
  | [] => .ok c
  | a :: l => do
      let c ← parseArg c a
      parseArgs c l

/-- Whether there was a setting for the name is returned by the code and not used by its callers.
Models: src/common/config.h:77-84 (`setDefaultIfMissing`). -/
def setDefault (c : Config) (name value : Str) : Config :=
  match c.find name with
  | some _ => c
  | none => c.emplace name value

/-- The arguments after the name of the program. `NDEBUG` is not defined (src/CMakeLists.txt).
Models: src/common/config.h:18-47 (`parse`). -/
def parse (c : Config) (args : List Str) : Except Err Config := do
  let c ← parseArgs c args
  return c.setDefault verboseKey "true".toList

/-- Models: src/common/config.h:49-55 (`interactive`). -/
def interactive (c : Config) : Bool :=
  match c.find modeKey with
  | none => false
  | some m => m = "interactive".toList

/-- Models: src/common/config.h:57-62 (`verbose`). -/
def verbose (c : Config) : Bool :=
  match c.find verboseKey with
  | none => false
  | some m => m = "true".toList

/-- Models: src/common/config.h:64-69 (`input`). -/
def input (c : Config) : Except Err Str :=
  match c.find inputKey with
  | none => .error .runtime
  | some m => .ok m

/-- Models: src/common/config.h:71-76 (`get`). -/
def get (c : Config) (name : Str) : Except Err Str :=
  match c.find name with
  | none => .error .runtime
  | some m => .ok m

end Config

namespace Str

/-- `std::stoul` in base ten: white space and a sign are skipped, the longest run of digits is read, and what follows is ignored. A
minus sign negates modulo 2^64. -/
def stoul (s : Str) : Except Err Nat :=
  let s := s.dropWhile isSpace
  let t := if s.head? = some '-' || s.head? = some '+' then s.tail else s
  let d := t.takeWhile isDigit
  if d.isEmpty then .error .invalid
  else if 2 ^ 64 ≤ digits d then .error .outOfRange
  else if s.head? = some '-' then .ok ((2 ^ 64 - digits d) % 2 ^ 64)
  else .ok (digits d)

end Str

namespace CpuConfig

/-- Names and defaults. Models: src/t86/cpu.h:32-54. -/
def registers : Str := "-registerCnt".toList
def floatRegisters : Str := "-floatRegisterCnt".toList
def alus : Str := "-aluCnt".toList
def stations : Str := "-reservationStationEntriesCnt".toList
def ram : Str := "-ram".toList
def ramGates : Str := "-ramGates".toList

/-- The constructor of the singleton, which runs when it is first used. Models: src/t86/cpu.cpp:402-415. -/
def init (c : Config) : Config :=
  (((((c.setDefault registers (Str.ofNat 10)).setDefault floatRegisters (Str.ofNat 5)).setDefault alus (Str.ofNat 1)).setDefault
    stations (Str.ofNat 2)).setDefault ram (Str.ofNat 1024)).setDefault ramGates (Str.ofNat 4)

/-- A setting as a number. Models: src/t86/cpu.cpp:365-387 (`registerCnt`, `floatRegisterCnt`, `aluCnt`,
`reservationStationEntriesCnt`, `ramSize`, `ramGatesCount`). -/
def number (c : Config) (name : Str) : Except Err Nat := do
  let s ← (init c).get name
  Str.stoul s

end CpuConfig

/-- The sizes of a machine, without its arithmetic. -/
structure Sizes where
  regs : Nat
  fregs : Nat
  alus : Nat
  stations : Nat
  memory : Nat
  gates : Nat
  deriving DecidableEq, Repr

namespace Sizes
open CpuConfig

/-- `Cpu(registerCount, floatRegisterCount, ramSize)`. Simplification: `2 * aluCnt` is not reduced modulo 2^64; a machine with 2^63
units cannot be built. Models: src/t86/cpu.cpp:112-113. -/
def three (c : Config) (regs fregs memory : Nat) : Except Err Sizes := do
  let a ← number c CpuConfig.alus
  let g ← number c ramGates
  return ⟨regs, fregs, a, 2 * a, memory, g⟩

/-- `Cpu(registerCount, floatRegisterCount)`. Models: src/t86/cpu.cpp:108-110. -/
def two (c : Config) (regs fregs : Nat) : Except Err Sizes := do
  let m ← number c ram
  three c regs fregs m

/-- `Cpu(registerCount)`. Models: src/t86/cpu.cpp:104-106. -/
def one (c : Config) (regs : Nat) : Except Err Sizes := do
  let f ← number c floatRegisters
  let m ← number c ram
  three c regs f m

/-- `Cpu()`: calls the constructor with three arguments. Models: src/t86/cpu.cpp:341-343. -/
def none (c : Config) : Except Err Sizes := do
  let r ← number c registers
  let a ← number c CpuConfig.alus
  let s ← number c CpuConfig.stations
  three c r a s

end Sizes

/-- The function that makes a register operand; `InvalidRegister` is a `std::runtime_error`.
Models: src/t86/program/helpers.cpp:4-9 (`Reg`). -/
def Config.reg (c : Config) (i : Nat) : Except Err Reg := do
  let n ← CpuConfig.number c CpuConfig.registers
  if i > n then .error .runtime else return .gp i

end T86
