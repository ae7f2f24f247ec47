import Verif.Model.Asm
import Verif.Model.Load

/-! # The command `t86-cli FILE`: src/t86-cli/main.cpp, src/t86/os.cpp

Running a file without `--debug`. Reading the command line itself (library argparse, exit status 1) is not modelled. -/

namespace T86
namespace Run
open Dbg Str Asm

/-- The options that describe the machine. Models: src/t86-cli/main.cpp:32-45,70-72. -/
structure Options where
  regs : Nat := 8
  fregs : Nat := 4
  memory : Nat := 1024

/-- The machine that is built: one arithmetic unit, two entries in the reservation station and four gates of the memory
follow from the defaults of the configuration, which `t86-cli` does not change. Models: src/t86-cli/main.cpp:74, src/t86/os.h:11,
src/t86/cpu.cpp:112-113, src/t86/cpu.h:41-55, src/t86/cpu.cpp:400-413. -/
def Options.cfg (o : Options) (mode : Mode) (fo : FloatOps) : Cfg where
  nreg := o.regs
  nfreg := o.fregs
  alus := 1
  rsMax := 2
  ramSize := o.memory
  gates := 4
  mode := mode
  fo := fo

/-- What is seen of the process after some time. -/
inductive Outcome
  /-- The process has ended with an exit status, and has printed the given output. -/
  | exited (status : Nat) (out : List T86.Out)
  /-- The processor threw an exception. It is caught and logged and the process ends, with exit status 0. The output
  includes what the tick that failed printed before. -/
  | failed (out : List T86.Out)
  /-- The process still runs, and has printed the given output. -/
  | running (out : List T86.Out)
  /-- The process was ended by an exception nobody catches, or by a failed assertion. -/
  | aborted
  /-- The C++ program has undefined behaviour. -/
  | undefined
  deriving DecidableEq

/-- The exit status, if the process ended by itself. Models: `main` of src/t86-cli/main.cpp does not use the result of `Run`. -/
def Outcome.status : Outcome → Option Nat
  | .exited n _ => some n
  | .failed _ => some 0
  | _ => none

/-- What the retirement loop has printed when it ends, be it by an error; instructions print when they are retired, and nothing
else in the loop prints. `fuel` as for `Cpu.retireLoop`.
Models: src/t86/cpu/reservation_station.cpp:30-40, 305-320; src/t86/instruction.cpp:709-719. -/
def retireOut (cfg : Cfg) : Nat → Cpu → List T86.Out
  | 0, c => c.out
  | n + 1, c =>
    match c.entries with
    | [] => c.out
    | e :: es =>
      if e.st = .retiring then
        match Cpu.retireInstr cfg { c with entries := es } e with
        | .error _ => c.out
        | .ok c1 =>
          match (do
            let c ← Cpu.retireEntry cfg { c with entries := es } e
            let regs ← Cpu.dropTables c.regs e
            return { c with regs := regs } : Res Cpu) with
          | .error _ => c1.out
          | .ok c2 => retireOut cfg n c2
      else c.out

/-- What has been printed when a tick ends, be it by an error. Only the retirement loop prints.
Models: src/t86/cpu.cpp:14-26, src/t86/cpu/reservation_station.cpp:11-41. -/
def tickOut (cfg : Cfg) (c : Cpu) : List T86.Out :=
  match Cpu.execLoop cfg (c.regs, c.wm.removeFinished c.ram.tick) c.freeAlus c.entries with
  | .error _ => c.out
  | .ok x => retireOut cfg x.1.length { c with intr := 0, ram := c.ram.tick, entries := x.1, regs := x.2.1.1, wm := x.2.1.2, freeAlus := x.2.2 }

/-- `n` passes of the loop of `OS::Run` without a debugger: a call of the debugger is only logged, so `stop` is never set.
`DispatchInterrupt` throws for an interrupt that is not 1, 2 or 3, and nobody catches this.
Models: src/t86/os.cpp:10-26 (`DispatchInterrupt`), 28-56 (`Run`), 58-65 (`DebuggerMessage`). -/
def loop (cfg : Cfg) : Nat → Cpu → Outcome
  | 0, c => .running c.out
  | n + 1, c =>
    match Cpu.tick cfg c with
    | .error .ub => .undefined
    | .error .abort => .aborted
    | .error (.exn _) => .failed (tickOut cfg c)
    | .ok c' =>
      if c'.halted then .exited 0 c'.out
      else if c'.intr ≤ 3 then loop cfg n c'
      else .aborted

/-- What is seen of `t86-cli FILE` after `n` ticks of the processor; `file` is the contents of the file, if it can be opened,
and `inp` what can be read from the standard input. Only a `ParserError` is caught, and not one from the first token, which is
read when the parser is created, outside the `try`. Data that does not fit the memory throws out of `Cpu::start`, which is
outside the `try` of `Run`.
Models: src/t86-cli/main.cpp:54-84 (`main`), src/t86/os.cpp:29, src/t86/cpu.cpp:170-176 (`start`). -/
def main (stod : Str → Except Err Word) (mode : Mode) (fo : FloatOps) (o : Options) (file : Option Str)
    (inp : List (BitVec 8)) (n : Nat) : Outcome :=
  match file with
  | none => .exited 3 []
  | some text =>
    match Lexer.lex stod false text with
    | .error _ => .aborted
    | .ok _ =>
      match assemble stod text with
      | .error .parser => .exited 2 []
      | .error .ub => .undefined
      | .error _ => .aborted
      | .ok u =>
        match loadData (List.replicate o.memory 0) 0 u.data with
        | none => .aborted
        | some _ => loop (o.cfg mode fo) n (Cpu.init (o.cfg mode fo) u.program u.data inp)

end Run
end T86
