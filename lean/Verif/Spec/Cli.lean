import Verif.Model.Cli
import Verif.Spec.Native

/-! # What the command line of the debugger should do -/

namespace T86
open Dbg Str
namespace Cli

/-- A word of a line: no blanks in it. -/
def IsWord (w : Str) : Prop := w ≠ [] ∧ ∀ c ∈ w, isSpace c = false

/-- A line that consists of these words. -/
def line (ws : List Str) : Str := " ".toList.intercalate ws

/-- The commands by their names, in the order of their priority. `print` is another name of `expression`. -/
def names : List (Command × Str) :=
  [(.run, "run".toList), (.attach, "attach".toList), (.help, "help".toList), (.breakpoint, "breakpoint".toList),
   (.istep, "istep".toList), (.inext, "inext".toList), (.disassemble, "disassemble".toList), (.assemble, "assemble".toList),
   (.continue', "continue".toList), (.register, "register".toList), (.memory, "memory".toList), (.watchpoint, "watchpoint".toList),
   (.next, "next".toList), (.step, "step".toList), (.finish, "finish".toList), (.frame, "frame".toList),
   (.source, "source".toList), (.expression, "expression".toList), (.expression, "print".toList)]

/-- The command of a line, if its first word stands for one. -/
def Is (k : Command) (raw : Str) : Prop := squashStrip raw ≠ [] ∧ dispatch (firstWord (squashStrip raw)).1 = some k

/-- The command has no parameters. -/
def Bare (raw : Str) : Prop := (firstWord (squashStrip raw)).2 = []

/-- How a command goes on with the program. -/
def motion (e : Env) (src : Src.Source) (h : Host) (c : Client) : Command → Option (Native.N Event)
  | .istep => some (Native.singleStep h c)
  | .inext => some (Native.stepOver h c e.fuel true)
  | .step => some (Src.stepIn h c src e.fuel)
  | .next => some (Src.stepOver h c src e.fuel)
  | .finish => some (Native.stepOut h c e.fuel)
  | .continue' => some (do
      Native.continue' h c
      Native.waitEvent h c)
  | _ => none

/-- The line is carried out: the debugger goes on, and no error is printed. -/
def Done (e : Env) (raw : Str) (s s' : Cli) : Prop := typed e raw s = (.ok (), s') ∧ Out.error ∉ s'.out.drop s.out.length

end Cli
end T86
