import Verif.Spec.Cli

/-! # A session of the debugger (C80) -/

namespace T86
open Dbg
namespace Cli

/-- The debugger as it is started: without a program, and with nothing printed. -/
def begun (e : Env) (input : List Str) : Cli := { host := e.host 8 4 1024, client := .default, input := input }

/-- What becomes of the lines of the input: they are carried out one after the other, each in the state the one before leaves, until there are
no more and the program is ended, or until one of them ends the debugger. -/
inductive Carried (e : Env) : Cli → Except Err Unit → Cli → Prop
  | finished {s s' : Cli} {r : Except Err Unit} (none_ : s.input = []) (end_ : exitProcess s = (r, s')) : Carried e s r s'
  | line {s s1 s' : Cli} {raw : Str} {rest : List Str} {r : Except Err Unit} (next : s.input = raw :: rest)
      (done : typed e raw { s with input := rest } = (.ok (), s1)) (others : Carried e s1 r s') : Carried e s r s'
  | died {s s' : Cli} {raw : Str} {rest : List Str} {er : Err} (next : s.input = raw :: rest)
      (done : typed e raw { s with input := rest } = (.error er, s')) : Carried e s (.error er) s'

end Cli
end T86
