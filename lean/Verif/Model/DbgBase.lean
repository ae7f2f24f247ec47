import Verif.Model.Base
import Verif.Model.Str

/-! # Base types of the debugger model -/

namespace T86
namespace Dbg

/-- What can go wrong in the debugger. `debugger` is a `DebuggerError` (src/debugger/DebuggerError.h), `parser` a
`ParserError` (src/common/parsing.h:11-19), `outOfRange`, `runtime` and `invalid` are `std::out_of_range`,
`std::runtime_error` and `std::invalid_argument`; `ub` is undefined behaviour, `abort` a failed assertion, `diverge` a
computation that does not end. `unspecified` marks behaviour that the model leaves open. -/
inductive Err
  | debugger | parser | outOfRange | runtime | invalid | ub | abort | diverge | unspecified
  deriving DecidableEq, Repr

/-- A `std::map`, as a list of its entries with one entry per key. Simplification: the entries are not kept sorted; no
modelled result depends on the order. -/
abbrev Map (κ α : Type) := List (κ × α)

namespace Map
variable {κ α : Type} [DecidableEq κ]

/-- `map::find`. -/
def find (m : Map κ α) (k : κ) : Option α := (m.find? (fun e => e.1 = k)).map (·.2)

/-- `map::erase` (by key). -/
def erase (m : Map κ α) (k : κ) : Map κ α := m.filter (fun e => e.1 ≠ k)

/-- `map::insert_or_assign` and assignment through `map::operator[]`. -/
def assign (m : Map κ α) (k : κ) (v : α) : Map κ α := m.erase k ++ [(k, v)]

/-- `map::emplace`: does nothing when the key is there. -/
def emplace (m : Map κ α) (k : κ) (v : α) : Map κ α :=
  match m.find k with
  | some _ => m
  | none => m ++ [(k, v)]

/-- One entry per key. -/
def Ok (m : Map κ α) : Prop := (m.map (·.1)).Nodup

end Map
end Dbg
end T86
