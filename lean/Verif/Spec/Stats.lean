import Verif.Model.Stats
import Verif.Spec.Session

/-! # What the statistics of a run should say -/

namespace T86

/-- The addresses of the first `k` instructions the sequential machine executes from `s`. -/
def Isa.path (cfg : Cfg) (prog : List Instr) : Nat → State → List Word
  | 0, _ => []
  | k + 1, s => s.pc :: (match step cfg prog s with
    | .ok t => Isa.path cfg prog k t
    | .error _ => [])

namespace Stats

/-- An instruction occurs in the record of a tick. -/
def Tick.Mentions (t : Tick) (id : Nat) : Prop :=
  t.fetch = some id ∨ t.decode = some id ∨ id ∈ t.preparing ∨ id ∈ t.noAlu ∨ id ∈ t.executing ∨ id ∈ t.waiting ∨ id ∈ t.retired

instance (t : Tick) (id : Nat) : Decidable (t.Mentions id) := by unfold Tick.Mentions; infer_instance

end Stats
end T86
