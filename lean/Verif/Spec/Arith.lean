import Verif.Model.Base

/-! # Independent arithmetic specification

Plain integer vocabulary used in the statements of the ALU, ISA and evaluator properties. -/

namespace Spec
open T86

/-- The integer fits in a signed 64-bit word. -/
def FitsSigned (z : Int) : Prop := -(2 ^ 63 : Int) ≤ z ∧ z < 2 ^ 63

/-- The integer fits in an unsigned 64-bit word. -/
def FitsUnsigned (z : Int) : Prop := 0 ≤ z ∧ z < 2 ^ 64

instance (z : Int) : Decidable (FitsSigned z) := by unfold FitsSigned; infer_instance
instance (z : Int) : Decidable (FitsUnsigned z) := by unfold FitsUnsigned; infer_instance

/-- `w` is the 64-bit word congruent to the integer `z` modulo 2^64. -/
def WordOf (w : Word) (z : Int) : Prop := (2 ^ 64 : Int) ∣ ((w.toNat : Int) - z)

/-- Bit `i` of a word. -/
def bit (w : Word) (i : Nat) : Bool := w.toNat.testBit i

end Spec
