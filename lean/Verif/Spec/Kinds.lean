import Verif.Model.Operand

/-! # When two operands have the same form -/

namespace T86
namespace Kinds

/-- The forms of expressions over registers: the registers and numbers are left out. -/
inductive SameExpr : RegExpr → RegExpr → Prop
  | reg (r r') : SameExpr (.reg r) (.reg r')
  | regImm (r i r' i') : SameExpr (.regImm r i) (.regImm r' i')
  | regReg (r s r' s') : SameExpr (.regReg r s) (.regReg r' s')
  | regScaled (r i r' i') : SameExpr (.regScaled r i) (.regScaled r' i')
  | regImmReg (r i s r' i' s') : SameExpr (.regImmReg r i s) (.regImmReg r' i' s')
  | regRegScaled (r s i r' s' i') : SameExpr (.regRegScaled r s i) (.regRegScaled r' s' i')
  | regImmRegScaled (r i s j r' i' s' j') : SameExpr (.regImmRegScaled r i s j) (.regImmRegScaled r' i' s' j')

/-- The forms of operands: the registers and numbers are left out. -/
inductive Same : Operand → Operand → Prop
  | imm (i i') : Same (.imm i) (.imm i')
  | fimm (i i') : Same (.fimm i) (.fimm i')
  | val {e e'} : SameExpr e e' → Same (.val e) (.val e')
  | freg (f f') : Same (.freg f) (.freg f')
  | memImm (i i') : Same (.memImm i) (.memImm i')
  | mem {e e'} : SameExpr e e' → Same (.mem e) (.mem e')

/-- Two lists of operands of the same forms. -/
inductive SameAll : List Operand → List Operand → Prop
  | nil : SameAll [] []
  | cons {a b l l'} : Same a b → SameAll l l' → SameAll (a :: l) (b :: l')

end Kinds
end T86
