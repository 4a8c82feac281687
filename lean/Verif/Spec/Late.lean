import Verif.Spec.Read

/-! Which element types notice a malformed element only when they have read all of it? -/

set_option autoImplicit false

namespace Npyz.Spec
open Npyz

/-- Every complete item of dtype `d` is a value of type `t`. -/
def NeverFails (t : Ty) (d : DType) : Prop := ∀ bs, exactBytes d = some bs.length → decode t d bs ≠ none

mutual
/-- A malformed item of dtype `d` is read to its end before the error is reported.  Scalars are read in one piece, except `U`
strings, which are read character by character.  Only the last element of an array and only the last nonempty field
of a record may fail. -/
def FailsLate : Ty → DType → Prop
  | .array n t, .array _ d => n = 0 ∨ (FailsLate t d ∧ (n = 1 ∨ NeverFails t d))
  | .record fs, .record dfs => FieldsFailLate fs dfs
  | _, .plain s => s.typeChar ≠ .unicodeStr ∨ s.size ≤ 1
  | _, _ => False
/-- The fields one after the other. -/
def FieldsFailLate : TFields → Fields → Prop
  | .nil, _ => True
  | .cons _ t rest, .cons _ d dfs => FailsLate t d ∧ FieldsFailLate rest dfs ∧ (NeverFails t d ∨ exactFieldBytes dfs = some 0)
  | _, _ => False
end

end Npyz.Spec
