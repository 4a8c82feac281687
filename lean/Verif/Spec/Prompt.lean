import Verif.Spec.Codec

/-! Which element types notice that a value cannot be stored before they have written all bytes of its item? -/

set_option autoImplicit false

namespace Npyz.Spec
open Npyz

mutual
/-- A value of type `t` that cannot be stored as an item of dtype `d` is refused before the bytes of the item are complete.  Numbers and
byte arrays of a fixed length can always be stored.  Vectors are measured before anything is written, and so are strings stored as
bytes; an item that has no bytes at all is complete at once.  Strings stored as code units are not measured. -/
def Prompt : Ty → DType → Prop
  | .num _, _ => True
  | .bool, _ => True
  | .complex _, _ => True
  | .fixedBytes _, _ => True
  | .vecU8, .plain s => s.size ≠ 0
  | .arrayVecU8 _, .plain s => s.size ≠ 0
  | .vecU32, .plain s => s.size ≠ 0
  | .vecChar, .plain s => s.size ≠ 0
  | .arrayVecU32 _, .plain s => s.size ≠ 0
  | .arrayVecChar _, .plain s => s.size ≠ 0
  | .string, .plain s => s.typeChar ≠ .unicodeStr ∧ s.size ≠ 0
  | .arrayString _, .plain s => s.typeChar ≠ .unicodeStr ∧ s.size ≠ 0
  | .array _ t, .array _ d => Prompt t d
  | .record fs, .record dfs => FieldsPrompt fs dfs
  | _, _ => False
/-- Every field. -/
def FieldsPrompt : TFields → Fields → Prop
  | .nil, .nil => True
  | .cons _ t rest, .cons _ d dfs => Prompt t d ∧ FieldsPrompt rest dfs
  | _, _ => False
end

end Npyz.Spec
