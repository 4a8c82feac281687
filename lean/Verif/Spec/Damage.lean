import Verif.Spec.Read
import Verif.Spec.Header
/-!
Damage to the data of an array.
-/
set_option autoImplicit false
namespace Npyz.Spec

/-- The two files are the same, except for the bytes of item `i`. -/
def DiffersIn (bs bs' : Bytes) (size i : Nat) : Prop :=
  ∃ pre item item' post, bs = pre ++ item ++ post ∧ bs' = pre ++ item' ++ post ∧ item.length = size ∧ item'.length = size ∧
    pre.length = headerEnd bs + i * size

mutual
/-- Types without booleans and text: every item of bytes is a value. -/
def Free : Ty → Prop
  | .num _ | .complex _ | .vecU8 | .arrayVecU8 _ | .fixedBytes _ => True
  | .bool | .vecU32 | .vecChar | .string | .arrayVecU32 _ | .arrayVecChar _ | .arrayString _ => False
  | .array _ t => Free t
  | .record fs => FreeFields fs
def FreeFields : TFields → Prop
  | .nil => True
  | .cons _ t rest => Free t ∧ FreeFields rest
end

end Npyz.Spec
