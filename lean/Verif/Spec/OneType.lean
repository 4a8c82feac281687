import Verif.Spec.Codec
/-!
When two element types are different views of the same data.
-/
set_option autoImplicit false
namespace Npyz.Spec

/-- The scalar types for text and bytes. -/
def Stringy : Ty → Prop
  | .vecU8 | .arrayVecU8 _ | .fixedBytes _ | .vecU32 | .vecChar | .string | .arrayVecU32 _ | .arrayVecChar _ | .arrayString _ => True
  | _ => False

mutual
/-- Equal, except that strings may be held in different types. -/
inductive Alike : Ty → Ty → Prop
  | same (t : Ty) : Alike t t
  | strings (t u : Ty) : Stringy t → Stringy u → Alike t u
  | array (n : Nat) (t u : Ty) : Alike t u → Alike (.array n t) (.array n u)
  | record (fs gs : TFields) : AlikeFields fs gs → Alike (.record fs) (.record gs)
inductive AlikeFields : TFields → TFields → Prop
  | nil : AlikeFields .nil .nil
  | cons (name : Text) (t u : Ty) (fs gs : TFields) : Alike t u → AlikeFields fs gs → AlikeFields (.cons name t fs) (.cons name u gs)
end

end Npyz.Spec
