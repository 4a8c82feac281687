import Verif.Spec.Codec
/-!
Which values survive being written and read again (C112), and for which types and dtypes reading and writing go together (C37).
-/
namespace Npyz.Spec
set_option autoImplicit false

/-- The list does not end with `z`. -/
def NotEndingIn {α : Type} (z : α) (l : List α) : Prop := ∀ init, l ≠ init ++ [z]

mutual
/-- Nothing of the value `v` is lost when it is stored with dtype `d`: strings do not end in NUL, raw bytes are unconditionally fine
except that an `ArrayVec<u8, cap>` has to be full, and numbers are always fine. -/
def Kept : (t : Ty) → DType → t.Val → Prop
  | .num _, _, _ => True
  | .bool, _, _ => True
  | .complex _, _, _ => True
  | .fixedBytes _, _, _ => True
  | .vecU8, d, v => ∀ s, d = .plain s → s.typeChar = .byteStr → NotEndingIn 0 v
  | .arrayVecU8 cap, d, v => ∀ s, d = .plain s →
    (s.typeChar = .byteStr → NotEndingIn 0 v.1) ∧ (s.typeChar = .rawData → v.1.length = cap)
  | .vecU32, _, v => NotEndingIn 0 v
  | .vecChar, _, v => NotEndingIn '\x00' v
  | .string, _, v => NotEndingIn '\x00' v
  | .arrayVecU32 _, _, v => NotEndingIn 0 v.1
  | .arrayVecChar _, _, v => NotEndingIn '\x00' v.1
  | .arrayString _, _, v => NotEndingIn '\x00' v.1
  | .array _ t, d, v => ∀ x ∈ v.1, Kept t (elemOf d) x
  | .record fs, d, v => FieldsKept fs (fieldsOf d) v
/-- Nothing of any field is lost. -/
def FieldsKept : (fs : TFields) → Fields → fs.Val → Prop
  | .nil, _, _ => True
  | .cons _ _ _, .nil, _ => True
  | .cons _ t rest, .cons _ d dfs, v => Kept t d v.1 ∧ FieldsKept rest dfs v.2
end

mutual
/-- An `ArrayString` is stored as Unicode (`Un`) somewhere in the item. -/
def UnicodeArrayString : Ty → DType → Prop
  | .arrayString _, .plain s => s.typeChar = .unicodeStr
  | .array _ t, .array _ d => UnicodeArrayString t d
  | .record fs, .record dfs => FieldsUnicodeArrayString fs dfs
  | _, _ => False
def FieldsUnicodeArrayString : TFields → Fields → Prop
  | .cons _ t rest, .cons _ d dfs => UnicodeArrayString t d ∨ FieldsUnicodeArrayString rest dfs
  | _, _ => False
end

end Npyz.Spec
