import Verif.Model.Header
import Verif.Spec.TypeStr
/-!
Independent description of structured dtypes: packed size, presence of Python objects.
-/
namespace Npyz.Spec

mutual
/-- Exact packed size in bytes as a mathematical integer; `none` if a Python object is inside. -/
def exactBytes : DType → Option Nat
  | .plain t => itemBytes t
  | .array n d => (exactBytes d).map (n * ·)
  | .record fs => exactFieldBytes fs
/-- Sum over the fields. -/
def exactFieldBytes : Fields → Option Nat
  | .nil => some 0
  | .cons _ d rest =>
    match exactBytes d, exactFieldBytes rest with
    | some a, some b => some (a + b)
    | _, _ => none
end

mutual
/-- A Python object (`O`) occurs somewhere in the dtype. -/
inductive HasObject : DType → Prop
  | plain {t} : t.typeChar = .object → HasObject (.plain t)
  | array {n d} : HasObject d → HasObject (.array n d)
  | record {fs} : FieldsHaveObject fs → HasObject (.record fs)
inductive FieldsHaveObject : Fields → Prop
  | head {name d rest} : HasObject d → FieldsHaveObject (.cons name d rest)
  | tail {name d rest} : FieldsHaveObject rest → FieldsHaveObject (.cons name d rest)
end

mutual
/-- Every size that occurs while adding up the dtype fits below `lim`: the size of every member, of
every element type, of the whole, and every array length. -/
def AllFit (lim : Nat) : DType → Prop
  | .plain t => ∀ n, itemBytes t = some n → n < lim
  | .array n d => AllFit lim d ∧ n < lim ∧ ∀ k, exactBytes d = some k → n * k < lim
  | .record fs => FieldsFit lim fs ∧ ∀ k, exactFieldBytes fs = some k → k < lim
def FieldsFit (lim : Nat) : Fields → Prop
  | .nil => True
  | .cons _ d rest => AllFit lim d ∧ FieldsFit lim rest
end

end Npyz.Spec

namespace Npyz

mutual
/-- A dtype whose type strings are valid and whose lengths are `u64`s: what the API can build. -/
def DType.Wf : DType → Prop
  | .plain t => t.Wf
  | .array n d => n < 2 ^ 64 ∧ d.Wf
  | .record fs => fs.Wf
def Fields.Wf : Fields → Prop
  | .nil => True
  | .cons _ d rest => d.Wf ∧ rest.Wf
end

/-- The outermost layer is not an array. -/
def DType.NotArray : DType → Prop
  | .array _ _ => False
  | _ => True

end Npyz
