import Verif.Spec.DType
import Verif.Model.Py
/-!
Independent description of the `descr` entry of a header (NumPy's `dtype.descr`): which values describe which dtypes.
-/
namespace Npyz.Spec

/-- `v` is a shape: a list or a tuple of integers that fit in a `u64`. -/
def IsShape (v : PyVal) (dims : List Nat) : Prop :=
  (v = .list (dims.map fun n : Nat => .int n) ∨ v = .tuple (dims.map fun n : Nat => .int n)) ∧ ∀ n ∈ dims, n < 2 ^ 64

/-- `e` is the dtype of arrays of shape `dims` with elements `d`: the first dimension is the outermost. -/
inductive ArrayOf : List Nat → DType → DType → Prop
  | nil {d} : ArrayOf [] d d
  | cons {n dims d e} : ArrayOf dims d e → ArrayOf (n :: dims) d (.array n e)

/-- A list or a tuple of these items. -/
def IsSequence (v : PyVal) (items : List PyVal) : Prop := v = .list items ∨ v = .tuple items

mutual
/-- `v` describes `d`: a string that spells a type string, or a list of fields. -/
inductive Describes : PyVal → DType → Prop
  | plain {s t} : Spells s t → Describes (.str s) (.plain t)
  | record {vs fs} : DescribesFields vs fs → Describes (.list vs) (.record fs)
/-- Field by field, in order. -/
inductive DescribesFields : List PyVal → Fields → Prop
  | nil : DescribesFields [] .nil
  | cons {v vs name d fs} : DescribesField v name d → DescribesFields vs fs → DescribesFields (v :: vs) (.cons name d fs)
/-- A field: `(name, dtype)` or `(name, dtype, shape)`, as a list or a tuple. -/
inductive DescribesField : PyVal → Text → DType → Prop
  | single {v name x d} : IsSequence v [.str name, x] → Describes x d → DescribesField v name d
  | array {v name x shape d dims e} : IsSequence v [.str name, x, shape] → Describes x d → IsShape shape dims →
      ArrayOf dims d e → DescribesField v name e
end

end Npyz.Spec
