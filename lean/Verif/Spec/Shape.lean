/-!
Independent description of multi-dimensional indexing.
-/
namespace Npyz.Spec

/-- `idx` is an index into an array of the given shape. -/
inductive InShape : List Nat → List Nat → Prop
  | nil : InShape [] []
  | cons {i n is ns} : i < n → InShape is ns → InShape (i :: is) (n :: ns)

/-- Position in the file of the element at `idx`: `sum(index_k * stride_k)`. -/
def flatIndex (idx strides : List Nat) : Nat := (List.zipWith (· * ·) idx strides).sum

/-- Product of the nonzero dimensions: an upper bound on every product of some of the dimensions. -/
def nonzeroProd (dims : List Nat) : Nat := (dims.filter (· ≠ 0)).prod

end Npyz.Spec
