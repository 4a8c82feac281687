import Verif.Model.Ndarray
import Verif.Spec.Writer
/-!
What is expected of conversions between files and `ndarray` arrays.
-/
set_option autoImplicit false
namespace Npyz.Spec

/-- What `ndarray` guarantees of every array and view: there is an element at every index of the shape. -/
def Sound {V : Type} (a : NdView V) : Prop := ∀ idx, InShape idx a.dims → (a.get idx).isSome

/-- The array has this shape, and its elements, taken in NumPy's storage order, are the values. -/
def ArrayIs {V : Type} (a : NdView V) (o : Order) (dims : List Nat) (vs : List V) : Prop :=
  a.dims = dims ∧ (storage o dims).map a.get = vs.map some

/-- The shape can be represented in `ndarray` on the machine: `usize` dimensions, of which the nonzero ones have a product of at most
`isize::MAX`. -/
def NdShape (M : Machine) (dims : List Nat) : Prop := (∀ n ∈ dims, n < M.usizeLim) ∧ nonzeroProd dims ≤ M.isizeMax

/-- The same elements at the same indices. -/
def SameElements {V : Type} (a b : NdView V) : Prop := a.dims = b.dims ∧ ∀ idx, InShape idx a.dims → a.get idx = b.get idx

end Npyz.Spec
