import Verif.Spec.Index
import Verif.Spec.Shape
/-!
Parts of an array along the axis whose index changes slowest: NumPy's `a[i:j]` in C order, `a[..., i:j]` in Fortran order.
-/
set_option autoImplicit false
namespace Npyz.Spec

/-- The shape of `n` arrays of shape `dims`, stacked along a new slowest axis. -/
def stack : Order → Nat → List Nat → List Nat
  | .c, n, dims => n :: dims
  | .fortran, n, dims => dims ++ [n]

/-- The index with `i` added to its first member. -/
def addFirst (i : Nat) : List Nat → List Nat
  | [] => []
  | a :: rest => (i + a) :: rest

/-- The index with `i` added along the slowest axis. -/
def advance : Order → Nat → List Nat → List Nat
  | .c, i, idx => addFirst i idx
  | .fortran, i, idx => (addFirst i idx.reverse).reverse

end Npyz.Spec
