import Verif.Model.Header
/-!
Independent description of the order in which the elements of a multi-dimensional array are stored.
-/
set_option autoImplicit false
namespace Npyz.Spec

/-- All indices of an array of the given shape, in lexicographic order: the last index runs fastest. -/
def indices : List Nat → List (List Nat)
  | [] => [[]]
  | n :: ns => (List.range n).flatMap fun i => (indices ns).map (i :: ·)

/-- The indices in the order in which NumPy stores the elements: in C order the last index runs fastest, in
Fortran order the first one. -/
def storage : Order → List Nat → List (List Nat)
  | .c, dims => indices dims
  | .fortran, dims => (indices dims.reverse).map List.reverse

end Npyz.Spec
