import Verif.Spec.Writer
import Verif.Spec.Index
/-!
Transposed arrays.
-/
namespace Npyz.Spec
set_option autoImplicit false

/-- The other order. -/
def otherOrder : Order → Order
  | .c => .fortran
  | .fortran => .c

/-- `g` describes the transpose of what `f` describes, stored in the same way: the axes are reversed, and with them the order. -/
structure Transposed (f g : NpyHeader) : Prop where
  dtype : g.dtype = f.dtype
  shape : g.shape = f.shape.reverse
  order : g.order = otherOrder f.order

end Npyz.Spec
