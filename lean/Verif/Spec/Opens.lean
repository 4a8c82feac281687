import Verif.Spec.Framing
import Verif.Spec.Descr
import Verif.Spec.Shape
/-!
Which byte streams are NPY files, and what their headers say.
-/
set_option autoImplicit false
namespace Npyz.Spec

/-- These bytes are this text in UTF-8: with a final newline, or without one. -/
def IsLine (bytes : Bytes) (text : Text) : Prop :=
  bytes = encodeUtf8 text ++ [10] ∨ (bytes = encodeUtf8 text ∧ text.getLast? ≠ some '\n')

/-- The bytes begin with a complete header of a known version, that says that the array has this dtype, shape and order. -/
structure IsNpy (py : PyParser) (bs : Bytes) (d : DType) (shape : List Nat) (order : Order) : Prop where
  preamble : GoodPreamble bs
  whole : headerEnd bs ≤ bs.length
  says : ∃ (text : Text) (kvs : List (PyVal × PyVal)) (vshape vdescr : PyVal),
    IsLine (headerBody bs) text ∧ py text = some (.dict kvs) ∧ StringKeys kvs ∧
    LastEntry "fortran_order" (.bool (decide (order = .fortran))) kvs ∧
    LastEntry "shape" vshape kvs ∧ IsShape vshape shape ∧
    LastEntry "descr" vdescr kvs ∧ Describes vdescr d

/-- The items have no size, because they are Python objects, or their size fits in a `usize`. -/
def SizeFits (M : Machine) (d : DType) : Prop := HasObject d ∨ AllFit M.usizeLim d

end Npyz.Spec
