import Verif.Model.Write
import Verif.Spec.Shape
/-!
Independent description of the header text a writer should produce.
-/
namespace Npyz.Spec

/-- The shape entry: a complete tuple, or one with a 20-character placeholder for the unknown axis
(the last one in Fortran order, the first one in C order). -/
def shapeTuple (o : Order) : ShapeHint → Text
  | .nd dims => txt "(" ++ (dims.flatMap fun n => Nat.toDigits 10 n ++ txt ", ") ++ txt ")"
  | .oneD => txt "(********************,)"
  | .twoD n => match o with
    | .c => txt "(********************, " ++ Nat.toDigits 10 n ++ txt ")"
    | .fortran => txt "(" ++ Nat.toDigits 10 n ++ txt ", ********************)"

/-- Python's Booleans. -/
def boolText (b : Bool) : Text := if b then txt "True" else txt "False"

/-- The text of the header dictionary. -/
def dictText (d : DType) (o : Order) (hint : ShapeHint) : Text :=
  txt "{'descr': " ++ d.descr ++ txt ", 'fortran_order': "
    ++ boolText (o == .fortran)
    ++ txt ", 'shape': " ++ shapeTuple o hint ++ txt ", }"

/-- Its size in bytes, as UTF-8. -/
def dictBytes (d : DType) (o : Order) (hint : ShapeHint) : Nat := (encodeUtf8 (dictText d o hint)).length

/-- The dtype description uses characters outside ASCII (in field names). -/
def NonAscii (d : DType) : Prop := ∃ c ∈ d.descr, 128 ≤ c.toNat

end Npyz.Spec

namespace Npyz
open Spec

/-- The products computed for a hint do not overflow. -/
def ShapeHint.Fits : ShapeHint → Prop
  | .nd dims => nonzeroProd dims < 2 ^ 64
  | _ => True

end Npyz
