import Verif.Spec.Sparse
import Verif.Spec.Shape
/-!
Archives of sparse matrices as scipy lays them out.
-/
namespace Npyz.Spec
set_option autoImplicit false

/-- The data array of the archive has the shape that scipy gives it: one row for each diagonal (of which there is at least one) of a
DIA matrix, one block for each column index of a BSR matrix. -/
def LaidOut (M : Machine) (py : PyParser) (a : NpzArchive) {t : Ty} : Sparse t → Prop
  | .dia m => m.offsets ≠ [] ∧ ∃ f k, a.byName M py (txt "data") = .ok (some f) ∧ f.header.shape = [m.offsets.length, k] ∧
      m.offsets.length * k < 2 ^ 64
  | .bsr m => ∃ f b0 b1, a.byName M py (txt "data") = .ok (some f) ∧ f.header.shape = [m.indices.length, b0, b1] ∧
      b0 < M.usizeLim ∧ b1 < M.usizeLim ∧ m.indices.length * (b0 * b1) < 2 ^ 64
  | _ => True

end Npyz.Spec
