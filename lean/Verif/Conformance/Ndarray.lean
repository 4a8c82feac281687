import Verif.Conformance.Data
import Verif.Model.Ndarray
/-!
The tests of `/repo/examples/ndarray.rs` 39-86, 123-147, evaluated in the model.
-/
set_option autoImplicit false
namespace Npyz.Conformance
open Npyz

/-- The elements at some indices of the array loaded from a file. -/
def ndElements (file : Bytes) (idxs : List (List Nat)) : Option (List Nat × List (Option Nat)) :=
  match loadArrayD ⟨false, 64, true⟩ Py.parse (.num .i64) ⟨file, 0⟩ with
  | .ok a => some (a.dims, idxs.map fun idx => (a.get idx).map (BitVec.toNat (w := 64)))
  | _ => none

-- `read_c_order`, `read_f_order`
example : ndElements file_c_order_npy [[0, 2, 1], [0, 1, 1], [1, 2, 2]] = some ([2, 3, 4], [some 3, some 2, some 6]) := by decide +kernel
example : ndElements file_f_order_npy [[0, 2, 1], [0, 1, 1], [1, 2, 2]] = some ([2, 3, 4], [some 3, some 2, some 6]) := by decide +kernel

/-- The view of the test of `write_array`: `100 * i + 10 * j + k` of shape (6, 7, 8), reversed axes, every second element of the last one. -/
def ndView : NdView (BitVec 32) :=
  ⟨[8, 7, 3], 0, [1, 8, 112], (Spec.indices [6, 7, 8]).map fun idx =>
    BitVec.ofNat 32 (100 * idx.getD 0 0 + 10 * idx.getD 1 0 + idx.getD 2 0)⟩

-- what `write_array` writes of it
example : (ndView.iter.map (BitVec.toNat (w := 32))).take 4 = [0, 200, 400, 10] ∧ ndView.iter.length = 168 := by decide +kernel

/-- The same with shape (4, 3, 2). -/
def ndSmall : NdView (BitVec 32) :=
  ⟨[2, 3, 2], 0, [1, 2, 12], (Spec.indices [4, 3, 2]).map fun idx =>
    BitVec.ofNat 32 (100 * idx.getD 0 0 + 10 * idx.getD 1 0 + idx.getD 2 0)⟩

/-- The values in the file that `write_array` makes of this one.  (To evaluate all of the larger file takes several GB.) -/
def ndWritten : Option (Order × List Nat × List Nat) :=
  match writeArray ⟨false, 64, true⟩ solid (.num .i32) ndSmall ⟨[], 0, false⟩ with
  | some (.ok (), s) =>
    match (NpyFile.new ⟨false, 64, true⟩ Py.parse disk ⟨s.data, 0⟩).1 with
    | .ok f =>
      match (f.intoVec ⟨false, 64, true⟩ disk (.num .i32)).1 with
      | .ok vs => some (f.header.order, f.header.shape, vs.map (BitVec.toNat (w := 32)))
      | _ => none
    | _ => none
  | _ => none

example : ndWritten = some (.c, [2, 3, 2], [0, 200, 10, 210, 20, 220, 1, 201, 11, 211, 21, 221]) := by decide +kernel

end Npyz.Conformance
