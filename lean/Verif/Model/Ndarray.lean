import Verif.Model.Writer
import Verif.Model.Read
import Verif.Spec.Index
import Verif.Spec.Shape
/-!
Model of the documented conversions from and to `ndarray` arrays: `/repo/src/lib.rs` 123-203, which are the functions of
`/repo/examples/ndarray.rs`.  What they call of the crate `ndarray` 0.15 is modelled by `NdView`.
-/
set_option autoImplicit false
namespace Npyz

/-- `ndarray::ArrayBase`: an array or a view of one.  The element at an index is found in `data` at
`offset + sum(index_k * stride_k)`; strides may be negative, zero or in any order. -/
structure NdView (V : Type) where
  dims : List Nat
  offset : Int
  strides : List Int
  data : List V
deriving DecidableEq, Repr

namespace NdView
variable {V : Type}

/-- Where the element at an index is. -/
def place (a : NdView V) (idx : List Nat) : Int :=
  a.offset + (List.zipWith (fun (i : Nat) (s : Int) => (i : Int) * s) idx a.strides).sum

/-- `ArrayBase::get`, for an index of the shape. -/
def get (a : NdView V) (idx : List Nat) : Option V := if 0 ≤ a.place idx then a.data[(a.place idx).toNat]? else none

/-- `ArrayBase::iter`: the elements in logical order (the last index runs fastest), whatever the strides are. -/
def iter (a : NdView V) : List V := (Spec.indices a.dims).filterMap a.get

end NdView

/-- `ndarray`'s `fortran_strides`, `default_strides` (for the reversed shape): all zero if the array is empty. -/
def ndStrides (dims : List Nat) : List Int :=
  if 0 ∈ dims then dims.map fun _ => 0
  else (List.range dims.length).map fun k => ((dims.take k).prod : Int)

/-- `ArrayBase::from_shape_vec` with `shape.set_f(fortran)`.  `none`: `ShapeError`, because the product of the nonzero
dimensions is larger than `isize::MAX` or the number of elements is wrong. -/
def ndFromShapeVec {V : Type} (M : Machine) (dims : List Nat) (fortran : Bool) (data : List V) : Option (NdView V) :=
  if M.isizeMax < Spec.nonzeroProd dims then none
  else if dims.prod ≠ data.length then none
  else some ⟨dims, 0, if fortran then ndStrides dims else (ndStrides dims.reverse).reverse, data⟩

/-- src/lib.rs 144-152, examples/ndarray.rs 17-25 `to_array_d`. -/
def toArrayD {V : Type} (M : Machine) (data : List V) (shape : List Nat) (order : Order) : Res (NdView V) :=
  match ndFromShapeVec M (shape.map (· % M.usizeLim)) (decide (order = .fortran)) data with
  | some a => .ok a
  | none => .panic

/-- src/lib.rs 130-141, examples/ndarray.rs 3-14 `to_array_3`. -/
def toArray3 {V : Type} (M : Machine) (data : List V) (shape : List Nat) (order : Order) : Res (NdView V) :=
  match shape with
  | [i1, i2, i3] =>
    match ndFromShapeVec M [i1 % M.usizeLim, i2 % M.usizeLim, i3 % M.usizeLim] (decide (order = .fortran)) data with
    | some a => .ok a
    | none => .panic
  | _ => .panic

/-- src/lib.rs 154-164, examples/ndarray.rs 28-35: open the file, read everything and convert. -/
def loadArrayD (M : Machine) (py : PyParser) (t : Ty) (src : Src) : Res (NdView t.Val) :=
  match (NpyFile.new M py disk src).1 with
  | .ok f =>
    match (f.intoVec M disk t).1 with
    | .ok data => toArrayD M data f.header.shape f.header.order
    | .err e => .err e
    | .panic => .panic
  | .err e => .err e
  | .panic => .panic

/-- src/lib.rs 177-189, examples/ndarray.rs 96-108 `write_array`.  `none`: the type has no default dtype (the program does
not compile). -/
def writeArray {σ : Type} (M : Machine) (T : Target σ) (t : Ty) (a : NdView t.Val) (s : σ) : Option (Res Unit × σ) :=
  match t.defaultDType M with
  | none => none
  | some (.ok d) => some (NpyWriter.save M T t d .c (.nd a.dims) a.iter s)
  | some _ => some (.panic, s)

end Npyz
