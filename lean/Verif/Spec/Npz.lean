import Verif.Model.Npz
import Verif.Spec.Writer
import Verif.Spec.Header
/-!
Independent description of archives.
-/
namespace Npyz.Spec

/-- An array to be written. -/
structure Entry where
  name : Text
  ty : Ty
  dtype : DType
  order : Order
  dims : List Nat
  values : List ty.Val

/-- Write one array (`NpzWriter::array`, `begin_nd`, pushing, `finish`). -/
def Entry.save (M : Machine) (e : Entry) (z : NpzWriter) : Res Unit × NpzWriter :=
  z.saveArray M e.ty e.dtype e.order e.dims e.values e.name

/-- Write arrays one after the other, whether or not they succeed: the results and the archive. -/
def saveAll (M : Machine) : List Entry → NpzWriter → List (Res Unit) × NpzWriter
  | [], z => ([], z)
  | e :: es, z => ((e.save M z).1 :: (saveAll M es (e.save M z).2).1, (saveAll M es (e.save M z).2).2)

/-- The limits of the machines that write (`M`) and read (`M'`) an array are respected, and the element
type can be read. -/
structure Entry.Ok (M M' : Machine) (e : Entry) : Prop where
  dtypeWf : e.dtype.Wf
  size : ∃ n, exactBytes e.dtype = some n ∧ n ≤ M.isizeMax ∧ n ≤ M'.isizeMax
  fits : AllFit M'.usizeLim e.dtype
  readable : ∃ p, e.ty.reader M' e.dtype = .ok p
  dims : (∀ k ∈ e.dims, k < 2 ^ 64) ∧ nonzeroProd e.dims < 2 ^ 64
  mem : dictBytes e.dtype e.order (.nd e.dims) + 76 ≤ M'.isizeMax
  count : e.values.length < 2 ^ 64

/-- The array found under a name has this dtype, shape and order, and these elements. -/
def Holds (M : Machine) (py : PyParser) (t : Ty) (a : NpzArchive) (name : Text) (d : DType) (shape : List Nat) (o : Order)
    (vs : List t.Val) : Prop :=
  ∃ f, a.byName M py name = .ok (some f) ∧ f.header.dtype = d ∧ f.header.shape = shape ∧ f.header.order = o ∧
    (f.intoVec M disk t).1 = .ok vs

end Npyz.Spec
