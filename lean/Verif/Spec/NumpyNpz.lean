import Verif.Spec.Numpy
import Verif.Spec.Npz
/-!
NumPy's side of NPZ archives: `numpy.savez` and `NpzFile` in `numpy/lib/_npyio_impl.py`, over Python's `zipfile`.
-/
set_option autoImplicit false
namespace Npyz.Spec

/-- `zipfile` ends the name of a member at its first NUL (`ZipInfo.__init__`). -/
def pyName (path : Text) : Text := path.takeWhile fun c => c ≠ '\x00'

/-- `ZipFile.open`: the last member of that name. -/
def zipOpen (a : NpzArchive) (file : Text) : Option Bytes := ((a.members.filter fun m => pyName m.1 = file).getLast?).map Prod.snd

/-- `np.load(…).files`: the names of the members, without `.npy` at the end. -/
def numpyFiles (a : NpzArchive) : List Text :=
  a.members.map fun m => if txt ".npy" <:+ pyName m.1 then (pyName m.1).take ((pyName m.1).length - 4) else pyName m.1

/-- `np.load(…)[key]`: the member called `key`, otherwise the one called `key.npy`. -/
def numpyGet (a : NpzArchive) (key : Text) : Option Bytes :=
  match zipOpen a key with
  | some bs => some bs
  | none => zipOpen a (key ++ txt ".npy")

/-- `np.load(…)[key]` is an array of this dtype, order and shape, with these values. -/
def NumpyHas (a : NpzArchive) (key : Text) (t : Ty) (d : DType) (o : Order) (dims : List Nat) (vs : List t.Val) : Prop :=
  ∃ (bs : Bytes) (items : List Bytes) (rest : Bytes), numpyGet a key = some bs ∧ NumpyReads bs d o dims ∧
    bs.drop (headerEnd bs) = items.flatten ++ rest ∧ items.length = dims.prod ∧ (∀ item ∈ items, exactBytes d = some item.length) ∧
    items.map (decode t d) = vs.map some

/-- What `np.savez(…, key=array)` puts into the archive for one array; `text` is the line of its header. -/
def NumpySaved (a : NpzArchive) (key : Text) (t : Ty) (d : DType) (o : Order) (dims : List Nat) (text : Text) (vs : List t.Val) : Prop :=
  ∃ (bs : Bytes) (items : List Bytes), (key ++ txt ".npy", bs) ∈ a.members ∧ NumpyWrote bs d o dims text ∧
    bs.drop (headerEnd bs) = items.flatten ∧ items.length = dims.prod ∧ (∀ item ∈ items, exactBytes d = some item.length) ∧
    items.map (decode t d) = vs.map some

/-- NumPy uses no name twice. -/
def UniqueNames (a : NpzArchive) : Prop := (a.members.map Prod.fst).Nodup

end Npyz.Spec
