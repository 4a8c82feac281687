import Verif.Spec.Numpy
import Verif.Spec.Sparse
/-!
SciPy's side of sparse matrices in archives, after `save_npz` and `load_npz` in `scipy/sparse/_matrix_io.py`:
`numpy.savez` of the parts of the matrix, and the constructors of the five matrix classes applied to the loaded parts.
-/
namespace Npyz.Spec

/-- What a program makes of the header at the beginning of a stream. -/
abbrev Headers := Bytes → DType → Order → List Nat → Prop

/-- NumPy wrote this header. -/
def FromNumpy : Headers := fun bs d o dims => ∃ text, NumpyWrote bs d o dims text

/-- The file `name.npy` of the archive (the last one of that name) has a header for this dtype, order and shape, and these
items follow it. -/
def Stored (H : Headers) (a : NpzArchive) (name : String) (d : DType) (o : Order) (dims : List Nat) (items : List Bytes) : Prop :=
  ∃ before bs after rest, a.members = before ++ (txt name ++ txt ".npy", bs) :: after ∧ (∀ m ∈ after, m.1 ≠ txt name ++ txt ".npy") ∧
    H bs d o dims ∧ bs.drop (headerEnd bs) = items.flatten ++ rest ∧ items.length = dims.prod ∧
    ∀ item ∈ items, exactBytes d = some item.length

/-- A one-dimensional array of the integers `xs`, with 4 or with 8 bytes each, in any byte order. -/
def StoredInts (H : Headers) (a : NpzArchive) (name : String) (xs : List (BitVec 64)) : Prop :=
  ∃ (e : Endianness) (items : List Bytes), e ≠ .irrelevant ∧
    ((∃ ys : List (BitVec 32), Stored H a name (.plain ⟨e, .int, 4, none⟩) .c [xs.length] items ∧
        items.map (decode (.num .i32) (.plain ⟨e, .int, 4, none⟩)) = ys.map some ∧ xs = ys.map fun y => y.signExtend 64) ∨
      (Stored H a name (.plain ⟨e, .int, 8, none⟩) .c [xs.length] items ∧
        items.map (decode (.num .i64) (.plain ⟨e, .int, 8, none⟩)) = xs.map some))

/-- The shape of the data array of a matrix in SciPy: one axis for COO, CSR and CSC; one row per diagonal for DIA; one
block per index for BSR. -/
def ScipyDims {t : Ty} (dims : List Nat) : Sparse t → Prop
  | .coo m => dims = [m.data.length]
  | .csr m => dims = [m.data.length]
  | .csc m => dims = [m.data.length]
  | .dia m => ∃ length, dims = [m.offsets.length, length]
  | .bsr m => dims = [m.indices.length, m.blocksize.1, m.blocksize.2]

/-- The archive holds the matrix `m` the way SciPy lays it out, with data of this dtype and order: the name of the format, the
shape, the indices and the data; other files do not matter. -/
structure ScipyLayout (H : Headers) (a : NpzArchive) {t : Ty} (d : DType) (o : Order) (dims : List Nat) (m : Sparse t) : Prop where
  format : Stored H a "format" (.plain ⟨.irrelevant, .byteStr, 3, none⟩) .c [] [encodeUtf8 (txt (formatName m))]
  shape : StoredInts H a "shape" [(shapeOf m).1, (shapeOf m).2]
  indices : ∀ x ∈ indexArrays m, StoredInts H a x.1 x.2
  axes : ScipyDims dims m
  data : ∃ items, Stored H a "data" d o dims items ∧ items.map (decode t d) = (dataOf m).map some

/-- SciPy (`save_npz`) wrote the archive for the matrix `m`. -/
abbrev ScipySaved (a : NpzArchive) {t : Ty} (d : DType) (o : Order) (dims : List Nat) (m : Sparse t) : Prop :=
  ScipyLayout FromNumpy a d o dims m

/-- SciPy (`load_npz`) gets the matrix `m` from the archive, with data of this dtype. -/
def ScipyLoads (a : NpzArchive) {t : Ty} (d : DType) (m : Sparse t) : Prop := ∃ o dims, ScipyLayout NumpyReads a d o dims m

/-- The limits of the machine that reads. -/
structure ScipyFits (M : Machine) (a : NpzArchive) (d : DType) (dims : List Nat) {t : Ty} (m : Sparse t) : Prop where
  /-- items fit into memory -/
  size : ∃ n, exactBytes d = some n ∧ n ≤ M.isizeMax
  /-- so do the headers of all files -/
  headers : ∀ file ∈ a.members, headerEnd file.2 ≤ M.isizeMax
  /-- lengths are `u64`s -/
  counts : (∀ n ∈ dims, n < 2 ^ 64) ∧ nonzeroProd dims < 2 ^ 64 ∧ ∀ x ∈ indexArrays m, x.2.length < 2 ^ 64
  /-- index pointers and block sizes are `usize`s -/
  words : ∀ k ∈ usizes m, k < M.usizeLim

end Npyz.Spec
