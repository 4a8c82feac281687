import Verif.Model.Sparse
import Verif.Spec.Npz
/-!
Independent description of sparse matrices in archives.
-/
namespace Npyz.Spec

/-- The names of the five formats, as scipy writes them. -/
def formatName {t : Ty} : Sparse t → String
  | .coo _ => "coo"
  | .csr _ => "csr"
  | .csc _ => "csc"
  | .dia _ => "dia"
  | .bsr _ => "bsr"

/-- The arrays of indices of a matrix, with the names scipy gives them. -/
def indexArrays {t : Ty} : Sparse t → List (String × List (BitVec 64))
  | .coo m => [("row", m.row), ("col", m.col)]
  | .csr m => [("indices", m.indices), ("indptr", m.indptr.map (BitVec.ofNat 64))]
  | .csc m => [("indices", m.indices), ("indptr", m.indptr.map (BitVec.ofNat 64))]
  | .dia m => [("offsets", m.offsets)]
  | .bsr m => [("indices", m.indices), ("indptr", m.indptr.map (BitVec.ofNat 64))]

/-- The number of rows and columns. -/
def shapeOf {t : Ty} : Sparse t → BitVec 64 × BitVec 64
  | .coo m => m.shape
  | .csr m => m.shape
  | .csc m => m.shape
  | .dia m => m.shape
  | .bsr m => m.shape

/-- The stored elements. -/
def dataOf {t : Ty} : Sparse t → List t.Val
  | .coo m => m.data
  | .csr m => m.data
  | .csc m => m.data
  | .dia m => m.data
  | .bsr m => m.data

/-- The shape of the data array in the archive: one axis for COO, CSR and CSC; (elements per diagonal,
diagonals) for DIA; (blocks, rows per block, columns per block) for BSR. -/
def dataDims {t : Ty} : Sparse t → List Nat
  | .coo m => [m.data.length]
  | .csr m => [m.data.length]
  | .csc m => [m.data.length]
  | .dia m => [m.data.length / m.offsets.length, m.offsets.length]
  | .bsr m => [m.indices.length, m.blocksize.1, m.blocksize.2]

/-- The fields of type `usize`. -/
def usizes {t : Ty} : Sparse t → List Nat
  | .coo _ => []
  | .csr m => m.indptr
  | .csc m => m.indptr
  | .dia _ => []
  | .bsr m => m.blocksize.1 :: m.blocksize.2 :: m.indptr

/-- The matrix with every stored element changed by `f`. -/
def mapData {t : Ty} (f : t.Val → t.Val) : Sparse t → Sparse t
  | .coo m => .coo { m with data := m.data.map f }
  | .csr m => .csr { m with data := m.data.map f }
  | .csc m => .csc { m with data := m.data.map f }
  | .dia m => .dia { m with data := m.data.map f }
  | .bsr m => .bsr { m with data := m.data.map f }

/-- What the writer checks: the elements of a DIA matrix are spread evenly over a nonzero number of
diagonals; a BSR matrix has the elements of all its blocks. -/
def Consistent {t : Ty} : Sparse t → Prop
  | .dia m => m.offsets ≠ [] ∧ ∃ k, m.data.length = k * m.offsets.length
  | .bsr m => m.data.length = m.indices.length * m.blocksize.1 * m.blocksize.2
  | _ => True

/-- The limits of the machines that write (`M`) and read (`M'`) a matrix with element dtype `d`. -/
structure SparseFits (M M' : Machine) {t : Ty} (d : DType) (m : Sparse t) : Prop where
  /-- const parameters of the element type are `usize`s -/
  consts : ConstsFit M.usizeLim t
  /-- an element fits into memory -/
  size : ∃ n, exactBytes d = some n ∧ n ≤ M.isizeMax ∧ n ≤ M'.isizeMax
  fits : AllFit M'.usizeLim d
  /-- the header of the data fits into memory -/
  mem : dictBytes d .c (.nd (dataDims m)) + 76 ≤ M'.isizeMax
  /-- all arrays have lengths below `2^64` -/
  count : (dataOf m).length < 2 ^ 64 ∧ ∀ a ∈ indexArrays m, a.2.length < 2 ^ 64
  /-- the `usize`s of the matrix are `usize`s on both machines -/
  words : ∀ k ∈ usizes m, k < M.usizeLim ∧ k < M'.usizeLim
  /-- the number of elements does not overflow -/
  prod : nonzeroProd (dataDims m) < M.usizeLim

/-- `x` is in the range of `i32`. -/
def FitsI32 (x : Int) : Prop := -2 ^ 31 ≤ x ∧ x < 2 ^ 31

/-- The type string of the machine's signed integers with `n` bytes. -/
def intDType (M : Machine) (n : Nat) : DType := .plain ⟨if M.bigEndian then .big else .little, .int, n, none⟩

/-- The array found under `name` holds the indices `xs`, in 4 bytes each if that is enough for all of
them as signed numbers, else in 8 bytes each. -/
def StoredIndices (M M' : Machine) (py : PyParser) (a : NpzArchive) (name : String) (xs : List (BitVec 64)) : Prop :=
  ((∀ x ∈ xs, FitsI32 x.toInt) →
    Holds M' py (.num .i32) a (txt name) (intDType M 4) [xs.length] .c (xs.map fun x => x.setWidth 32)) ∧
  ((∃ x ∈ xs, ¬ FitsI32 x.toInt) → Holds M' py (.num .i64) a (txt name) (intDType M 8) [xs.length] .c xs)

/-- No array of the archive makes opening it panic (see C14 for when that happens), and no element type
is larger than a `Vec` can be. -/
structure WellFormed (M : Machine) (py : PyParser) (a : NpzArchive) : Prop where
  opens : ∀ name, a.byName M py name ≠ .panic
  sizes : ∀ name f n, a.byName M py name = .ok (some f) → f.header.itemSize = some n → n ≤ M.isizeMax

/-- The archive says that it holds a matrix of this format. -/
def HasFormat (M : Machine) (py : PyParser) (a : NpzArchive) (name : String) : Prop :=
  ∃ d o, Holds M py .vecU8 a (txt "format") d [] o [encodeUtf8 (txt name)]

/-- The one-dimensional array `name` holds the indices `xs`, as `i32` or as `i64`. -/
def HasIndices (M : Machine) (py : PyParser) (a : NpzArchive) (name : String) (xs : List (BitVec 64)) : Prop :=
  (∃ d o n, ∃ ys : List (BitVec 32), Holds M py (.num .i32) a (txt name) d [n] o ys ∧ xs = ys.map fun y => y.signExtend 64) ∨
  ∃ d o n, Holds M py (.num .i64) a (txt name) d [n] o xs

/-- `xs` as `usize`s. -/
def asUsize (M : Machine) (xs : List (BitVec 64)) : List Nat := xs.map fun x => x.toNat % M.usizeLim

end Npyz.Spec
