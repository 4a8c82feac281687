import Verif.Conformance.Data
/-!
The project's own tests, run on the model: `/repo/tests/sparse.rs`.  (See `Conformance/Header.lean` for what this is good for.)
-/
set_option autoImplicit false
namespace Npyz.Conformance
open Sparse (strBytes formatOf)

/-! ### sparse.rs -/

abbrev I := Ty.num .i64
abbrev Pair := BitVec 64 × BitVec 64

def okOf {α : Type} : Res α → Option α
  | .ok a => some a
  | _ => none

/-- The matrices as tuples, so that they can be compared. -/
def ofCoo (m : Coo I) : Pair × L64 × L64 × L64 := (m.shape, m.data, m.row, m.col)
def ofCsr (m : Csr I) : Pair × L64 × L64 × List Nat := (m.shape, m.data, m.indices, m.indptr)
def ofCsc (m : Csc I) : Pair × L64 × L64 × List Nat := (m.shape, m.data, m.indices, m.indptr)
def ofDia (m : Dia I) : Pair × L64 × L64 := (m.shape, m.data, m.offsets)
def ofBsr (m : Bsr I) : Pair × (Nat × Nat) × L64 × L64 × List Nat := (m.shape, m.blocksize, m.data, m.indices, m.indptr)

def exampleCoo : Coo I := ⟨(3, 6), i64s [1, 4, 2, 6, 7], i64s [0, 0, 1, 2, 2], i64s [0, 2, 1, 0, 2]⟩
def exampleCsr : Csr I := ⟨(3, 6), i64s [1, 4, 2, 6, 7], i64s [0, 2, 1, 0, 2], [0, 2, 3, 5]⟩
def exampleCsc : Csc I := ⟨(3, 6), i64s [1, 6, 2, 4, 7], i64s [0, 2, 1, 0, 2], [0, 2, 3, 5, 5, 5, 5]⟩
def exampleDia : Dia I := ⟨(3, 6), i64s [6, 0, 0, 1, 2, 7, 0, 0, 4], [-2, 0, 2]⟩
def exampleBsr : Bsr I := ⟨(3, 6), (1, 2), i64s [1, 0, 4, 0, 0, 2, 6, 0, 7, 0], i64s [0, 1, 0, 0, 1], [0, 2, 3, 5]⟩
def exampleCooLong : Coo I := ⟨(0x800000000, 0x1000000000), i64s [3, 1], i64s [0x400000000, 3], i64s [4, 0x200000000]⟩
def exampleDiaLong : Dia I := ⟨(0x800000000, 2), i64s [0, 1], [-0x800000000 + 3]⟩
def exampleCooDupes : Coo I := ⟨(5, 5), i64s [10, 20], i64s [2, 2], i64s [3, 3]⟩
def exampleCsrUnsorted : Csr I := ⟨(3, 3), i64s [2, 2, 1, 2, 2], i64s [2, 0, 1, 2, 0], [0, 2, 3, 5]⟩

-- `read_sparse_*` (124-152), and the reading half of 195-231
example : (okOf (Coo.fromNpz M Py.parse I file_sparse_coo_npz)).map ofCoo = some (ofCoo exampleCoo) := by decide +kernel
example : (okOf (Csr.fromNpz M Py.parse I file_sparse_csr_npz)).map ofCsr = some (ofCsr exampleCsr) := by decide +kernel
example : (okOf (Csc.fromNpz M Py.parse I file_sparse_csc_npz)).map ofCsc = some (ofCsc exampleCsc) := by decide +kernel
example : (okOf (Dia.fromNpz M Py.parse I file_sparse_dia_npz)).map ofDia = some (ofDia exampleDia) := by decide +kernel
example : (okOf (Bsr.fromNpz M Py.parse I file_sparse_bsr_npz)).map ofBsr = some (ofBsr exampleBsr) := by decide +kernel
example : (okOf (Coo.fromNpz M Py.parse I file_sparse_coo_long_npz)).map ofCoo = some (ofCoo exampleCooLong) := by decide +kernel
example : (okOf (Dia.fromNpz M Py.parse I file_sparse_dia_long_npz)).map ofDia = some (ofDia exampleDiaLong) := by decide +kernel
example : (okOf (Coo.fromNpz M Py.parse I file_sparse_coo_dupes_npz)).map ofCoo = some (ofCoo exampleCooDupes) := by decide +kernel
example : (okOf (Csr.fromNpz M Py.parse I file_sparse_csr_unsorted_npz)).map ofCsr = some (ofCsr exampleCsrUnsorted) := by decide +kernel

/-- Which format it is. -/
inductive Fmt where
  | coo | csr | csc | dia | bsr
deriving DecidableEq

def fmt : Sparse I → Fmt
  | .coo _ => .coo
  | .csr _ => .csr
  | .csc _ => .csc
  | .dia _ => .dia
  | .bsr _ => .bsr

-- `read_sparse_dynamic` (155-163)
example : [file_sparse_coo_npz, file_sparse_csr_npz, file_sparse_csc_npz, file_sparse_bsr_npz, file_sparse_dia_npz].map
    (fun a => okOf (formatOf M Py.parse a)) = ["coo", "csr", "csc", "bsr", "dia"].map fun s => some (strBytes s) := by decide +kernel
example : (okOf (Sparse.fromNpz M Py.parse I file_sparse_dia_npz)).map fmt = some .dia := by decide +kernel

/-- `i64::default_dtype()`. -/
theorem i64Default : I.defaultDType M = some (.ok i8dt) := by decide +kernel

/-- The archive after a successful `write_npz`. -/
def archived (r : Res Unit × NpzWriter) : Option NpzArchive :=
  match r with
  | (.ok (), z) => some z.archive
  | _ => none

-- `write_sparse_*` (165-169), and the writing half of 195-231
example : ([exampleCoo, exampleCooLong, exampleCooDupes].all fun m =>
    ((archived (m.writeNpz M i64Default .new)).bind fun a => (okOf (Coo.fromNpz M Py.parse I a)).map ofCoo) == some (ofCoo m)) = true := by decide +kernel
example : ([exampleCsr, exampleCsrUnsorted].all fun m =>
    ((archived (m.writeNpz M i64Default .new)).bind fun a => (okOf (Csr.fromNpz M Py.parse I a)).map ofCsr) == some (ofCsr m)) = true := by decide +kernel
example : ((archived (exampleCsc.writeNpz M i64Default .new)).bind fun a => (okOf (Csc.fromNpz M Py.parse I a)).map ofCsc) = some (ofCsc exampleCsc) := by
  decide +kernel
example : ([exampleDia, exampleDiaLong].all fun m =>
    ((archived (m.writeNpz M i64Default .new)).bind fun a => (okOf (Dia.fromNpz M Py.parse I a)).map ofDia) == some (ofDia m)) = true := by decide +kernel
example : ((archived (exampleBsr.writeNpz M i64Default .new)).bind fun a => (okOf (Bsr.fromNpz M Py.parse I a)).map ofBsr) = some (ofBsr exampleBsr) := by
  decide +kernel

-- `write_sparse_dynamic` (171-180)
example : ([Sparse.csr exampleCsr, .csc exampleCsc, .coo exampleCoo, .dia exampleDia, .bsr exampleBsr].map fun m =>
    (archived (m.writeNpz M i64Default .new)).bind fun a => (okOf (Sparse.fromNpz M Py.parse I a)).map fmt) =
    [some .csr, some .csc, some .coo, some .dia, some .bsr] := by decide +kernel

-- `read_wrong_format_err`, `read_fortran_order_err`, `read_bad_dimension_err` (183-187, 234-259)
example : isErr (Csr.fromNpz M Py.parse I file_sparse_coo_npz) = true ∧ isErr (Bsr.fromNpz M Py.parse I file_sparse_bsr_f_order_npz) = true ∧
    isErr (Bsr.fromNpz M Py.parse I file_sparse_bsr_bad_ndim_npz) = true := by decide +kernel

end Npyz.Conformance
