import Verif.Model.Npz
/-!
Model of `/repo/src/sparse.rs`.

`u64` and `i64` are bit patterns of 64 bits (`as` between them changes nothing), `usize` is a number
below `usizeLim`.  The `Vec`s and slices of a matrix are lists; a `Vec` or slice has at most `isize::MAX`
elements, which the theorems assume where it matters, so `len()` is not reduced.  Texts of messages are
abbreviated; `show_format` (318-326) only builds such a text and cannot fail (the bytes 0x20-0x7f are
valid UTF-8), and so does `descr` in 362 and 376.
-/
namespace Npyz

/-! ### Types -/

/-- sparse.rs 81-94 `CooBase`. -/
structure Coo (t : Ty) where
  shape : BitVec 64 × BitVec 64
  data : List t.Val
  row : List (BitVec 64)
  col : List (BitVec 64)

/-- sparse.rs 106-127 `CsrBase`. -/
structure Csr (t : Ty) where
  shape : BitVec 64 × BitVec 64
  data : List t.Val
  indices : List (BitVec 64)
  indptr : List Nat

/-- sparse.rs 139-160 `CscBase`. -/
structure Csc (t : Ty) where
  shape : BitVec 64 × BitVec 64
  data : List t.Val
  indices : List (BitVec 64)
  indptr : List Nat

/-- sparse.rs 172-190 `DiaBase`. -/
structure Dia (t : Ty) where
  shape : BitVec 64 × BitVec 64
  data : List t.Val
  offsets : List (BitVec 64)

/-- sparse.rs 202-230 `BsrBase`. -/
structure Bsr (t : Ty) where
  shape : BitVec 64 × BitVec 64
  blocksize : Nat × Nat
  data : List t.Val
  indices : List (BitVec 64)
  indptr : List Nat

/-- sparse.rs 52-69 `SparseBase`. -/
inductive Sparse (t : Ty) where
  | coo (m : Coo t)
  | csr (m : Csr t)
  | csc (m : Csc t)
  | dia (m : Dia t)
  | bsr (m : Bsr t)

namespace Sparse

/-! ### Reading -/

/-- sparse.rs 397: `ok_or_else`. -/
def present : Option (NpyFile Src) → Res (NpyFile Src)
  | some f => .ok f
  | none => .err (.invalidData "missing array")

/-- sparse.rs 398-402. -/
def checkNdim (ndim : Nat) (f : NpyFile Src) : Res (NpyFile Src) :=
  if f.header.shape.length ≠ ndim then .err (.invalidData "invalid ndim") else .ok f

/-- sparse.rs 396-403 `extract_and_check_ndim`. -/
def extractAndCheckNdim (M : Machine) (py : PyParser) (a : NpzArchive) (name : String) (ndim : Nat) : Res (NpyFile Src) := do
  let m ← a.byName M py (txt name)
  let f ← present m
  checkNdim ndim f

/-- sparse.rs 338: `.into_iter().next().expect(..)`. -/
def expectFirst {α : Type} : List α → Res α
  | x :: _ => .ok x
  | [] => .panic

/-- sparse.rs 336-339 `extract_scalar`. -/
def extractScalar (M : Machine) (py : PyParser) (t : Ty) (a : NpzArchive) (name : String) : Res t.Val := do
  let f ← extractAndCheckNdim M py a name 0
  let vs ← (f.intoVec M disk t).1
  expectFirst vs

/-- sparse.rs 329: `let format: Vec<u8> = extract_scalar(npz, "format")?`. -/
def formatOf (M : Machine) (py : PyParser) (a : NpzArchive) : Res Bytes := extractScalar M py .vecU8 a "format"

/-- `str::as_bytes`. -/
def strBytes (s : String) : Bytes := encodeUtf8 (txt s)

/-- sparse.rs 328-334 `expect_format`. -/
def expectFormat (M : Machine) (py : PyParser) (a : NpzArchive) (expected : String) : Res Unit := do
  let format ← formatOf M py a
  if format ≠ strBytes expected then .err (.invalidData "wrong format") else .ok ()

/-- `i32 as u64` and `i32 as i64`. -/
def widen (x : BitVec 32) : BitVec 64 := x.signExtend 64

/-- sparse.rs 359: `data.map(|result| result.map(|x| x as u64)).collect()`. -/
def collectI32 (r : NpyReader (Ty.num .i32).Val Src) : Res (List (BitVec 64)) := do
  let xs ← (r.collect disk).1
  .ok (xs.map fun (x : BitVec 32) => widen x)

/-- sparse.rs 361, 375. -/
def collectI64 (r : NpyReader (Ty.num .i64).Val Src) : Res (List (BitVec 64)) := (r.collect disk).1

/-- sparse.rs 360-363. -/
def indicesI64 (M : Machine) (f : NpyFile Src) : Res (List (BitVec 64)) :=
  match f.tryData M (.num .i64) with
  | .ok r => collectI64 r
  | .err _ => .err (.invalidData "invalid dtype")
  | .panic => .panic

/-- sparse.rs 358-364. -/
def indicesOf (M : Machine) (f : NpyFile Src) : Res (List (BitVec 64)) :=
  match f.tryData M (.num .i32) with
  | .ok r => collectI32 r
  | .err f' => indicesI64 M f'
  | .panic => .panic

/-- sparse.rs 356-365 `extract_indices`, and 370-379 `extract_signed_indices`, which differs only in
`as u64` / `as i64` (the same on bit patterns). -/
def extractIndices (M : Machine) (py : PyParser) (a : NpzArchive) (name : String) : Res (List (BitVec 64)) := do
  let f ← extractAndCheckNdim M py a name 1
  indicesOf M f

/-- sparse.rs 349-351 `extract_usize_indices`: `x as usize`. -/
def extractUsizeIndices (M : Machine) (py : PyParser) (a : NpzArchive) (name : String) : Res (List Nat) := do
  let xs ← extractIndices M py a name
  .ok (xs.map fun x => x.toNat % M.usizeLim)

/-- sparse.rs 343-346. -/
def pairOf : List (BitVec 64) → Res (BitVec 64 × BitVec 64)
  | [x, y] => .ok (x, y)
  | _ => .err (.invalidData "invalid length")

/-- sparse.rs 341-347 `extract_shape`. -/
def extractShape (M : Machine) (py : PyParser) (a : NpzArchive) (name : String) : Res (BitVec 64 × BitVec 64) := do
  let xs ← extractIndices M py a name
  pairOf xs

/-- sparse.rs 381-384 `extract_1d`. -/
def extract1d (M : Machine) (py : PyParser) (t : Ty) (a : NpzArchive) (name : String) : Res (List t.Val) := do
  let f ← extractAndCheckNdim M py a name 1
  (f.intoVec M disk t).1

/-- sparse.rs 388-390. -/
def requireC (f : NpyFile Src) : Res Unit :=
  if f.header.order ≠ .c then .err (.invalidData "fortran order is not currently supported") else .ok ()

/-- sparse.rs 386-394 `extract_nd`. -/
def extractNd (M : Machine) (py : PyParser) (t : Ty) (a : NpzArchive) (name : String) (ndim : Nat) :
    Res (List t.Val × List Nat) := do
  let f ← extractAndCheckNdim M py a name ndim
  requireC f
  let data ← (f.intoVec M disk t).1
  .ok (data, f.header.shape.map (· % M.usizeLim))

/-- `v[i]`. -/
def index {α : Type} (l : List α) (i : Nat) : Res α :=
  match l[i]? with
  | some x => .ok x
  | none => .panic

end Sparse
open Sparse

/-- sparse.rs 258-265 `Coo::from_npz`. -/
def Coo.fromNpz (M : Machine) (py : PyParser) (t : Ty) (a : NpzArchive) : Res (Coo t) := do
  expectFormat M py a "coo"
  let shape ← extractShape M py a "shape"
  let row ← extractIndices M py a "row"
  let col ← extractIndices M py a "col"
  let data ← extract1d M py t a "data"
  .ok ⟨shape, data, row, col⟩

/-- sparse.rs 270-277 `Csr::from_npz`. -/
def Csr.fromNpz (M : Machine) (py : PyParser) (t : Ty) (a : NpzArchive) : Res (Csr t) := do
  expectFormat M py a "csr"
  let shape ← extractShape M py a "shape"
  let indices ← extractIndices M py a "indices"
  let indptr ← extractUsizeIndices M py a "indptr"
  let data ← extract1d M py t a "data"
  .ok ⟨shape, data, indices, indptr⟩

/-- sparse.rs 282-289 `Csc::from_npz`. -/
def Csc.fromNpz (M : Machine) (py : PyParser) (t : Ty) (a : NpzArchive) : Res (Csc t) := do
  expectFormat M py a "csc"
  let shape ← extractShape M py a "shape"
  let indices ← extractIndices M py a "indices"
  let indptr ← extractUsizeIndices M py a "indptr"
  let data ← extract1d M py t a "data"
  .ok ⟨shape, data, indices, indptr⟩

/-- sparse.rs 294-300 `Dia::from_npz`. -/
def Dia.fromNpz (M : Machine) (py : PyParser) (t : Ty) (a : NpzArchive) : Res (Dia t) := do
  expectFormat M py a "dia"
  let shape ← extractShape M py a "shape"
  let offsets ← extractIndices M py a "offsets"
  let r ← extractNd M py t a "data" 2
  .ok ⟨shape, r.1, offsets⟩

/-- sparse.rs 305-313 `Bsr::from_npz`. -/
def Bsr.fromNpz (M : Machine) (py : PyParser) (t : Ty) (a : NpzArchive) : Res (Bsr t) := do
  expectFormat M py a "bsr"
  let shape ← extractShape M py a "shape"
  let indices ← extractIndices M py a "indices"
  let indptr ← extractUsizeIndices M py a "indptr"
  let r ← extractNd M py t a "data" 3
  let b0 ← index r.2 1
  let b1 ← index r.2 2
  .ok ⟨shape, (b0, b1), r.1, indices, indptr⟩

/-- sparse.rs 245-252: the `match`. -/
def Sparse.dispatch (M : Machine) (py : PyParser) (t : Ty) (a : NpzArchive) (format : Bytes) : Res (Sparse t) :=
  if format = strBytes "coo" then do let m ← Coo.fromNpz M py t a; .ok (.coo m)
  else if format = strBytes "csc" then do let m ← Csc.fromNpz M py t a; .ok (.csc m)
  else if format = strBytes "csr" then do let m ← Csr.fromNpz M py t a; .ok (.csr m)
  else if format = strBytes "dia" then do let m ← Dia.fromNpz M py t a; .ok (.dia m)
  else if format = strBytes "bsr" then do let m ← Bsr.fromNpz M py t a; .ok (.bsr m)
  else .err (.invalidData "bad format")

/-- sparse.rs 242-253 `Sparse::from_npz`. -/
def Sparse.fromNpz (M : Machine) (py : PyParser) (t : Ty) (a : NpzArchive) : Res (Sparse t) := do
  let format ← formatOf M py a
  Sparse.dispatch M py t a format

/-! ### Writing -/

namespace Sparse

/-- `a?; b`. -/
def andThen (r : Res Unit × NpzWriter) (k : NpzWriter → Res Unit × NpzWriter) : Res Unit × NpzWriter :=
  match r with
  | (.ok (), z) => k z
  | (.err e, z) => (.err e, z)
  | (.panic, z) => (.panic, z)

/-- `assert_eq!`. -/
def assertThat (c : Bool) (k : NpzWriter → Res Unit × NpzWriter) (z : NpzWriter) : Res Unit × NpzWriter :=
  if c then k z else (.panic, z)

/-- `npz.array(name, options)?.dtype(dtype).shape(dims).begin_nd()?.extend(values)`; the argument of
`dtype` is computed after the member has been started. -/
def writeArray (M : Machine) (t : Ty) (dtype : DRes DType) (name : String) (dims : List Nat) (vs : List t.Val) (z : NpzWriter) :
    Res Unit × NpzWriter :=
  match dtype with
  | .ok d => NpyWriter.saveDropped M zipStream t d .c (.nd dims) vs (z.array (txt name))
  | _ => (.panic, z.array (txt name))

/-- `"|S3".parse().unwrap()`. -/
def s3 : TypeStr := ⟨.irrelevant, .byteStr, 3, none⟩

/-- sparse.rs 559-565 `write_format` (`push` is `extend` with one value; `[u8]` is written like `Vec<u8>`). -/
def writeFormatArray (M : Machine) (format : String) : NpzWriter → Res Unit × NpzWriter :=
  writeArray M .vecU8 (.ok (.plain s3)) "format" [] [strBytes format]

/-- `i32::default_dtype()`. -/
def i32DType (M : Machine) : DRes DType := autoDType M .int 4

/-- `i64::default_dtype()`. -/
def i64DType (M : Machine) : DRes DType := autoDType M .int 8

example (M : Machine) : (Ty.num .i32).defaultDType M = some (i32DType M) := rfl
example (M : Machine) : (Ty.num .i64).defaultDType M = some (i64DType M) := rfl

/-- sparse.rs 567-574 `write_shape`: `x as i64`. -/
def writeShape (M : Machine) (shape : BitVec 64 × BitVec 64) : NpzWriter → Res Unit × NpzWriter :=
  writeArray M (.num .i64) (i64DType M) "shape" [2] [shape.1, shape.2]

/-- sparse.rs 596-605 `most_negative_and_positive`. -/
def mostNegativeAndPositive (xs : List (BitVec 64)) : Int × Int :=
  xs.foldl (fun best x => (min best.1 x.toInt, max best.2 x.toInt)) (0, 0)

/-- `i64 as i32`. -/
def narrow (x : BitVec 64) : BitVec 32 := x.setWidth 32

/-- sparse.rs 577-594 `write_indices`. -/
def writeIndices (M : Machine) (name : String) (xs : List (BitVec 64)) : NpzWriter → Res Unit × NpzWriter :=
  if -2 ^ 31 ≤ (mostNegativeAndPositive xs).1 ∧ (mostNegativeAndPositive xs).2 ≤ 2 ^ 31 - 1 then
    writeArray M (.num .i32) (i32DType M) name [xs.length] (xs.map narrow)
  else writeArray M (.num .i64) (i64DType M) name [xs.length] xs

/-- `usize as i64`. -/
def ofUsize (n : Nat) : BitVec 64 := BitVec.ofNat 64 n

/-- sparse.rs 607-613 `write_data`.  `dtype` is `T::default_dtype()`. -/
def writeData (M : Machine) (t : Ty) (dtype : DRes DType) (data : List t.Val) (dims : List Nat) : NpzWriter → Res Unit × NpzWriter :=
  writeArray M t dtype "data" dims data

end Sparse

section
variable {t : Ty} {r : DRes DType}
/- `T: AutoSerialize`, with `T::default_dtype()` giving `r`, is represented by a proof. -/

/-- sparse.rs 444-452 `Coo::write_npz`. -/
def Coo.writeNpz (M : Machine) (_ : t.defaultDType M = some r) (m : Coo t) (z : NpzWriter) : Res Unit × NpzWriter :=
  andThen (writeFormatArray M "coo" z) <| fun z =>
  andThen (writeShape M m.shape z) <| fun z =>
  andThen (writeIndices M "row" m.row z) <| fun z =>
  andThen (writeIndices M "col" m.col z) <|
  writeData M t r m.data [m.data.length]

/-- sparse.rs 468-476 `Csr::write_npz`. -/
def Csr.writeNpz (M : Machine) (_ : t.defaultDType M = some r) (m : Csr t) (z : NpzWriter) : Res Unit × NpzWriter :=
  andThen (writeFormatArray M "csr" z) <| fun z =>
  andThen (writeShape M m.shape z) <| fun z =>
  andThen (writeIndices M "indices" m.indices z) <| fun z =>
  andThen (writeIndices M "indptr" (m.indptr.map ofUsize) z) <|
  writeData M t r m.data [m.data.length]

/-- sparse.rs 492-500 `Csc::write_npz`. -/
def Csc.writeNpz (M : Machine) (_ : t.defaultDType M = some r) (m : Csc t) (z : NpzWriter) : Res Unit × NpzWriter :=
  andThen (writeFormatArray M "csc" z) <| fun z =>
  andThen (writeShape M m.shape z) <| fun z =>
  andThen (writeIndices M "indices" m.indices z) <| fun z =>
  andThen (writeIndices M "indptr" (m.indptr.map ofUsize) z) <|
  writeData M t r m.data [m.data.length]

/-- sparse.rs 521: `data.len() % num_offsets == 0`; the remainder by zero panics. -/
def Dia.check (m : Dia t) : Bool := decide (m.offsets.length ≠ 0) && decide (m.data.length % m.offsets.length = 0)

/-- sparse.rs 514-525 `Dia::write_npz`. -/
def Dia.writeNpz (M : Machine) (_ : t.defaultDType M = some r) (m : Dia t) (z : NpzWriter) : Res Unit × NpzWriter :=
  andThen (writeFormatArray M "dia" z) <| fun z =>
  andThen (writeShape M m.shape z) <| fun z =>
  andThen (writeIndices M "offsets" m.offsets z) <|
  assertThat m.check <|
  writeData M t r m.data [m.data.length / m.offsets.length, m.offsets.length]

/-- sparse.rs 547: the products are `usize` multiplications. -/
def Bsr.check (M : Machine) (m : Bsr t) : Bool :=
  match (do let n ← NpyData.mulUsize M m.indices.length m.blocksize.1; NpyData.mulUsize M n m.blocksize.2) with
  | .ok n => decide (m.data.length = n)
  | _ => false

/-- sparse.rs 540-550 `Bsr::write_npz`. -/
def Bsr.writeNpz (M : Machine) (_ : t.defaultDType M = some r) (m : Bsr t) (z : NpzWriter) : Res Unit × NpzWriter :=
  andThen (writeFormatArray M "bsr" z) <| fun z =>
  andThen (writeShape M m.shape z) <| fun z =>
  andThen (writeIndices M "indices" m.indices z) <| fun z =>
  andThen (writeIndices M "indptr" (m.indptr.map ofUsize) z) <|
  assertThat (m.check M) <|
  writeData M t r m.data [m.indices.length, m.blocksize.1, m.blocksize.2]

/-- sparse.rs 421-429 `SparseBase::write_npz`. -/
def Sparse.writeNpz (M : Machine) (h : t.defaultDType M = some r) : Sparse t → NpzWriter → Res Unit × NpzWriter
  | .coo m => m.writeNpz M h
  | .csc m => m.writeNpz M h
  | .csr m => m.writeNpz M h
  | .dia m => m.writeNpz M h
  | .bsr m => m.writeNpz M h

end

end Npyz
