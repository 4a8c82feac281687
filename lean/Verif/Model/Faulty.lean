import Verif.Model.Sparse
/-!
The functions of `/repo/src/npz_feature.rs` and `/repo/src/sparse.rs` on archives whose streams fail.

`Model/Npz.lean` and `Model/Sparse.lean` follow the same source on archives that never fail; the
definitions here repeat them with a state that says what will go wrong, and C91-C93 relate the two.  What the
`zip` crate itself does when its stream fails is not modelled: it hands errors on, and it may fail when a
member is opened or started.
-/
set_option autoImplicit false
namespace Npyz

/-! ### Reading -/

/-- The errors of `zip::ZipArchive::by_name`, apart from `FileNotFound`. -/
inductive ZipErr where
  | io (code : Nat)
  | invalidArchive
  | unsupportedArchive
deriving DecidableEq, Repr

/-- npz_feature.rs 46-48: what becomes of them. -/
def ZipErr.toIo : ZipErr → Err
  | .io c => .source c
  | .invalidArchive => .invalidData "invalid archive"
  | .unsupportedArchive => .invalidData "unsupported archive"

/-- An archive on a failing stream.  `opens` says what the next attempts to open a member meet (nothing any
more when it is used up), `evs` is the schedule of the `read` calls. -/
structure FlakyArchive where
  archive : NpzArchive
  opens : List (Option ZipErr)
  evs : List RProg.Ev

/-- A function that takes `&mut NpzArchive`. -/
def ZipM (α : Type) : Type := FlakyArchive → Res α × FlakyArchive

namespace ZipM

/-- Sequencing with `?`. -/
def bind {α β : Type} (p : ZipM α) (k : α → ZipM β) : ZipM β := fun z =>
  match p z with
  | (.ok a, z') => k a z'
  | (.err e, z') => (.err e, z')
  | (.panic, z') => (.panic, z')

instance : Monad ZipM where
  pure a := fun z => (.ok a, z)
  bind := bind

/-- A result computed without reading. -/
def lift {α : Type} (r : Res α) : ZipM α := fun z => (r, z)

end ZipM

namespace FlakyArchive

/-- npz_feature.rs 44: `NpyFile::new(file)` on a member.  The schedule stays with the archive, which the file borrows. -/
def openMember (M : Machine) (py : PyParser) (content : Bytes) : ZipM (Option (NpyFile Src)) := fun z =>
  match NpyFile.new M py flaky ⟨⟨content, 0⟩, z.evs⟩ with
  | (.ok f, s) => (.ok (some ⟨f.header, f.src.src⟩), { z with evs := s.evs })
  | (.err e, s) => (.err e, { z with evs := s.evs })
  | (.panic, s) => (.panic, { z with evs := s.evs })

/-- npz_feature.rs 42-50 `by_name`. -/
def byName (M : Machine) (py : PyParser) (name : Text) : ZipM (Option (NpyFile Src)) := fun z =>
  match z.archive.find (fileNameFromArrayName name) with
  | none => (.ok none, z)
  | some content =>
    match z.opens with
    | some e :: opens => (.err e.toIo, { z with opens })
    | _ => openMember M py content { z with opens := z.opens.tail }

/-- `NpyFile::into_vec` on a member. -/
def intoVec (M : Machine) (t : Ty) (f : NpyFile Src) : ZipM (List t.Val) := fun z =>
  match NpyFile.intoVec M flaky t ⟨f.header, ⟨f.src, z.evs⟩⟩ with
  | (r, s) => (r, { z with evs := s.evs })

/-- `collect` on the reader of a member. -/
def collect {V : Type} (r : NpyReader V Src) : ZipM (List V) := fun z =>
  match NpyReader.collect flaky ⟨r.header, r.prog, ⟨r.src, z.evs⟩, r.cur⟩ with
  | (x, r') => (x, { z with evs := r'.src.evs })

/-- sparse.rs 396-403 `extract_and_check_ndim`. -/
def extractAndCheckNdim (M : Machine) (py : PyParser) (name : String) (ndim : Nat) : ZipM (NpyFile Src) := do
  let m ← byName M py (txt name)
  let f ← ZipM.lift (Sparse.present m)
  ZipM.lift (Sparse.checkNdim ndim f)

/-- sparse.rs 336-339 `extract_scalar`. -/
def extractScalar (M : Machine) (py : PyParser) (t : Ty) (name : String) : ZipM t.Val := do
  let f ← extractAndCheckNdim M py name 0
  let vs ← intoVec M t f
  ZipM.lift (Sparse.expectFirst vs)

/-- sparse.rs 329. -/
def formatOf (M : Machine) (py : PyParser) : ZipM Bytes := extractScalar M py .vecU8 "format"

/-- sparse.rs 328-334 `expect_format`. -/
def expectFormat (M : Machine) (py : PyParser) (expected : String) : ZipM Unit := do
  let format ← formatOf M py
  ZipM.lift (if format ≠ Sparse.strBytes expected then .err (.invalidData "wrong format") else .ok ())

/-- sparse.rs 359. -/
def collectI32 (r : NpyReader (Ty.num .i32).Val Src) : ZipM (List (BitVec 64)) := do
  let xs ← collect r
  pure (xs.map fun (x : BitVec 32) => Sparse.widen x)

/-- sparse.rs 361, 375. -/
def collectI64 (r : NpyReader (Ty.num .i64).Val Src) : ZipM (List (BitVec 64)) := collect r

/-- sparse.rs 360-363. -/
def indicesI64 (M : Machine) (f : NpyFile Src) : ZipM (List (BitVec 64)) :=
  match f.tryData M (.num .i64) with
  | .ok r => collectI64 r
  | .err _ => ZipM.lift (.err (.invalidData "invalid dtype"))
  | .panic => ZipM.lift .panic

/-- sparse.rs 358-364. -/
def indicesOf (M : Machine) (f : NpyFile Src) : ZipM (List (BitVec 64)) :=
  match f.tryData M (.num .i32) with
  | .ok r => collectI32 r
  | .err f' => indicesI64 M f'
  | .panic => ZipM.lift .panic

/-- sparse.rs 356-365 `extract_indices`, 370-379 `extract_signed_indices`. -/
def extractIndices (M : Machine) (py : PyParser) (name : String) : ZipM (List (BitVec 64)) := do
  let f ← extractAndCheckNdim M py name 1
  indicesOf M f

/-- sparse.rs 349-351 `extract_usize_indices`. -/
def extractUsizeIndices (M : Machine) (py : PyParser) (name : String) : ZipM (List Nat) := do
  let xs ← extractIndices M py name
  pure (xs.map fun x => x.toNat % M.usizeLim)

/-- sparse.rs 341-347 `extract_shape`. -/
def extractShape (M : Machine) (py : PyParser) (name : String) : ZipM (BitVec 64 × BitVec 64) := do
  let xs ← extractIndices M py name
  ZipM.lift (Sparse.pairOf xs)

/-- sparse.rs 381-384 `extract_1d`. -/
def extract1d (M : Machine) (py : PyParser) (t : Ty) (name : String) : ZipM (List t.Val) := do
  let f ← extractAndCheckNdim M py name 1
  intoVec M t f

/-- sparse.rs 386-394 `extract_nd`. -/
def extractNd (M : Machine) (py : PyParser) (t : Ty) (name : String) (ndim : Nat) : ZipM (List t.Val × List Nat) := do
  let f ← extractAndCheckNdim M py name ndim
  ZipM.lift (Sparse.requireC f)
  let data ← intoVec M t f
  pure (data, f.header.shape.map (· % M.usizeLim))

/-- sparse.rs 258-265 `Coo::from_npz`. -/
def readCoo (M : Machine) (py : PyParser) (t : Ty) : ZipM (Coo t) := do
  expectFormat M py "coo"
  let shape ← extractShape M py "shape"
  let row ← extractIndices M py "row"
  let col ← extractIndices M py "col"
  let data ← extract1d M py t "data"
  pure ⟨shape, data, row, col⟩

/-- sparse.rs 270-277 `Csr::from_npz`. -/
def readCsr (M : Machine) (py : PyParser) (t : Ty) : ZipM (Csr t) := do
  expectFormat M py "csr"
  let shape ← extractShape M py "shape"
  let indices ← extractIndices M py "indices"
  let indptr ← extractUsizeIndices M py "indptr"
  let data ← extract1d M py t "data"
  pure ⟨shape, data, indices, indptr⟩

/-- sparse.rs 282-289 `Csc::from_npz`. -/
def readCsc (M : Machine) (py : PyParser) (t : Ty) : ZipM (Csc t) := do
  expectFormat M py "csc"
  let shape ← extractShape M py "shape"
  let indices ← extractIndices M py "indices"
  let indptr ← extractUsizeIndices M py "indptr"
  let data ← extract1d M py t "data"
  pure ⟨shape, data, indices, indptr⟩

/-- sparse.rs 294-300 `Dia::from_npz`. -/
def readDia (M : Machine) (py : PyParser) (t : Ty) : ZipM (Dia t) := do
  expectFormat M py "dia"
  let shape ← extractShape M py "shape"
  let offsets ← extractIndices M py "offsets"
  let r ← extractNd M py t "data" 2
  pure ⟨shape, r.1, offsets⟩

/-- sparse.rs 305-313 `Bsr::from_npz`. -/
def readBsr (M : Machine) (py : PyParser) (t : Ty) : ZipM (Bsr t) := do
  expectFormat M py "bsr"
  let shape ← extractShape M py "shape"
  let indices ← extractIndices M py "indices"
  let indptr ← extractUsizeIndices M py "indptr"
  let r ← extractNd M py t "data" 3
  let b0 ← ZipM.lift (Sparse.index r.2 1)
  let b1 ← ZipM.lift (Sparse.index r.2 2)
  pure ⟨shape, (b0, b1), r.1, indices, indptr⟩

/-- sparse.rs 245-252: the `match`. -/
def dispatch (M : Machine) (py : PyParser) (t : Ty) (format : Bytes) : ZipM (Sparse t) :=
  if format = Sparse.strBytes "coo" then do let m ← readCoo M py t; pure (.coo m)
  else if format = Sparse.strBytes "csc" then do let m ← readCsc M py t; pure (.csc m)
  else if format = Sparse.strBytes "csr" then do let m ← readCsr M py t; pure (.csr m)
  else if format = Sparse.strBytes "dia" then do let m ← readDia M py t; pure (.dia m)
  else if format = Sparse.strBytes "bsr" then do let m ← readBsr M py t; pure (.bsr m)
  else ZipM.lift (.err (.invalidData "bad format"))

/-- sparse.rs 242-253 `Sparse::from_npz`. -/
def readSparse (M : Machine) (py : PyParser) (t : Ty) : ZipM (Sparse t) := do
  let format ← formatOf M py
  dispatch M py t format

end FlakyArchive

/-! ### Writing -/

/-- An archive being written on a failing stream.  `starts` says whether the next attempts to start a member
fail, `evs` is the schedule of the `write` and `flush` calls. -/
structure ShakyArchive where
  writer : NpzWriter
  starts : List (Option Nat)
  evs : List RProg.Ev

/-- `impl io::Write for ZipWriter`: append to the open member. -/
def shakyZip : Target ShakyArchive where
  exec p z :=
    match z.writer.members.getLast? with
    | some m =>
      match p.runSched ⟨m.2, m.2.length, false⟩ z.evs with
      | (r, s, evs) => (r, { z with writer := ⟨z.writer.members.dropLast ++ [(m.1, s.data)]⟩, evs })
    | none => (.err (.source 0), z)

namespace ShakyArchive

/-- A function that takes `&mut NpzWriter`. -/
abbrev Act : Type := ShakyArchive → Res Unit × ShakyArchive

/-- npz_feature.rs 86-89 `array`: `start_file(..)?`.  A member that could not be started is not in the archive. -/
def array (name : Text) : Act := fun z =>
  match z.starts with
  | some c :: starts => (.err (.source c), { z with starts })
  | _ => (.ok (), { z with writer := z.writer.array name, starts := z.starts.tail })

/-- `a?; b`. -/
def andThen (a b : Act) : Act := fun z =>
  match a z with
  | (.ok (), z') => b z'
  | (.err e, z') => (.err e, z')
  | (.panic, z') => (.panic, z')

/-- `assert_eq!`. -/
def assertThat (c : Bool) : Act := fun z => if c then (.ok (), z) else (.panic, z)

/-- `npz.array(name, options)?.dtype(dtype).shape(dims).begin_nd()?.extend(values)`. -/
def writeArray (M : Machine) (t : Ty) (dtype : DRes DType) (name : String) (dims : List Nat) (vs : List t.Val) : Act :=
  andThen (array (txt name)) fun z =>
    match dtype with
    | .ok d => NpyWriter.saveDropped M shakyZip t d .c (.nd dims) vs z
    | _ => (.panic, z)

/-- `npz.array(name, options)?.dtype(d).order(o).shape(dims).begin_nd()?`, pushing all values and finishing. -/
def saveArray (M : Machine) (t : Ty) (d : DType) (o : Order) (dims : List Nat) (vs : List t.Val) (name : Text) : Act :=
  andThen (array name) (NpyWriter.save M shakyZip t d o (.nd dims) vs)

/-- sparse.rs 559-565 `write_format`. -/
def writeFormatArray (M : Machine) (format : String) : Act :=
  writeArray M .vecU8 (.ok (.plain Sparse.s3)) "format" [] [Sparse.strBytes format]

/-- sparse.rs 567-574 `write_shape`. -/
def writeShape (M : Machine) (shape : BitVec 64 × BitVec 64) : Act :=
  writeArray M (.num .i64) (Sparse.i64DType M) "shape" [2] [shape.1, shape.2]

/-- sparse.rs 577-594 `write_indices`. -/
def writeIndices (M : Machine) (name : String) (xs : List (BitVec 64)) : Act :=
  if -2 ^ 31 ≤ (Sparse.mostNegativeAndPositive xs).1 ∧ (Sparse.mostNegativeAndPositive xs).2 ≤ 2 ^ 31 - 1 then
    writeArray M (.num .i32) (Sparse.i32DType M) name [xs.length] (xs.map Sparse.narrow)
  else writeArray M (.num .i64) (Sparse.i64DType M) name [xs.length] xs

/-- sparse.rs 607-613 `write_data`. -/
def writeData (M : Machine) (t : Ty) (dtype : DRes DType) (data : List t.Val) (dims : List Nat) : Act :=
  writeArray M t dtype "data" dims data

section
variable {t : Ty} {r : DRes DType}

/-- sparse.rs 444-452 `Coo::write_npz`. -/
def writeCoo (M : Machine) (_ : t.defaultDType M = some r) (m : Coo t) : Act :=
  andThen (writeFormatArray M "coo") <|
  andThen (writeShape M m.shape) <|
  andThen (writeIndices M "row" m.row) <|
  andThen (writeIndices M "col" m.col) <|
  writeData M t r m.data [m.data.length]

/-- sparse.rs 468-476 `Csr::write_npz`. -/
def writeCsr (M : Machine) (_ : t.defaultDType M = some r) (m : Csr t) : Act :=
  andThen (writeFormatArray M "csr") <|
  andThen (writeShape M m.shape) <|
  andThen (writeIndices M "indices" m.indices) <|
  andThen (writeIndices M "indptr" (m.indptr.map Sparse.ofUsize)) <|
  writeData M t r m.data [m.data.length]

/-- sparse.rs 492-500 `Csc::write_npz`. -/
def writeCsc (M : Machine) (_ : t.defaultDType M = some r) (m : Csc t) : Act :=
  andThen (writeFormatArray M "csc") <|
  andThen (writeShape M m.shape) <|
  andThen (writeIndices M "indices" m.indices) <|
  andThen (writeIndices M "indptr" (m.indptr.map Sparse.ofUsize)) <|
  writeData M t r m.data [m.data.length]

/-- sparse.rs 514-525 `Dia::write_npz`. -/
def writeDia (M : Machine) (_ : t.defaultDType M = some r) (m : Dia t) : Act :=
  andThen (writeFormatArray M "dia") <|
  andThen (writeShape M m.shape) <|
  andThen (writeIndices M "offsets" m.offsets) <|
  andThen (assertThat m.check) <|
  writeData M t r m.data [m.data.length / m.offsets.length, m.offsets.length]

/-- sparse.rs 540-550 `Bsr::write_npz`. -/
def writeBsr (M : Machine) (_ : t.defaultDType M = some r) (m : Bsr t) : Act :=
  andThen (writeFormatArray M "bsr") <|
  andThen (writeShape M m.shape) <|
  andThen (writeIndices M "indices" m.indices) <|
  andThen (writeIndices M "indptr" (m.indptr.map Sparse.ofUsize)) <|
  andThen (assertThat (m.check M)) <|
  writeData M t r m.data [m.indices.length, m.blocksize.1, m.blocksize.2]

/-- sparse.rs 421-429 `SparseBase::write_npz`. -/
def writeSparse (M : Machine) (h : t.defaultDType M = some r) : Sparse t → Act
  | .coo m => writeCoo M h m
  | .csc m => writeCsc M h m
  | .csr m => writeCsr M h m
  | .dia m => writeDia M h m
  | .bsr m => writeBsr M h m

end

end ShakyArchive

end Npyz
