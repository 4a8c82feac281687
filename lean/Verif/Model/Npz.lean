import Verif.Model.Writer
/-!
Model of `/repo/src/npz.rs` and `/repo/src/npz_feature.rs`.

The `zip` crate is outside the model.  An archive is represented by the names and (uncompressed)
contents of its members in the order in which they were added; `ZipWriter` appends members and what is
written goes to the last one, `ZipArchive::by_name` finds the last member with a name, and
`ZipArchive::file_names` gives every name once (zip 0.6: `read.rs`, `names_map`; the order is that of a
`HashMap`, so nothing should depend on it).  Compression, checksums, limits on sizes, and failures of
the stream under the archive are not modelled.
-/
namespace Npyz

/-! ### Names -/

/-- npz.rs 32-35: cut at the first NUL. -/
def cutAtNul (path : Text) : Text := path.takeWhile fun c => !(c == '\x00')

/-- npz.rs 31-42 `array_name_from_file_name`. -/
def arrayNameFromFileName (path : Text) : Option Text :=
  if (txt ".npy").isSuffixOf (cutAtNul path) then some ((cutAtNul path).take ((cutAtNul path).length - 4)) else none

/-- npz.rs 50-52 `file_name_from_array_name`. -/
def fileNameFromArrayName (name : Text) : Text := name ++ txt ".npy"

/-- `format!("{}", index)` for an `i32`. -/
def displayInt : Int → Text
  | .ofNat n => Nat.toDigits 10 n
  | .negSucc n => '-' :: Nat.toDigits 10 (n + 1)

/-- npz.rs 58-60 `file_name_from_index`. -/
def fileNameFromIndex (index : BitVec 32) : Text := txt "arr_" ++ displayInt index.toInt ++ txt ".npy"

/-! ### Reading -/

/-- npz_feature.rs 17-19 `NpzArchive`. -/
structure NpzArchive where
  members : List (Text × Bytes)
deriving DecidableEq, Repr

namespace NpzArchive

/-- `ZipArchive::by_name`. -/
def find (a : NpzArchive) (file : Text) : Option Bytes := (a.members.reverse.find? fun m => m.1 == file).map (·.2)

/-- `ZipArchive::file_names`. -/
def fileNames (a : NpzArchive) : List Text := (a.members.map (·.1)).eraseDups

/-- npz_feature.rs 35-37 `array_names`. -/
def arrayNames (a : NpzArchive) : List Text := a.fileNames.filterMap arrayNameFromFileName

/-- npz_feature.rs 44: `Ok(Some(NpyFile::new(file)?))`. -/
def openMember (M : Machine) (py : PyParser) (content : Bytes) : Res (Option (NpyFile Src)) :=
  match (NpyFile.new M py disk ⟨content, 0⟩).1 with
  | .ok f => .ok (some f)
  | .err e => .err e
  | .panic => .panic

/-- npz_feature.rs 42-50 `by_name`.  The stream of a member starts at its first byte. -/
def byName (M : Machine) (py : PyParser) (a : NpzArchive) (name : Text) : Res (Option (NpyFile Src)) :=
  match a.find (fileNameFromArrayName name) with
  | some content => openMember M py content
  | none => .ok none

end NpzArchive

/-! ### Writing -/

/-- npz_feature.rs 65-68 `NpzWriter`: the members so far, the last of which is open. -/
structure NpzWriter where
  members : List (Text × Bytes)
deriving DecidableEq, Repr

namespace NpzWriter

/-- npz_feature.rs 79-81 `new`. -/
def new : NpzWriter := ⟨[]⟩

/-- npz_feature.rs 87: `start_file`. -/
def startFile (z : NpzWriter) (file : Text) : NpzWriter := ⟨z.members ++ [(file, [])]⟩

/-- npz_feature.rs 86-89 `array`: the builder holds the archive; writing to it (`zipStream`) appends to
the member just started. -/
def array (z : NpzWriter) (name : Text) : NpzWriter := z.startFile (fileNameFromArrayName name)

/-- Closing the archive (`ZipWriter::finish`, or dropping it) and opening what was written. -/
def archive (z : NpzWriter) : NpzArchive := ⟨z.members⟩

end NpzWriter

/-- A stream that is only written to: what has been written so far. -/
def plainStream : Target Bytes where
  exec p c := ((p.exec ⟨c, c.length, false⟩).1, (p.exec ⟨c, c.length, false⟩).2.data)

/-- `impl io::Write for ZipWriter`: append to the open member; an error if there is none. -/
def zipStream : Target NpzWriter where
  exec p z :=
    match z.members.getLast? with
    | some m => ((plainStream.exec p m.2).1, ⟨z.members.dropLast ++ [(m.1, (plainStream.exec p m.2).2)]⟩)
    | none => (.err (.source 0), z)

/-- A session that does not call `finish`: `begin_nd()?.extend(values)`, where the writer is a temporary
and is dropped at the end of the statement (sparse.rs 559-613). -/
def NpyWriter.saveDropped {σ : Type} (M : Machine) (T : Target σ) (t : Ty) (d : DType) (order : Order) (hint : ShapeHint)
    (vs : List t.Val) (s : σ) : Res Unit × σ :=
  match T.exec (NpyWriter.begin M t d order hint) s with
  | (.ok w, s') =>
    match w.extend M T vs s' with
    | (r, w', s'') =>
      match w'.drop M T s'' with
      | (.panic, s3) => (.panic, s3)
      | (_, s3) => (r, s3)
  | (.err e, s') => (.err e, s')
  | (.panic, s') => (.panic, s')

/-- `npz.array(name, options)?.dtype(d).order(o).shape(dims).begin_nd()?`, pushing all values and
finishing. -/
def NpzWriter.saveArray (M : Machine) (t : Ty) (d : DType) (o : Order) (dims : List Nat) (vs : List t.Val) (name : Text)
    (z : NpzWriter) : Res Unit × NpzWriter :=
  NpyWriter.save M zipStream t d o (.nd dims) vs (z.array name)

end Npyz
