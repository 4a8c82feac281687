import Verif.Conformance.Serialize
import Verif.Model.Sparse
/-!
The project's own tests, run on the model: `/repo/src/write.rs` 850-1094, `/repo/src/read.rs` 622-726.
(See `Conformance/Header.lean` for what this is good for.)
-/
set_option autoImplicit false
namespace Npyz.Conformance
open Sparse (strBytes)

/-! ### write.rs -/

/-- `1.0`, `3.0`, … as bit patterns. -/
def f (x : String) : BitVec 64 :=
  match x with
  | "1" => 0x3FF0000000000000
  | "2" => 0x4000000000000000
  | "3" => 0x4008000000000000
  | "4" => 0x4010000000000000
  | "5" => 0x4014000000000000
  | "6" => 0x4018000000000000
  | "7" => 0x401C000000000000
  | "-1" => 0xBFF0000000000000
  | "-4" => 0xC010000000000000
  | _ => 0

def f64s (xs : List String) : List (BitVec 64) := xs.map f
def i32s (xs : List Nat) : List (BitVec 32) := xs.map b32

/-- A session on an in-memory stream with contents already there; `none` unless it succeeds. -/
def saved (t : Ty) (d : DType) (o : Order) (hint : ShapeHint) (vs : List t.Val) (before : Bytes) (seekable : Bool) : Option Sink :=
  match NpyWriter.save M solid t d o hint vs ⟨before, before.length, seekable⟩ with
  | (.ok (), s) => some s
  | _ => none

/-- The bytes of a file with these elements (`to_bytes_1d`, `to_bytes_2d`, `to_writer_nd`). -/
def toBytes (t : Ty) (d : DType) (o : Order) (hint : ShapeHint) (vs : List t.Val) : Option Bytes :=
  (saved t d o hint vs [] hint.seeks).map (·.data)

/-- `NpyFile::new(&bytes[..])?` and its order, shape and elements. -/
def readBack (t : Ty) (bytes : Bytes) : Option (Order × List Nat × List t.Val) :=
  match NpyFile.new M Py.parse disk ⟨bytes, 0⟩ with
  | (.ok file, _) =>
    match file.intoVec M disk t with
    | (.ok vs, _) => some (file.header.order, file.header.shape, vs)
    | _ => none
  | _ => none

def roundTrip (t : Ty) (d : DType) (o : Order) (hint : ShapeHint) (vs : List t.Val) : Option (Order × List Nat × List t.Val) :=
  (toBytes t d o hint vs).bind (readBack t)

/-- `haystack.windows(needle.len()).any(|w| w == needle)`. -/
def contains (needle : Bytes) : Bytes → Bool
  | [] => needle.isEmpty
  | b :: bs => needle.isPrefixOf (b :: bs) || contains needle bs

def f8 : DType := plain "<f8"
def i4 : DType := plain "<i4"

-- `write_1d_simple` (865-872)
example : as (Option (Order × List Nat × List (BitVec 64))) (roundTrip (.num .f64) f8 .c .oneD (f64s ["1", "3", "5"])) =
    some (.c, [3], f64s ["1", "3", "5"]) := by decide +kernel

/-- The bytes before and after. -/
def lorem : Bytes := strBytes "lorem ipsum dolor sit amet."
def happily : Bytes := strBytes "and they lived happily ever after."

/-- Write, then `cursor.write_all(suffix)`. -/
def inTheMiddle (t : Ty) (d : DType) (o : Order) (hint : ShapeHint) (vs : List t.Val) : Option Bytes :=
  (saved t d o hint vs lorem true).map fun s => (s.put happily).data

def between (raw : Bytes) : Bytes := (raw.drop lorem.length).take (raw.length - happily.length - lorem.length)

-- `write_1d_in_the_middle` (875-898), `write_2d_in_the_middle` (940-965)
example : (inTheMiddle (.num .f64) f8 .c .oneD (f64s ["1", "3", "5"])).map (fun raw => lorem.isPrefixOf raw && happily.isSuffixOf raw) = some true := by
  decide +kernel
example : as (Option (Order × List Nat × List (BitVec 64)))
    ((inTheMiddle (.num .f64) f8 .c .oneD (f64s ["1", "3", "5"])).bind fun raw => readBack (.num .f64) (between raw)) =
    some (.c, [3], f64s ["1", "3", "5"]) := by decide +kernel
example : (inTheMiddle (.num .f64) f8 .c (.twoD 3) (f64s ["1", "3", "5", "6", "-1", "4"])).map
    (fun raw => lorem.isPrefixOf raw && happily.isSuffixOf raw) = some true := by decide +kernel
example : as (Option (Order × List Nat × List (BitVec 64)))
    ((inTheMiddle (.num .f64) f8 .c (.twoD 3) (f64s ["1", "3", "5", "6", "-1", "4"])).bind fun raw => readBack (.num .f64) (between raw)) =
    some (.c, [2, 3], f64s ["1", "3", "5", "6", "-1", "4"]) := by decide +kernel

-- `write_2d_simple`, `write_2d_simple_fortran_order` (901-937)
example : as (Option (Order × List Nat × List (BitVec 64))) (roundTrip (.num .f64) f8 .c (.twoD 3) (f64s ["1", "3", "5", "-4", "3", "2"])) =
    some (.c, [2, 3], f64s ["1", "3", "5", "-4", "3", "2"]) := by decide +kernel
example : as (Option (Order × List Nat × List (BitVec 64))) (roundTrip (.num .f64) f8 .c (.twoD 2) (f64s ["1", "3", "5", "-4", "3", "2"])) =
    some (.c, [3, 2], f64s ["1", "3", "5", "-4", "3", "2"]) := by decide +kernel
example : as (Option (Order × List Nat × List (BitVec 64))) (roundTrip (.num .f64) f8 .fortran (.twoD 3) (f64s ["1", "3", "5", "-4", "3", "2"])) =
    some (.fortran, [3, 2], f64s ["1", "3", "5", "-4", "3", "2"]) := by decide +kernel
example : as (Option (Order × List Nat × List (BitVec 64))) (roundTrip (.num .f64) f8 .fortran (.twoD 2) (f64s ["1", "3", "5", "-4", "3", "2"])) =
    some (.fortran, [2, 3], f64s ["1", "3", "5", "-4", "3", "2"]) := by decide +kernel

/-- Begin, extend, and drop without `finish`. -/
def implicitly (t : Ty) (d : DType) (hint : ShapeHint) (vs : List t.Val) : Option Bytes :=
  match (NpyWriter.begin M t d .c hint).exec ⟨[], 0, true⟩ with
  | (.ok w, s) =>
    match w.extend M solid vs s with
    | (.ok (), w', s') => some (w'.drop M solid s').2.data
    | _ => none
  | _ => none

-- `implicit_finish` (968-983)
example : (implicitly (.num .f64) f8 .oneD (f64s ["1", "3", "5", "7"])).map (contains (strBytes "'shape': (4,")) = some true := by decide +kernel

-- `write_nd_simple` (986-995)
example : as (Option (Order × List Nat × List (BitVec 32))) (roundTrip (.num .i32) i4 .c (.nd [2, 3]) (i32s [0, 1, 2, 10, 11, 12])) =
    some (.c, [2, 3], i32s [0, 1, 2, 10, 11, 12]) := by decide +kernel

-- `write_nd_wrong_len`, `write_2d_wrong_len` (998-1031)
example : [(.nd [2, 3]), ShapeHint.twoD 3].all (fun h =>
    (toBytes (.num .i32) i4 .c h (i32s [0, 1, 2, 10, 11])).isNone &&
    (toBytes (.num .i32) i4 .c h (i32s [0, 1, 2, 10, 11, 12])).isSome &&
    (toBytes (.num .i32) i4 .c h (i32s [0, 1, 2, 10, 11, 12, 20])).isNone) = true := by decide +kernel

/-- Write a header after some bytes, then other bytes; read it back: the header and what is left. -/
def headerOnly (d : DType) (shape : List Nat) (before after : Bytes) : Option (NpyHeader × Bytes) :=
  match ((Builder.calls [.shape shape, .dtype d, .writer (⟨before, before.length, true⟩ : Sink)]).writeHeaderOnly M) with
  | some (w, p) =>
    match p.exec w with
    | (.ok _, s) =>
      match NpyFile.new M Py.parse disk ⟨(s.put after).data, before.length⟩ with
      | (.ok file, src) => some (file.header, src.rest)
      | _ => none
    | _ => none
  | none => none

-- `write_header_only_positions` (1034-1063)
example : (headerOnly (plain "|O") [2, 3] (strBytes "ABCD") (strBytes "dcba")).map
    (fun x => (x.1.dtype, x.1.shape, x.1.nRecords, x.1.usesPickled, x.2)) =
    some (plain "|O", [2, 3], 6, true, strBytes "dcba") := by decide +kernel

/-- The funny type. -/
def funny : DType := rec [("parent", rec [("child", plain "|O")])]

-- `write_header_only_funny_type` (1066-1094)
example : (headerOnly funny [2, 3] [] []).map (fun x => (x.1.dtype, x.1.shape, x.1.nRecords, x.1.usesPickled)) =
    some (funny, [2, 3], 6, true) := by decide +kernel

/-! ### read.rs -/

-- `test_strides` (628-633)
example : computeStrides M .c [2, 3, 4] = .ok [12, 4, 1] ∧ computeStrides M .c [] = .ok [] ∧ computeStrides M .fortran [2, 3, 4] = .ok [1, 2, 6] ∧
    computeStrides M .fortran [] = .ok [] := by
  decide +kernel

/-- `NpyFile::new(Cursor::new(&to_bytes_1d(items)?)).data::<i32>()`. -/
def reader (items : List Nat) : Option (NpyReader (Ty.num .i32).Val Src) :=
  match toBytes (.num .i32) i4 .c .oneD (i32s items) with
  | some bytes =>
    match NpyFile.new M Py.parse disk ⟨bytes, 0⟩ with
    | (.ok file, _) =>
      match file.data M (.num .i32) with
      | .ok r => some r
      | _ => none
    | _ => none
  | none => none

/-- What a call returned, in a form that can be compared. -/
inductive Saw where
  | got (x : BitVec 32) | nothing | moved | error | panicked
deriving DecidableEq

def sawRes : Res (BitVec 32) → Saw
  | .ok x => .got x
  | .err _ => .error
  | .panic => .panicked

def saw : ROut (BitVec 32) → Saw
  | .item none => .nothing
  | .item (some x) => sawRes x
  | .moved (.ok ()) => .moved
  | .moved (.err _) => .error
  | .moved .panic => .panicked
  | .value x => sawRes x

/-- Call after call: what it returned, `total_len()` and `len()` afterwards. -/
def calls (items : List Nat) (ops : List ROp) : Option (List Saw × Nat × Res Nat) :=
  (reader items).map fun r => match r.steps M disk ops with
    | (outs, r') => (outs.map saw, r'.totalLen, r'.len M)

def seven : List Nat := [100, 101, 102, 103, 104, 105, 106]

-- `test_methods_after_partial_iteration` (636-648)
example : (calls seven []) = some ([], 7, .ok 7) := by decide +kernel
example : (calls seven [.next, .next]) = some ([.got 100, .got 101], 7, .ok 5) := by decide +kernel

-- `test_next_after_finished_iteration` (651-665)
example : (calls seven (List.replicate 9 .next)) = some (([100, 101, 102, 103, 104, 105, 106] : List (BitVec 32)).map .got ++ [.nothing, .nothing], 7, .ok 0) := by
  decide +kernel

-- `test_methods_after_seek` (668-686)
example : (calls seven [.next, .next, .seekTo 4]) = some ([.got 100, .got 101, .moved], 7, .ok 3) := by decide +kernel
example : (calls seven [.next, .next, .seekTo 4, .next]) = some ([.got 100, .got 101, .moved, .got 104], 7, .ok 2) := by decide +kernel
example : (calls seven [.next, .next, .seekTo 4, .next, .readAt 2]) = some ([.got 100, .got 101, .moved, .got 104, .got 102], 7, .ok 4) := by
  decide +kernel

-- `test_seek_boundary_ok`, `_ng`, `test_read_boundary_ok`, `_ng` (688-710)
example : (calls [1, 2, 3] [.seekTo 3]).map (·.1) = some [.moved] ∧ (calls [1, 2, 3] [.seekTo 4]).map (·.1) = some [.panicked] ∧
    (calls [1, 2, 3] [.readAt 2]).map (·.1) = some [.got 3] ∧ (calls [1, 2, 3] [.readAt 3]).map (·.1) = some [.panicked] := by decide +kernel

end Npyz.Conformance
