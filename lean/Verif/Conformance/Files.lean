import Verif.Conformance.Data
/-!
The project's own tests, run on the model: `/repo/tests/nd.rs`, `npz.rs`, `strings.rs`, `roundtrip.rs`, and the examples in
`lib.rs` and `/repo/examples` that read files.  (See `Conformance/Header.lean` for what this is good for.)
-/
set_option autoImplicit false
namespace Npyz.Conformance

/-! ### nd.rs -/

/-- `NpyFile::new(&bytes[..]).unwrap()` and its accessors. -/
def header (bytes : Bytes) : Option NpyHeader :=
  match NpyFile.new M Py.parse disk ⟨bytes, 0⟩ with
  | (.ok file, _) => some file.header
  | _ => none

def cOrder : List (BitVec 64) := i64s [1,1,1,1,2,2,2,2,3,3,3,3,4,4,4,4,5,5,5,5,6,6,6,6]
def fortranOrder : List (BitVec 64) := i64s [1,4,2,5,3,6,1,4,2,5,3,6,1,4,2,5,3,6,1,4,2,5,3,6]

abbrev I64Array := Option (Order × List Nat × List (BitVec 64))

-- `read_c_order`, `read_fortran_order` (11-31)
example : (header file_c_order_npy).map (·.strides) = some [12, 4, 1] ∧ (header file_f_order_npy).map (·.strides) = some [1, 2, 6] := by decide +kernel
example : as I64Array (readBack (.num .i64) file_c_order_npy) = some (.c, [2, 3, 4], cOrder) := by decide +kernel
example : as I64Array (readBack (.num .i64) file_f_order_npy) = some (.fortran, [2, 3, 4], fortranOrder) := by decide +kernel

-- `write_c_order`, `write_fortran_order` (34-75)
example : as I64Array (roundTrip (.num .i64) i8dt .c (.nd [2, 3, 4]) cOrder) = some (.c, [2, 3, 4], cOrder) := by decide +kernel
example : as I64Array (roundTrip (.num .i64) i8dt .fortran (.nd [2, 3, 4]) fortranOrder) = some (.fortran, [2, 3, 4], fortranOrder) := by decide +kernel

/-! ### Examples -/

-- examples/plain.rs, lib.rs 36-60: 1.0, 3.5, -6.0, 2.3
example : as I64Array (readBack (.num .f64) file_plain_npy) =
    some (.c, [4], i64s [0x3FF0000000000000, 0x400C000000000000, 0xC018000000000000, 0x4002666666666666]) := by decide +kernel

/-- examples/structured.rs: `struct Struct { a: i32, b: f32, c: i64 }`. -/
def structured : Ty := .record (.cons (txt "a") (.num .i32) (.cons (txt "b") (.num .f32) (.cons (txt "c") (.num .i64) .nil)))

-- examples/structured.rs, lib.rs 205-255: (1, 2.5, 4), (2, 3.1, 5)
set_option synthInstance.maxSize 2000 in
set_option synthInstance.maxHeartbeats 400000 in
example : as (Option (Order × List Nat × List (BitVec 32 × BitVec 32 × BitVec 64 × Unit))) (readBack structured file_structured_npy) =
    some (.c, [2], [(1, 0x40200000, 4, ()), (2, 0x40466666, 5, ())]) := by decide +kernel

-- examples/pickle.rs: the header can be read, the data cannot
example : (header file_pickle_npy).map (fun h => (h.shape, h.usesPickled)) = some ([2, 3], true) ∧
    (as I64Array (readBack (.num .i64) file_pickle_npy)) = none := by decide +kernel

/-! ### npz.rs -/

/-- `npz.by_name(name).unwrap().unwrap()` and its shape and elements. -/
def member (t : Ty) (a : NpzArchive) (name : String) : Option (List Nat × List t.Val) :=
  match a.byName M Py.parse (txt name) with
  | .ok (some file) =>
    match file.intoVec M disk t with
    | (.ok vs, _) => some (file.header.shape, vs)
    | _ => none
  | _ => none

def noMember (a : NpzArchive) (name : String) : Bool :=
  match a.byName M Py.parse (txt name) with
  | .ok none => true
  | _ => false

/-- `test_basic_read` (23-38). -/
def basicRead (a : NpzArchive) : Bool :=
  (a.arrayNames == [txt "floats", txt "ints"] || a.arrayNames == [txt "ints", txt "floats"]) &&
  as (Option (List Nat × List (BitVec 64))) (member (.num .i64) a "ints") == some ([4], i64s [1, 2, 3, 4]) &&
  as (Option (List Nat × List (BitVec 64))) (member (.num .f64) a "floats") == some ([2, 1], f64s ["1", "2"]) &&
  noMember a "non-existent"

-- `read_uncompressed`, `read_compressed` (9-17)
example : basicRead file_uncompressed_npz = true ∧ basicRead file_compressed_npz = true := by decide +kernel

/-- `basic_write` (41-64). -/
def basicWrite : Option NpzArchive :=
  match NpyWriter.saveDropped M zipStream (.num .i64) i8dt .c (.nd [4]) (i64s [1, 2, 3, 4]) (NpzWriter.new.array (txt "ints")) with
  | (.ok (), z) =>
    match NpyWriter.saveDropped M zipStream (.num .f64) f8 .c (.nd [2, 1]) (f64s ["1", "2"]) (z.array (txt "floats")) with
    | (.ok (), z) => some z.archive
    | _ => none
  | _ => none

example : basicWrite.map basicRead = some true := by decide +kernel

/-! ### strings.rs -/

/-- The elements of a file. -/
def elements (t : Ty) (bytes : Bytes) : Option (List t.Val) := (readBack t bytes).map (·.2.2)

/-- The header is fine, the elements are an error. -/
def elementsErr (t : Ty) (bytes : Bytes) : Bool :=
  match NpyFile.new M Py.parse disk ⟨bytes, 0⟩ with
  | (.ok file, _) => isErr (file.intoVec M disk t).1
  | _ => false

def out : Text := [Char.ofNat 0x3B1, Char.ofNat 0x3B2, 'o', 'u', 't']

-- `unicode_files` (6-59)
example : as (Option (List Text)) (elements .string file_unicode_ok_npy) = some [out] := by decide +kernel
example : elementsErr .string file_unicode_surrogate_npy = true ∧ elementsErr .string file_unicode_surrogate_pair_npy = true := by decide +kernel
example : as (Option (List Text)) (elements .vecChar file_unicode_ok_npy) = some [out] := by decide +kernel
example : elementsErr .vecChar file_unicode_surrogate_npy = true ∧ elementsErr .vecChar file_unicode_surrogate_pair_npy = true := by decide +kernel
example : as (Option (List (List (BitVec 32)))) (elements .vecU32 file_unicode_ok_npy) = some [out.map fun c => b32 c.toNat] := by decide +kernel
example : as (Option (List (List (BitVec 32)))) (elements .vecU32 file_unicode_surrogate_npy) = some [[0xD805]] := by decide +kernel
example : as (Option (List (List (BitVec 32)))) (elements .vecU32 file_unicode_surrogate_pair_npy) = some [[0xD834, 0xDD1E]] := by decide +kernel

def strings : List Text := [txt "abc", out, [Char.ofNat 0x1D11E]]

-- `writing_strings` (62-95)
example : as (Option (List Text)) ((toBytes .vecChar (plain "<U5") .c .oneD strings).bind (elements .vecChar)) = some strings := by decide +kernel
example : as (Option (List Text)) ((toBytes .string (plain "<U5") .c .oneD strings).bind (elements .vecChar)) = some strings := by decide +kernel

/-! ### roundtrip.rs -/

def fields : List (String × Ty) → TFields
  | [] => .nil
  | (n, t) :: fs => .cons (txt n) t (fields fs)

/-- Write one-dimensional; the data at the end of the file, the dtype read back. -/
def wrote (t : Ty) (d : DType) (hint : ShapeHint) (vs : List t.Val) (expected : Bytes) : Option (Bool × DType) :=
  (toBytes t d .c hint vs).bind fun bytes => (header bytes).map fun h => (expected.isSuffixOf bytes, h.dtype)


def again' (t : Ty) (d : DType) (hint : ShapeHint) (vs : List t.Val) : Option (List t.Val) := (roundTrip t d .c hint vs).map (·.2.2)

-- `roundtrip_with_plain_dtype` (168-181)
example : as (Option L64) (again' (.num .f64) f8 .oneD (f64s ["2", "3", "4", "5"])) = some (f64s ["2", "3", "4", "5"]) := by decide +kernel

/-- `roundtrip_byteorder` (184-245). -/
def byteorderRow : Ty := .record (fields [("be_u32", .num .u32), ("le_u32", .num .u32), ("be_f16", .num .f16), ("le_f16", .num .f16),
  ("be_f32", .num .f32), ("le_f32", .num .f32), ("be_i8", .num .i8), ("le_i8", .num .i8), ("na_i8", .num .i8)])

def byteorderDType : DType := rec [("be_u32", plain ">u4"), ("le_u32", plain "<u4"), ("be_f16", plain ">f2"), ("le_f16", plain "<f2"),
  ("be_f32", plain ">f4"), ("le_f32", plain "<f4"), ("be_i8", plain ">i1"), ("le_i8", plain "<i1"), ("na_i8", plain "|i1")]

abbrev ByteorderVal := BitVec 32 × BitVec 32 × BitVec 16 × BitVec 16 × BitVec 32 × BitVec 32 × BitVec 8 × BitVec 8 × BitVec 8 × Unit

def byteorderVal : ByteorderVal := (0x01020304, 0x01020304, 0xFC00, 0xFC00, 0xdeadbeef, 0xdeadbeef, 5, 6, 7, ())

example : wrote byteorderRow byteorderDType .oneD [byteorderVal]
    [1, 2, 3, 4, 4, 3, 2, 1, 0xFC, 0, 0, 0xFC, 0xDE, 0xAD, 0xBE, 0xEF, 0xEF, 0xBE, 0xAD, 0xDE, 5, 6, 7] = some (true, byteorderDType) := by
  decide +kernel
/-- The numbers in it. -/
def byteorderNums : ByteorderVal → List Nat
  | (a, b, c, d, e, f, g, h, i, ()) => [a.toNat, b.toNat, c.toNat, d.toNat, e.toNat, f.toNat, g.toNat, h.toNat, i.toNat]

example : (as (Option (List ByteorderVal)) (again' byteorderRow byteorderDType .oneD [byteorderVal])).map (·.map byteorderNums) =
    some [byteorderNums byteorderVal] := by decide +kernel

/-- `roundtrip_datetime` (248-306). -/
def datetimeRow : Ty := .record (fields [("datetime", .num .i64), ("timedelta_le", .num .i64), ("timedelta_be", .num .i64)])

def datetimeDType : DType := rec [("datetime", plain "<M8[ns]"), ("timedelta_le", plain "<m8[D]"), ("timedelta_be", plain ">m8[D]")]

def datetimeVal : BitVec 64 × BitVec 64 × BitVec 64 × Unit := (1293840000000000000, 1, 1, ())

example : wrote datetimeRow datetimeDType .oneD [datetimeVal] (le 8 1293840000000000000 ++ le 8 1 ++ be 8 1) = some (true, datetimeDType) := by
  decide +kernel
example : as (Option (List (BitVec 64 × BitVec 64 × BitVec 64 × Unit))) (again' datetimeRow datetimeDType .oneD [datetimeVal]) = some [datetimeVal] := by
  decide +kernel

/-- `roundtrip_bytes` (309-364). -/
def bytesRow : Ty := .record (fields [("bytestr", .vecU8), ("raw", .vecU8)])

def bytesDType : DType := rec [("bytestr", plain "|S12"), ("raw", plain "|V12")]

def lol : Bytes := [0, 0x6C, 0x6F, 0x6C, 0, 0x6C, 0x6F, 0x6C]

def bytesVal : Bytes × Bytes × Unit := (lol, lol ++ [0, 0, 0, 0], ())

example : wrote bytesRow bytesDType .oneD [bytesVal] (lol ++ [0, 0, 0, 0] ++ lol ++ [0, 0, 0, 0]) = some (true, bytesDType) := by decide +kernel
example : as (Option (List (Bytes × Bytes × Unit))) (again' bytesRow bytesDType .oneD [bytesVal]) = some [bytesVal] := by decide +kernel

/-- `roundtrip_bytes_byteorder` (367-422). -/
def bytesOrderRow : Ty := .record (fields [("s_le", .vecU8), ("s_be", .vecU8), ("s_na", .vecU8), ("v_le", .vecU8), ("v_be", .vecU8), ("v_na", .vecU8)])

def bytesOrderDType : DType := rec [("s_le", plain "<S4"), ("s_be", plain ">S4"), ("s_na", plain "|S4"),
  ("v_le", plain "<V4"), ("v_be", plain ">V4"), ("v_na", plain "|V4")]

abbrev BytesOrderVal := Bytes × Bytes × Bytes × Bytes × Bytes × Bytes × Unit

def abcd : Bytes := [0x61, 0x62, 0x63, 0x64]
def bytesOrderVal : BytesOrderVal := (abcd, abcd, abcd, abcd, abcd, abcd, ())

example : wrote bytesOrderRow bytesOrderDType .oneD [bytesOrderVal] (abcd ++ abcd ++ abcd ++ abcd ++ abcd ++ abcd) = some (true, bytesOrderDType) := by
  decide +kernel
set_option synthInstance.maxSize 2000 in
set_option synthInstance.maxHeartbeats 400000 in
example : as (Option (List BytesOrderVal)) (again' bytesOrderRow bytesOrderDType .oneD [bytesOrderVal]) = some [bytesOrderVal] := by decide +kernel

/-- `nested_array_of_struct` (425-476). -/
def outer : Ty := .record (fields [("foo", .array 3 (.record (fields [("bar", .num .f64)])))])

def outerDType : DType := rec [("foo", .array 3 (rec [("bar", plain "<f8")]))]

abbrev OuterVal := Arr (BitVec 64 × Unit) 3 × Unit

def outerVal : OuterVal := (⟨[(f "1", ()), (f "2", ()), (f "3", ())], rfl⟩, ())

example : wrote outer outerDType .oneD [outerVal] ((f64s ["1", "2", "3"]).flatMap fun x => le 8 x.toNat) = some (true, outerDType) := by decide +kernel
example : as (Option (List OuterVal)) (again' outer outerDType .oneD [outerVal]) = some [outerVal] := by decide +kernel
example : outer.defaultDType M = some (.ok outerDType) := by decide +kernel

/-- `roundtrip_zero_length_array_member` (479-537). -/
def zeroRow : Ty := .record (fields [("a", .num .i32), ("b", .array 3 (.array 0 (.array 7 (.num .i32))))])

def zeroDType : DType := rec [("a", i4), ("b", .array 3 (.array 0 (.array 7 i4)))]

abbrev ZeroVal := BitVec 32 × Arr (Arr (Arr (BitVec 32) 7) 0) 3 × Unit

def zeroVal (a : BitVec 32) : ZeroVal := (a, ⟨[⟨[], rfl⟩, ⟨[], rfl⟩, ⟨[], rfl⟩], rfl⟩, ())

example : wrote zeroRow zeroDType .oneD [zeroVal 3, zeroVal 4] (le 4 3 ++ le 4 4) = some (true, zeroDType) := by decide +kernel
set_option synthInstance.maxSize 2000 in
set_option synthInstance.maxHeartbeats 400000 in
example : as (Option (List ZeroVal)) (again' zeroRow zeroDType .oneD [zeroVal 3, zeroVal 4]) = some [zeroVal 3, zeroVal 4] := by decide +kernel

-- `roundtrip_scalar` (540-568)
example : wrote (.num .i32) i4 (.nd []) (i32s [1]) [1, 0, 0, 0] = some (true, i4) := by decide +kernel
example : as (Option (List (BitVec 32))) (again' (.num .i32) i4 (.nd []) (i32s [1])) = some (i32s [1]) := by decide +kernel

/-- `roundtrip_version3` (571-607). -/
def ab : Text := [Char.ofNat 0x3B1, Char.ofNat 0x3B2]

def version3Row : Ty := .record (.cons (txt "num") (.num .i32) (.cons ab (.num .i32) .nil))

def version3DType : DType := .record (.cons (txt "num") i4 (.cons ab i4 .nil))

def version3Val : BitVec 32 × BitVec 32 × Unit := (1, 2, ())

example : wrote version3Row version3DType (.nd [1]) [version3Val] (le 4 1 ++ le 4 2) = some (true, version3DType) := by decide +kernel
example : (toBytes version3Row version3DType .c (.nd [1]) [version3Val]).map (fun bytes => (bytes.drop 6).take 2) = some [3, 0] := by decide +kernel
example : as (Option (List (BitVec 32 × BitVec 32 × Unit))) (again' version3Row version3DType (.nd [1]) [version3Val]) = some [version3Val] := by
  decide +kernel

end Npyz.Conformance
