import Verif.Conformance.Header
import Verif.Model.Serialize
/-!
The project's own tests, run on the model: `/repo/src/serialize/primitive.rs` 299-508, `slice.rs` 836-1180,
`traits.rs` 378-391, `/repo/tests/serialize_array.rs`.  (See `Conformance/Header.lean` for what this is good for.)

The helpers are those of `/repo/src/serialize/test_helpers.rs`.  Floats are bit patterns.
-/
namespace Npyz.Conformance

/-- A debug build on x86-64. -/
def M : Machine := ⟨false, 64, true⟩

/-- `DType::parse(s).unwrap()`. -/
def dt (s : String) : DType :=
  match DType.parse Py.parse s.toList with
  | .ok d => d
  | _ => .record .nil

/-- `DType::parse(s).is_ok()`. -/
def parses (s : String) : Bool := (DType.parse Py.parse s.toList).isOk

def readerOutput (t : Ty) (s : String) (bytes : Bytes) : Option t.Val :=
  match t.reader M (dt s) with
  | .ok p =>
    match p.run bytes with
    | (.ok v, []) => some v
    | _ => none
  | _ => none

def writerOutput (t : Ty) (s : String) (v : t.Val) : Option Bytes :=
  match t.writer M (dt s) with
  | .ok w =>
    match (w v).exec ⟨[], 0, false⟩ with
    | (.ok (), s) => some s.data
    | _ => none
  | _ => none

def readerExpectErr (t : Ty) (s : String) : Bool := isErr (t.reader M (dt s))
def readerExpectOk (t : Ty) (s : String) : Bool := (t.reader M (dt s)).isOk
def writerExpectErr (t : Ty) (s : String) : Bool := isErr (t.writer M (dt s))
def writerExpectOk (t : Ty) (s : String) : Bool := (t.writer M (dt s)).isOk

def readErr (t : Ty) (s : String) (bytes : Bytes) : Bool :=
  match t.reader M (dt s) with
  | .ok p => isErr (p.run bytes).1
  | _ => false

def readOk (t : Ty) (s : String) (bytes : Bytes) : Bool := (readerOutput t s bytes).isSome

def writeErr (t : Ty) (s : String) (v : t.Val) : Bool :=
  match t.writer M (dt s) with
  | .ok w => isErr ((w v).exec ⟨[], 0, false⟩).1
  | _ => false

/-- A value seen at the type it has by computation. -/
def as (α : Type) (x : α) : α := x

/-- `blob![le(x)]`, `blob![be(x)]`. -/
def le (w x : Nat) : Bytes := leBytes w x
def be (w x : Nat) : Bytes := (leBytes w x).reverse

def b32 (x : Nat) : BitVec 32 := BitVec.ofNat 32 x

/-! ### primitive.rs -/

-- `identity` (306-336)
example : as (Option (BitVec 32)) (readerOutput (.num .i32) "'>i4'" (be 4 1)) = some 1 := by decide +kernel
example : as (Option (BitVec 32)) (readerOutput (.num .i32) "'<i4'" (le 4 1)) = some 1 := by decide +kernel
example : writerOutput (.num .i32) "'>i4'" (1 : BitVec 32) = some (be 4 1) := by decide +kernel
example : writerOutput (.num .i32) "'<i4'" (1 : BitVec 32) = some (le 4 1) := by decide +kernel
example : as (Option (BitVec 32)) (readerOutput (.num .u32) "'>u4'" (be 4 1)) = some 1 := by decide +kernel
example : as (Option (BitVec 32)) (readerOutput (.num .u32) "'<u4'" (le 4 1)) = some 1 := by decide +kernel
example : writerOutput (.num .u32) "'>u4'" (1 : BitVec 32) = some (be 4 1) := by decide +kernel
example : writerOutput (.num .u32) "'<u4'" (1 : BitVec 32) = some (le 4 1) := by decide +kernel
example : ["'>i1'", "'<i1'", "'|i1'"].all (fun s => as (Option (BitVec 8)) (readerOutput (.num .i8) s [1]) == some 1 &&
    writerOutput (.num .i8) s (1 : BitVec 8) == some [1]) = true := by decide +kernel
example : ["'>u1'", "'<u1'", "'|u1'"].all (fun s => as (Option (BitVec 8)) (readerOutput (.num .u8) s [1]) == some 1 &&
    writerOutput (.num .u8) s (1 : BitVec 8) == some [1]) = true := by decide +kernel

-- `native_float_types` (339-359): 42.0 is 0x4045000000000000 and 0x42280000
example : as (Option (BitVec 64)) (readerOutput (.num .f64) "'>f8'" (be 8 0x4045000000000000)) = some 0x4045000000000000 := by decide +kernel
example : as (Option (BitVec 64)) (readerOutput (.num .f64) "'<f8'" (le 8 0x4045000000000000)) = some 0x4045000000000000 := by decide +kernel
example : writerOutput (.num .f64) "'>f8'" (0x4045000000000000 : BitVec 64) = some (be 8 0x4045000000000000) := by decide +kernel
example : writerOutput (.num .f64) "'<f8'" (0x4045000000000000 : BitVec 64) = some (le 8 0x4045000000000000) := by decide +kernel
example : as (Option (BitVec 32)) (readerOutput (.num .f32) "'>f4'" (be 4 0x42280000)) = some 0x42280000 := by decide +kernel
example : as (Option (BitVec 32)) (readerOutput (.num .f32) "'<f4'" (le 4 0x42280000)) = some 0x42280000 := by decide +kernel
example : writerOutput (.num .f32) "'>f4'" (0x42280000 : BitVec 32) = some (be 4 0x42280000) := by decide +kernel
example : writerOutput (.num .f32) "'<f4'" (0x42280000 : BitVec 32) = some (le 4 0x42280000) := by decide +kernel

-- `native_bool` (362-373)
example : parses "'|b2'" = false := by decide +kernel
example : as (Option Bool) (readerOutput .bool "'|b1'" [0]) = some false := by decide +kernel
example : as (Option Bool) (readerOutput .bool "'|b1'" [1]) = some true := by decide +kernel
example : readErr .bool "'|b1'" [2] = true := by decide +kernel
example : readErr .bool "'|b1'" [255] = true := by decide +kernel
example : writerOutput .bool "'|b1'" (false : Bool) = some [0] := by decide +kernel
example : writerOutput .bool "'|b1'" (true : Bool) = some [1] := by decide +kernel

-- `native_half_types` (376-403): 42.69 is 0x5156
example : as (Option (BitVec 16)) (readerOutput (.num .f16) "'>f2'" (be 2 0x5156)) = some 0x5156 := by decide +kernel
example : as (Option (BitVec 16)) (readerOutput (.num .f16) "'<f2'" (le 2 0x5156)) = some 0x5156 := by decide +kernel
example : writerOutput (.num .f16) "'>f2'" (0x5156 : BitVec 16) = some (be 2 0x5156) := by decide +kernel
example : writerOutput (.num .f16) "'<f2'" (0x5156 : BitVec 16) = some (le 2 0x5156) := by decide +kernel

-- `native_complex_types` (406-434): 63.0 is 0x404F800000000000 and 0x427C0000
example : as (Option (BitVec 64 × BitVec 64)) (readerOutput (.complex .f64) "'>c16'" (be 8 0x4045000000000000 ++ be 8 0x404F800000000000)) =
    some (0x4045000000000000, 0x404F800000000000) := by decide +kernel
example : as (Option (BitVec 64 × BitVec 64)) (readerOutput (.complex .f64) "'<c16'" (le 8 0x4045000000000000 ++ le 8 0x404F800000000000)) =
    some (0x4045000000000000, 0x404F800000000000) := by decide +kernel
example : writerOutput (.complex .f64) "'>c16'" ((0x4045000000000000, 0x404F800000000000) : BitVec 64 × BitVec 64) =
    some (be 8 0x4045000000000000 ++ be 8 0x404F800000000000) := by decide +kernel
example : writerOutput (.complex .f64) "'<c16'" ((0x4045000000000000, 0x404F800000000000) : BitVec 64 × BitVec 64) =
    some (le 8 0x4045000000000000 ++ le 8 0x404F800000000000) := by decide +kernel
example : as (Option (BitVec 32 × BitVec 32)) (readerOutput (.complex .f32) "'>c8'" (be 4 0x42280000 ++ be 4 0x427C0000)) =
    some (0x42280000, 0x427C0000) := by decide +kernel
example : as (Option (BitVec 32 × BitVec 32)) (readerOutput (.complex .f32) "'<c8'" (le 4 0x42280000 ++ le 4 0x427C0000)) =
    some (0x42280000, 0x427C0000) := by decide +kernel
example : writerOutput (.complex .f32) "'>c8'" ((0x42280000, 0x427C0000) : BitVec 32 × BitVec 32) = some (be 4 0x42280000 ++ be 4 0x427C0000) := by
  decide +kernel
example : writerOutput (.complex .f32) "'<c8'" ((0x42280000, 0x427C0000) : BitVec 32 × BitVec 32) = some (le 4 0x42280000 ++ le 4 0x427C0000) := by
  decide +kernel

-- `datetime_as_int` (437-453)
example : ["'>m8[ns]'", "'>M8[ns]'"].all (fun s => as (Option (BitVec 64)) (readerOutput (.num .i64) s (be 8 1)) == some 1 &&
    writerOutput (.num .i64) s (1 : BitVec 64) == some (be 8 1)) = true := by decide +kernel
example : ["'<m8[ns]'", "'<M8[ns]'"].all (fun s => as (Option (BitVec 64)) (readerOutput (.num .i64) s (le 8 1)) == some 1 &&
    writerOutput (.num .i64) s (1 : BitVec 64) == some (le 8 1)) = true := by decide +kernel

-- `bad_datetime_types` (456-469)
example : parses "'>m8[ns]'" = true ∧ parses "'>m4[ns]'" = false ∧ parses "'>M4[ns]'" = false := by decide +kernel
example : ["'<M8[ns]'", "'<m8[ns]'"].all (fun s => readerExpectOk (.num .i64) s && readerExpectErr (.num .u64) s) = true := by decide +kernel

-- `wrong_size_int` (472-484)
example : [Prim.i64, .i16].all (fun p => readerExpectErr (.num p) "'<i4'" && writerExpectErr (.num p) "'<i4'") = true := by decide +kernel
example : [Prim.u64, .u16].all (fun p => readerExpectErr (.num p) "'<u4'" && writerExpectErr (.num p) "'<u4'") = true := by decide +kernel

/-- `T::default_dtype().descr()`. -/
def defaultDescr (M : Machine) (t : Ty) : Option Text :=
  match t.defaultDType M with
  | some (.ok d) => some d.descr
  | _ => none

-- `default_simple_type_strs`, `default_complex_type_strs` (487-507)
example : [(Prim.i8, "'|i1'"), (.u8, "'|u1'"), (.i16, "'<i2'"), (.i32, "'<i4'"), (.i64, "'<i8'"), (.u32, "'<u4'")].all
    (fun x => defaultDescr M (.num x.1) == some x.2.toList) = true := by decide +kernel
example : [(Prim.i8, "'|i1'"), (.u8, "'|u1'"), (.i16, "'>i2'"), (.i32, "'>i4'"), (.i64, "'>i8'"), (.u32, "'>u4'")].all
    (fun x => defaultDescr ⟨true, 64, true⟩ (.num x.1) == some x.2.toList) = true := by decide +kernel
example : defaultDescr M (.complex .f32) = some "'<c8'".toList ∧ defaultDescr M (.complex .f64) = some "'<c16'".toList := by decide +kernel

/-! ### slice.rs -/

-- `bytes_any_endianness` (846-852)
example : ["'<S3'", "'>S3'", "'|S3'"].all (fun s => writerOutput .vecU8 s ([1, 3, 5] : Bytes) == some [1, 3, 5] &&
    as (Option Bytes) (readerOutput .vecU8 s [1, 3, 5]) == some [1, 3, 5]) = true := by decide +kernel

-- `length_zero` (855-883)
example : ["'|S0'", "'|V0'"].all (fun s => as (Option Bytes) (readerOutput .vecU8 s []) == some [] &&
    writerOutput .vecU8 s ([] : Bytes) == some []) = true := by decide +kernel
example : as (Option { l : Bytes // l.length = 0 }) (readerOutput (.fixedBytes 0) "'|V0'" []) = some ⟨[], rfl⟩ := by decide +kernel
example : writerOutput (.fixedBytes 0) "'|V0'" (⟨[], rfl⟩ : { l : Bytes // l.length = 0 }) = some [] := by decide +kernel
example : as (Option (List (BitVec 32))) (readerOutput .vecU32 "'>U0'" []) = some [] ∧ writerOutput .vecU32 "'>U0'" ([] : List (BitVec 32)) = some [] := by
  decide +kernel
example : as (Option Text) (readerOutput .vecChar "'>U0'" []) = some [] ∧ writerOutput .vecChar "'>U0'" ([] : Text) = some [] := by decide +kernel
example : ["'>U0'", "'|S0'"].all (fun s => as (Option Text) (readerOutput .string s []) == some [] && writerOutput .string s ([] : Text) == some []) = true := by
  decide +kernel

-- `write_wrong_length` (887-929)
example : parses "'|a3'" = true ∧ dt "'|a3'" = dt "'|S3'" := by decide +kernel
example : writerOutput .vecU8 "'|S3'" ([1, 3, 5] : Bytes) = some [1, 3, 5] ∧ writerOutput .vecU8 "'|V3'" ([1, 3, 5] : Bytes) = some [1, 3, 5] := by
  decide +kernel
example : writerOutput .vecU32 "'>U3'" ([1, 3, 5] : List (BitVec 32)) = some (be 4 1 ++ be 4 3 ++ be 4 5) := by decide +kernel
example : writerOutput .vecChar "'>U3'" "\x01\x03\x05".toList = some (be 4 1 ++ be 4 3 ++ be 4 5) := by decide +kernel
example : writerOutput .string "'>U3'" "\x01\x03\x05".toList = some (be 4 1 ++ be 4 3 ++ be 4 5) := by decide +kernel
example : writerOutput .string "'|S3'" "\x01\x03\x05".toList = some [1, 3, 5] := by decide +kernel
example : writerOutput .vecU8 "'|S3'" ([1] : Bytes) = some [1, 0, 0] ∧ writeErr .vecU8 "'|V3'" ([1] : Bytes) = true := by decide +kernel
example : writerOutput .vecU32 "'>U3'" ([1] : List (BitVec 32)) = some (be 4 1 ++ be 4 0 ++ be 4 0) := by decide +kernel
example : writerOutput .vecChar "'>U3'" "\x01".toList = some (be 4 1 ++ be 4 0 ++ be 4 0) := by decide +kernel
example : writerOutput .string "'>U3'" "\x01".toList = some (be 4 1 ++ be 4 0 ++ be 4 0) := by decide +kernel
example : writerOutput .string "'|S3'" "\x01".toList = some [1, 0, 0] := by decide +kernel
example : writerOutput .vecU8 "'|S3'" ([] : Bytes) = some [0, 0, 0] ∧ writeErr .vecU8 "'|V3'" ([] : Bytes) = true := by decide +kernel
example : writerOutput .vecU32 "'>U3'" ([] : List (BitVec 32)) = some (be 4 0 ++ be 4 0 ++ be 4 0) := by decide +kernel
example : writerOutput .vecChar "'>U3'" ([] : Text) = some (be 4 0 ++ be 4 0 ++ be 4 0) := by decide +kernel
example : writerOutput .string "'>U3'" ([] : Text) = some (be 4 0 ++ be 4 0 ++ be 4 0) ∧ writerOutput .string "'|S3'" ([] : Text) = some [0, 0, 0] := by
  decide +kernel
example : writeErr .vecU8 "'|S3'" ([1, 3, 5, 7] : Bytes) = true ∧ writeErr .vecU8 "'|V3'" ([1, 3, 5, 7] : Bytes) = true ∧
    writeErr .vecU32 "'>U3'" ([1, 3, 5, 7] : List (BitVec 32)) = true ∧ writeErr .vecChar "'>U3'" "\x01\x03\x05\x07".toList = true ∧
    writeErr .string "'>U3'" "\x01\x03\x05\x07".toList = true ∧ writeErr .string "'|S3'" "\x01\x03\x05\x07".toList = true := by decide +kernel

/-- `ArrayVec::<u8, cap>`. -/
abbrev AV (cap : Nat) := { l : Bytes // l.length ≤ cap }

-- `write_wrong_length_arrayvec` (933-954)
example : writerOutput (.arrayVecU8 2) "'|S3'" (⟨[1, 3], by decide⟩ : AV 2) = some [1, 3, 0] ∧
    writerOutput (.arrayVecU8 2) "'|S3'" (⟨[1], by decide⟩ : AV 2) = some [1, 0, 0] ∧
    writerOutput (.arrayVecU8 3) "'|S3'" (⟨[1, 3, 5], by decide⟩ : AV 3) = some [1, 3, 5] ∧
    writerOutput (.arrayVecU8 3) "'|S3'" (⟨[1], by decide⟩ : AV 3) = some [1, 0, 0] ∧
    writeErr (.arrayVecU8 4) "'|S3'" (⟨[1, 3, 5, 7], by decide⟩ : AV 4) = true ∧
    writerOutput (.arrayVecU8 4) "'|S3'" (⟨[1], by decide⟩ : AV 4) = some [1, 0, 0] := by decide +kernel
example : writerExpectErr (.arrayVecU8 2) "'|V3'" = true ∧
    writerOutput (.arrayVecU8 3) "'|V3'" (⟨[1, 3, 5], by decide⟩ : AV 3) = some [1, 3, 5] ∧
    writeErr (.arrayVecU8 3) "'|V3'" (⟨[1], by decide⟩ : AV 3) = true ∧
    writeErr (.arrayVecU8 4) "'|V3'" (⟨[1, 3, 5, 7], by decide⟩ : AV 4) = true ∧
    writerOutput (.arrayVecU8 4) "'|V3'" (⟨[1, 3, 5], by decide⟩ : AV 4) = some [1, 3, 5] ∧
    writeErr (.arrayVecU8 4) "'|V3'" (⟨[1], by decide⟩ : AV 4) = true := by decide +kernel

-- `fixed_size_bytes_restrictions` (957-965)
example : writerExpectErr (.fixedBytes 3) "'|S3'" = true ∧ writerExpectErr (.fixedBytes 2) "'|V3'" = true ∧
    writerExpectErr (.fixedBytes 4) "'|V3'" = true ∧
    writerOutput (.fixedBytes 3) "'|V3'" (⟨[1, 3, 5], by decide⟩ : { l : Bytes // l.length = 3 }) = some [1, 3, 5] := by decide +kernel

-- `truncate_trailing_nuls` (968-998)
example : [([1, 3], [1, 3]), ([1, 0], [1]), ([0, 0], [])].all (fun x => as (Option Bytes) (readerOutput .vecU8 "'|S2'" x.1) == some x.2) = true := by
  decide +kernel
example : [[1, 3], [1, 0], [0, 0]].all (fun x => as (Option Bytes) (readerOutput .vecU8 "'|V2'" x) == some x) = true := by decide +kernel
example : [(le 4 1 ++ le 4 3, [b32 1, b32 3]), (le 4 1 ++ le 4 0, [b32 1]), (le 4 0 ++ le 4 0, [])].all
    (fun x => as (Option (List (BitVec 32))) (readerOutput .vecU32 "'<U2'" x.1) == some x.2) = true := by decide +kernel
example : [(le 4 1 ++ le 4 3, "\x01\x03"), (le 4 1 ++ le 4 0, "\x01"), (le 4 0 ++ le 4 0, "")].all
    (fun x => as (Option Text) (readerOutput .vecChar "'<U2'" x.1) == some x.2.toList && as (Option Text) (readerOutput .string "'<U2'" x.1) == some x.2.toList) = true := by
  decide +kernel
example : [([1, 3], "\x01\x03"), ([1, 0], "\x01"), ([0, 0], "")].all (fun x => as (Option Text) (readerOutput .string "'|S2'" x.1) == some x.2.toList) = true := by
  decide +kernel

-- `arrayvec_truncate_trailing_nuls` (1002-1027)
example : [(le 4 1 ++ le 4 3, [b32 1, b32 3]), (le 4 1 ++ le 4 0, [b32 1]), (le 4 0 ++ le 4 0, [])].all
    (fun x => (as (Option { l : List (BitVec 32) // l.length ≤ 2 }) (readerOutput (.arrayVecU32 2) "'<U2'" x.1)).map (·.1) == some x.2) = true := by
  decide +kernel
example : [(le 4 1 ++ le 4 3, "\x01\x03"), (le 4 1 ++ le 4 0, "\x01"), (le 4 0 ++ le 4 0, "")].all
    (fun x => (as (Option { l : Text // l.length ≤ 2 }) (readerOutput (.arrayVecChar 2) "'<U2'" x.1)).map (·.1) == some x.2.toList) = true := by
  decide +kernel
example : [([1, 3], "\x01\x03"), ([1, 0], "\x01"), ([0, 0], "")].all
    (fun x => (as (Option { l : Text // (encodeUtf8 l).length ≤ 2 }) (readerOutput (.arrayString 2) "'|S2'" x.1)).map (·.1) == some x.2.toList) = true := by
  decide +kernel
example : [([1, 3], [1, 3]), ([1, 0], [1]), ([0, 0], [])].all
    (fun x => (as (Option (AV 2)) (readerOutput (.arrayVecU8 2) "'|S2'" x.1)).map (·.1) == some x.2) = true := by decide +kernel
example : [[1, 3], [1, 0], [0, 0]].all (fun x => (as (Option (AV 2)) (readerOutput (.arrayVecU8 2) "'|V2'" x)).map (·.1) == some x) = true := by
  decide +kernel

/-- Six code points. -/
def six : Bytes := le 4 0 ++ le 4 1 ++ le 4 0 ++ le 4 0 ++ le 4 3 ++ le 4 5

-- `preserve_interior_nuls` (1030-1065)
example : as (Option Bytes) (readerOutput .vecU8 "'|S6'" [0, 1, 0, 0, 3, 5]) = some [0, 1, 0, 0, 3, 5] ∧
    writerOutput .vecU8 "'|S6'" ([0, 1, 0, 0, 3, 5] : Bytes) = some [0, 1, 0, 0, 3, 5] := by decide +kernel
example : as (Option (List (BitVec 32))) (readerOutput .vecU32 "'<U6'" six) = some [0, 1, 0, 0, 3, 5] ∧
    writerOutput .vecU32 "'<U6'" ([0, 1, 0, 0, 3, 5] : List (BitVec 32)) = some six := by decide +kernel
example : as (Option Text) (readerOutput .vecChar "'<U6'" six) = some "\x00\x01\x00\x00\x03\x05".toList ∧
    writerOutput .vecChar "'<U6'" "\x00\x01\x00\x00\x03\x05".toList = some six := by decide +kernel
example : as (Option Text) (readerOutput .string "'<U6'" six) = some "\x00\x01\x00\x00\x03\x05".toList ∧
    writerOutput .string "'<U6'" "\x00\x01\x00\x00\x03\x05".toList = some six := by decide +kernel
example : as (Option Text) (readerOutput .string "'|S6'" [0, 1, 0, 0, 3, 5]) = some "\x00\x01\x00\x00\x03\x05".toList ∧
    writerOutput .string "'|S6'" "\x00\x01\x00\x00\x03\x05".toList = some [0, 1, 0, 0, 3, 5] := by decide +kernel

/-- Five code points. -/
def five : Bytes := le 4 1 ++ le 4 3 ++ le 4 5 ++ le 4 7 ++ le 4 9

-- `arrayvec_truncated_reading` (1069-1081)
example : as (Option { l : List (BitVec 32) // l.length ≤ 2 }) (readerOutput (.arrayVecU32 2) "'<U5'" five) = some ⟨[1, 3], by decide⟩ := by decide +kernel
example : (as (Option { l : Text // l.length ≤ 2 }) (readerOutput (.arrayVecChar 2) "'<U5'" five)).map (·.1) = some "\x01\x03".toList := by decide +kernel
example : (as (Option { l : Text // (encodeUtf8 l).length ≤ 2 }) (readerOutput (.arrayString 2) "'|S5'" [1, 3, 5, 7, 9])).map (·.1) = some "\x01\x03".toList := by
  decide +kernel
example : (as (Option (AV 2)) (readerOutput (.arrayVecU8 2) "'|S5'" [1, 3, 5, 7, 9])).map (·.1) = some [1, 3] := by decide +kernel

-- `arrayvec_no_array_string_from_u` (1085-1092)
example : readerExpectOk (.arrayString 50) "'|S6'" = true ∧ readerExpectErr (.arrayString 50) "'<U6'" = true ∧
    writerExpectOk (.arrayString 50) "'|S6'" = true ∧ writerExpectOk (.arrayString 50) "'<U6'" = true := by decide +kernel

/-- `"abはe".as_bytes()`. -/
def abhae : Bytes := [0x61, 0x62, 0xE3, 0x81, 0xAF, 0x65]

-- `arrayvec_truncated_in_middle_of_utf8_char` (1096-1111)
example : abhae = encodeUtf8 "abはe".toList := by decide +kernel
example : [(2, "ab"), (3, "ab"), (4, "ab"), (5, "abは")].all (fun x =>
    (as (Option { l : Text // (encodeUtf8 l).length ≤ x.1 }) (readerOutput (.arrayString x.1) "'|S6'" abhae)).map (·.1) == some x.2.toList) = true := by
  decide +kernel
example : [2, 3, 4, 5].all (fun n => (as (Option (AV n)) (readerOutput (.arrayVecU8 n) "'|S6'" abhae)).map (·.1) == some (abhae.take n)) = true := by
  decide +kernel

-- `reading_invalid_utf32_or_utf8` (1139-1159), `arrayvec_reading_invalid_utf32_or_utf8` (1163-1173)
example : [Ty.vecU32, .vecChar, .string, .arrayVecU32 1, .arrayVecChar 1].all (fun t => readOk t "'<U1'" (le 4 0x10FFFF) &&
    readErr t "'<U1'" (le 4 0x110000) && readErr t "'<U1'" (le 4 0x110001)) = true := by decide +kernel
example : [Ty.vecU32, .arrayVecU32 1].all (fun t => readOk t "'<U1'" (le 4 0xD805)) = true := by decide +kernel
example : [Ty.vecChar, .string, .arrayVecChar 1].all (fun t => readErr t "'<U1'" (le 4 0xD805)) = true := by decide +kernel
example : [Ty.string, .arrayString 3].all (fun t => readErr t "'|S3'" [0xFF, 0x00, 0x01]) = true := by decide +kernel

-- `writing_invalid_utf32` (1176-1182)
example : (writerOutput .vecU32 "'<U1'" ([0x10FFFF] : List (BitVec 32))).isSome = true ∧ writeErr .vecU32 "'<U1'" ([0x110000] : List (BitVec 32)) = true ∧
    writeErr .vecU32 "'<U1'" ([0x110001] : List (BitVec 32)) = true ∧ (writerOutput .vecU32 "'<U1'" ([0xD805] : List (BitVec 32))).isSome = true := by
  decide +kernel

/-! ### tests/serialize_array.rs -/

/-- `struct Array3 { field: [i32; 3] }`. -/
def array3 : Ty := .record (.cons "field".toList (.array 3 (.num .i32)) .nil)

/-- `struct Array23 { field: [[i32; 3]; 2] }`. -/
def array23 : Ty := .record (.cons "field".toList (.array 2 (.array 3 (.num .i32))) .nil)

abbrev Arr (α : Type) (n : Nat) := { l : List α // l.length = n }

def v3 : Arr (BitVec 32) 3 × Unit := (⟨[1, 3, 5], rfl⟩, ())
def v23 : Arr (Arr (BitVec 32) 3) 2 × Unit := (⟨[⟨[1, 3, 5], rfl⟩, ⟨[7, 9, 11], rfl⟩], rfl⟩, ())

-- `read_write`, `read_write_explicit_dtype`, `read_write_nested` (57-99)
example : as (Option (Arr (BitVec 32) 3 × Unit)) (readerOutput array3 "[('field', '<i4', (3,))]" (le 4 1 ++ le 4 3 ++ le 4 5)) = some v3 ∧
    writerOutput array3 "[('field', '<i4', (3,))]" v3 = some (le 4 1 ++ le 4 3 ++ le 4 5) ∧
    readerExpectErr array23 "[('field', '<i4', (3,))]" = true ∧ writerExpectErr array23 "[('field', '<i4', (3,))]" = true := by decide +kernel
example : as (Option (Arr (Arr (BitVec 32) 3) 2 × Unit)) (readerOutput array23 "[('field', '<i4', (2, 3))]" ([1, 3, 5, 7, 9, 11].flatMap (le 4))) = some v23 ∧
    writerOutput array23 "[('field', '<i4', (2, 3))]" v23 = some ([1, 3, 5, 7, 9, 11].flatMap (le 4)) ∧
    readerExpectErr array3 "[('field', '<i4', (2, 3))]" = true ∧ writerExpectErr array3 "[('field', '<i4', (2, 3))]" = true := by decide +kernel

-- `incompatible` (102-117)
example : ["[('field', '<i4', (2,))]", "[('field', '<i4')]", "[('field', [('lol', '<i4')])]"].all
    (fun s => readerExpectErr array3 s && writerExpectErr array3 s) = true := by decide +kernel

-- `default_dtype` (120-143)
example : array3.defaultDType M = some (.ok (rec [("field", .array 3 (plain "<i4"))])) := by decide +kernel
example : array23.defaultDType M = some (.ok (rec [("field", .array 2 (.array 3 (plain "<i4")))])) := by decide +kernel
example : array3.defaultDType ⟨true, 64, true⟩ = some (.ok (rec [("field", .array 3 (plain ">i4"))])) := by decide +kernel

/-- `struct CloseTheGap { left: i64, middle: [[[i32; 3]; 0]; 2], right: i32 }`. -/
def closeTheGap : Ty := .record (.cons "left".toList (.num .i64)
  (.cons "middle".toList (.array 2 (.array 0 (.array 3 (.num .i32)))) (.cons "right".toList (.num .i32) .nil)))

def gap : BitVec 64 × Arr (Arr (Arr (BitVec 32) 3) 0) 2 × BitVec 32 × Unit := (12, ⟨[⟨[], rfl⟩, ⟨[], rfl⟩], rfl⟩, 5, ())

-- `zero_len::read_write` (160-171)
example : defaultDescr M closeTheGap = some "[('left', '<i8'), ('middle', '<i4', (2,0,3,)), ('right', '<i4'), ]".toList := by decide +kernel
set_option synthInstance.maxSize 2000 in
example : as (Option (BitVec 64 × Arr (Arr (Arr (BitVec 32) 3) 0) 2 × BitVec 32 × Unit))
    (readerOutput closeTheGap "[('left', '<i8'), ('middle', '<i4', (2,0,3,)), ('right', '<i4'), ]" (le 8 12 ++ le 4 5)) = some gap := by
  decide +kernel
example : writerOutput closeTheGap "[('left', '<i8'), ('middle', '<i4', (2,0,3,)), ('right', '<i4'), ]" gap = some (le 8 12 ++ le 4 5) := by
  decide +kernel

end Npyz.Conformance
