import Verif.Model.TypeStr
import Verif.Model.Utf8
import Verif.Model.Py
import Verif.Model.IO
/-!
Model of `/repo/src/header.rs` and of `NpyHeader` in `/repo/src/read.rs`.
-/
namespace Npyz

mutual
/-- header.rs 14-41 `enum DType`. -/
inductive DType where
  | plain (t : TypeStr)
  | array (len : Nat) (elem : DType)
  | record (fields : Fields)
/-- header.rs 43-51 `Vec<Field>`, as a list of name/dtype pairs. -/
inductive Fields where
  | nil
  | cons (name : Text) (dtype : DType) (rest : Fields)
end

/-! ### Printing -/

/-- `str::replace` with a one-character pattern. -/
def replaceChar (c : Char) (by_ : Text) (s : Text) : Text :=
  s.flatMap fun x => if x = c then by_ else [x]

/-- header.rs 318-330 `Display for PyUtf8StringLiteral`. -/
def pyQuote (name : Text) : Text :=
  ['\''] ++ replaceChar '\n' ['\\', 'n'] (replaceChar '\r' ['\\', 'r']
    (replaceChar '\'' ['\\', '\''] (replaceChar '\\' ['\\', '\\'] name))) ++ ['\'']

/-- header.rs 61 `format!("'{}'", ty)`. -/
def plainDescr (t : TypeStr) : Text := ['\''] ++ t.display ++ ['\'']

/-- header.rs 75: wrap the concatenated fields in brackets. -/
def bracket (fields : Text) : Text := ['['] ++ fields ++ [']']

/-- header.rs 72 `shape.iter().fold(String::new(), |o, n| o + &format!("{},", n))`. -/
def dimsText (shape : List Nat) : Text := shape.flatMap fun n => Nat.toDigits 10 n ++ [',']

/-- header.rs 196-203 `extract_full_array_shape`, shape part. -/
def DType.dims : DType → List Nat
  | .array n d => n :: d.dims
  | _ => []

/-- header.rs 196-203 `extract_full_array_shape`, element part. -/
def DType.elem : DType → DType
  | .array _ d => d.elem
  | d => d

mutual
/-- header.rs 58-81 `DType::descr`. -/
def DType.descr : DType → Text
  | .plain t => plainDescr t
  | .record fs => bracket fs.descr
  | .array n d => txt "<< array " ++ Nat.toDigits 10 n ++ txt " of " ++ d.descr ++ txt " >>"

/-- `elem_ty.descr()` of header.rs 73, where `elem_ty` is the innermost element of an array dtype;
`Proofs/Header.lean` shows it equals `d.elem.descr`. -/
def DType.elemDescr : DType → Text
  | .plain t => plainDescr t
  | .record fs => bracket fs.descr
  | .array _ d => d.elemDescr

/-- header.rs 63-75: the concatenated fields of a record. -/
def Fields.descr : Fields → Text
  | .nil => []
  | .cons name (.array n d) rest =>
    (txt "(" ++ pyQuote name ++ txt ", " ++ d.elemDescr ++ txt ", (" ++ dimsText (n :: d.dims) ++ txt ")), ")
      ++ rest.descr
  | .cons name d rest => (txt "(" ++ pyQuote name ++ txt ", " ++ d.descr ++ txt "), ") ++ rest.descr
end

/-! ### Interpreting a parsed description -/

/-- header.rs 182-194 `convert_value_to_shape_integer`. -/
def shapeInteger : PyVal → Res Nat
  | .int n =>
    if n < 0 then .err (.invalidData "dimension cannot be negative")
    else if n.toNat < u64Lim then .ok n.toNat
    else .err (.invalidData "dimension cannot be larger than u64")
  | _ => .err (.invalidData "dimension must be an integer")

/-- `iter().map(convert_value_to_shape_integer).collect()`: the first error wins. -/
def shapeIntegers : List PyVal → Res (List Nat)
  | [] => .ok []
  | v :: vs => do
    let n ← shapeInteger v
    let ns ← shapeIntegers vs
    .ok (n :: ns)

/-- header.rs 205-209 `convert_value_to_shape` (with `convert_value_to_sequence`, 174-180). -/
def convertShape : PyVal → Res (List Nat)
  | .list vs => shapeIntegers vs
  | .tuple vs => shapeIntegers vs
  | _ => .err (.invalidData "shape must be list or tuple")

/-- header.rs 211-216 `convert_string_to_type_str`: formatting the error runs its `Display`. -/
def convertTypeStr (s : Text) : Res TypeStr :=
  match TypeStr.parse s with
  | .ok t => .ok t
  | .err e =>
    match e.message with
    | .ok _ => .err (.invalidData "invalid type string")
    | _ => .panic
  | .panic => .panic

/-- header.rs 166-169: wrap the element dtype; dimensions are popped from the back, so the first
dimension ends up outermost. -/
def wrapDims (shape : List Nat) (d : DType) : DType := shape.foldr DType.array d

/-- header.rs 157-161: the field name. -/
def fieldName : PyVal → Res Text
  | .str s => .ok s
  | _ => .err (.invalidData "list entry must contain a string for id")

mutual
/-- header.rs 84-91 `DType::from_descr`. -/
def DType.fromDescr : PyVal → Res DType
  | .str s => do
    let t ← convertTypeStr s
    .ok (.plain t)
  | .list vs => do
    let fs ← Fields.fromList vs
    .ok (.record fs)
  | _ => .err (.invalidData "must be string or list")

/-- header.rs 143-151 `convert_list_to_record_fields`; `collect` stops at the first error. -/
def Fields.fromList : List PyVal → Res Fields
  | [] => .ok .nil
  | v :: vs => do
    let f ← fieldFromVal v
    let fs ← Fields.fromList vs
    .ok (.cons f.1 f.2 fs)

/-- header.rs 145-149: a field is a list or a tuple. -/
def fieldFromVal : PyVal → Res (Text × DType)
  | .list t => fieldFromTuple t
  | .tuple t => fieldFromTuple t
  | _ => .err (.invalidData "list must contain list or tuple")

/-- header.rs 153-172 `convert_tuple_to_record_field`. -/
def fieldFromTuple : List PyVal → Res (Text × DType)
  | [n, d] => do
    let name ← fieldName n
    let dtype ← DType.fromDescr d
    .ok (name, dtype)
  | [n, d, s] => do
    let name ← fieldName n
    let dtype ← DType.fromDescr d
    let shape ← convertShape s
    .ok (name, wrapDims shape dtype)
  | _ => .err (.invalidData "list entry must contain 2 or 3 items")
end

/-! ### Sizes -/

/-- `Option<usize>` `checked_mul`, `checked_add`. -/
def Machine.checked (M : Machine) (n : Nat) : Option Nat := if n < M.usizeLim then some n else none

mutual
/-- header.rs 117-126 `DType::num_bytes`. -/
def DType.numBytes (M : Machine) : DType → Option Nat
  | .plain t => t.numBytes M
  | .array n d => do
    let inner ← d.numBytes M
    let n ← M.checked n
    M.checked (inner * n)
  | .record fs => fs.numBytesFrom M (some 0)

/-- header.rs 121-124: the fold over the fields. -/
def Fields.numBytesFrom (M : Machine) (acc : Option Nat) : Fields → Option Nat
  | .nil => acc
  | .cons _ d rest => rest.numBytesFrom M (do
      let a ← acc
      let b ← d.numBytes M
      M.checked (a + b))
end

mutual
/-- header.rs 134-140 `DType::uses_pickled_array`. -/
def DType.usesPickled : DType → Bool
  | .plain t => t.usesPickledArray
  | .array _ d => d.usesPickled
  | .record fs => fs.usesPickled
/-- header.rs 138 `fields.iter().any(..)`. -/
def Fields.usesPickled : Fields → Bool
  | .nil => false
  | .cons _ d rest => d.usesPickled || rest.usesPickled
end

/-! ### The preamble -/

/-- header.rs 276-277 `HeaderSizeType`. -/
inductive HeaderSizeType where
  | u16 | u32
deriving DecidableEq, Repr

/-- header.rs 279-288 `HeaderEncoding`. -/
inductive HeaderEncoding where
  | ascii | utf8
deriving DecidableEq, Repr

/-- header.rs 289-293 `VersionProps`. -/
structure VersionProps where
  sizeType : HeaderSizeType
  encoding : HeaderEncoding
deriving DecidableEq, Repr

/-- header.rs 295-300 `bytes_before_text`. -/
def VersionProps.bytesBeforeText (p : VersionProps) : Nat :=
  match p.sizeType with
  | .u16 => 10
  | .u32 => 12

/-- header.rs 303-312 `get_version_props`. -/
def getVersionProps (major minor : UInt8) : Res VersionProps :=
  if major = 1 ∧ minor = 0 then .ok ⟨.u16, .ascii⟩
  else if major = 2 ∧ minor = 0 then .ok ⟨.u32, .ascii⟩
  else if major = 3 ∧ minor = 0 then .ok ⟨.u32, .utf8⟩
  else .err (.invalidData "unsupported version")

/-- header.rs 332-340 `get_minimal_version`. -/
def getMinimalVersion (p : VersionProps) : UInt8 × UInt8 :=
  if p.encoding = .utf8 then (3, 0)
  else if p.sizeType = .u32 then (2, 0)
  else (1, 0)

/-- The magic string `\x93NUMPY`, header.rs 270. -/
def magic : Bytes := [0x93, 0x4E, 0x55, 0x4D, 0x50, 0x59]

/-- header.rs 262 `magic_err`. -/
def magicErr : Err := .invalidData "magic not found for NPY file"

/-- header.rs 261-274 `read_magic_and_version`. -/
def readMagicAndVersion : RProg (UInt8 × UInt8) :=
  .read 8 magicErr fun buf =>
    if buf.take 6 = magic then .ret (.ok (buf.getD 6 0, buf.getD 7 0))
    else .ret (.err magicErr)

/-- Little-endian value of a byte string (`read_u16::<LittleEndian>`, `read_u32::<LittleEndian>`). -/
def leNat : Bytes → Nat
  | [] => 0
  | b :: bs => b.toNat + 256 * leNat bs

/-- header.rs 253-256: the header length field. -/
def readHeaderSize (p : VersionProps) : RProg Nat := do
  let b ← RProg.readExact (match p.sizeType with | .u16 => 2 | .u32 => 4)
  pure (leNat b)

/-- header.rs 234-237: strip one trailing newline. -/
def stripNewline (bytes : Bytes) : Bytes :=
  if bytes.getLast? = some 10 then bytes.dropLast else bytes

/-- header.rs 240-241: the error of the literal parser. -/
def parseResult : Option PyVal → Res PyVal
  | none => .err (.invalidData "could not parse Python expression")
  | some v => .ok v

/-- header.rs 233-242 `parse_header_text_to_io_result`. -/
def parseHeaderText (py : PyParser) (bytes : Bytes) : Res PyVal :=
  match decodeUtf8 (stripNewline bytes) with
  | none => .err (.invalidData "could not parse utf-8")
  | some s => parseResult (py s)

/-- header.rs 222-231 `read_header` with `read_pre_header` 249-259. -/
def readHeader (M : Machine) (py : PyParser) : RProg PyVal := do
  let v ← readMagicAndVersion
  let p ← RProg.lift (getVersionProps v.1 v.2)
  let size ← readHeaderSize p
  RProg.lift (M.allocBytes size)
  let text ← RProg.readExact size
  RProg.lift (parseHeaderText py text)

/-- header.rs 95-98 `DType::parse`. -/
def DType.parse (py : PyParser) (source : Text) : Res DType := do
  let v ← parseHeaderText py (encodeUtf8 source)
  DType.fromDescr v

/-! ### `NpyHeader` (read.rs) -/

/-- read.rs 199-206 `enum Order`. -/
inductive Order where
  | c | fortran
deriving DecidableEq, Repr

/-- read.rs 153-164 `struct NpyHeader`. -/
structure NpyHeader where
  dtype : DType
  shape : List Nat
  strides : List Nat
  order : Order
  nRecords : Nat
  itemSize : Option Nat
  usesPickled : Bool

/-- `shape.iter().product()` for `u64`: a left fold of `*` starting from 1. -/
def shapeProduct (M : Machine) : Nat → List Nat → Res Nat
  | acc, [] => .ok acc
  | acc, x :: xs => do
    let a ← M.mulU64 acc x
    shapeProduct M a xs

/-- read.rs 548-550 `prefix_products`, starting from the accumulator `acc`. -/
def prefixProducts (M : Machine) : Nat → List Nat → Res (List Nat)
  | _, [] => .ok []
  | acc, x :: xs => do
    let a ← M.mulU64 acc x
    let r ← prefixProducts M a xs
    .ok (acc :: r)

/-- read.rs 537-546 `strides`. -/
def computeStrides (M : Machine) (order : Order) (shape : List Nat) : Res (List Nat) :=
  match order with
  | .c => do
    let s ← prefixProducts M 1 shape.reverse
    .ok s.reverse
  | .fortran => prefixProducts M 1 shape

/-- read.rs 371-377: the item size. -/
def itemSizeOf (M : Machine) (dtype : DType) : Res (Option Nat) :=
  if dtype.usesPickled then .ok none
  else
    match dtype.numBytes M with
    | some n => .ok (some n)
    | none => .err (.invalidData "dtype is larger than usize!")

/-- read.rs 368-380 `NpyHeader::from_parts`. -/
def NpyHeader.fromParts (M : Machine) (dtype : DType) (shape : List Nat) (order : Order) : Res NpyHeader := do
  let nRecords ← shapeProduct M 1 shape
  let itemSize ← itemSizeOf M dtype
  let strides ← computeStrides M order shape
  .ok { dtype, shape, strides, order, nRecords, itemSize, usesPickled := dtype.usesPickled }

/-- read.rs 343-347: all keys must be strings; the first offender is the error. -/
def stringKeys : List (PyVal × PyVal) → Res (List (Text × PyVal))
  | [] => .ok []
  | (.str k, v) :: kvs => do
    let r ← stringKeys kvs
    .ok ((k, v) :: r)
  | _ :: _ => .err (.invalidData "key is not string")

/-- Lookup in a `HashMap` collected from an iterator: the last entry with the key wins. -/
def lookupLast (k : Text) : List (Text × PyVal) → Option PyVal
  | [] => none
  | (k', v) :: kvs =>
    match lookupLast k kvs with
    | some w => some w
    | none => if k' = k then some v else none

/-- read.rs 350-352 `expect_key`. -/
def expectKey (d : List (Text × PyVal)) (k : Text) : Res PyVal :=
  match lookupLast k d with
  | some v => .ok v
  | none => .err (.invalidData "dict is missing key")

/-- read.rs 354-357: the `fortran_order` entry (`Order::from_fortran_order` 209-211). -/
def orderFromVal : PyVal → Res Order
  | .bool b => .ok (if b then .fortran else .c)
  | _ => .err (.invalidData "'fortran_order' value is not a bool")

/-- read.rs 354-365: interpret the collected dict. -/
def interpretDict (M : Machine) (d : List (Text × PyVal)) : Res NpyHeader := do
  let fo ← expectKey d (txt "fortran_order")
  let order ← orderFromVal fo
  let sh ← expectKey d (txt "shape")
  let shape ← convertShape sh
  let de ← expectKey d (txt "descr")
  let dtype ← DType.fromDescr de
  NpyHeader.fromParts M dtype shape order

/-- read.rs 342-365: interpret the header literal. -/
def interpretHeader (M : Machine) : PyVal → Res NpyHeader
  | .dict kvs => do
    let d ← stringKeys kvs
    interpretDict M d
  | _ => .err (.invalidData "expected a python dict literal")

/-- read.rs 340-366 `NpyHeader::read_and_interpret` (= `NpyHeader::from_reader` 172-174, and the
header part of `NpyFile::new` 216-219). -/
def NpyHeader.fromReader (M : Machine) (py : PyParser) : RProg NpyHeader := do
  let v ← readHeader M py
  RProg.lift (interpretHeader M v)

end Npyz
