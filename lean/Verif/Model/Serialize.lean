import Verif.Model.Header
import Verif.Model.Write
/-!
Model of `/repo/src/serialize/*.rs` and of the code generated by `/repo/derive/src/lib.rs`: the Rust
types that can be array elements, their in-memory values, and the readers and writers obtained from
a dtype.

Traits are modelled by a universe of type codes `Ty`: `Ty.reader`, `Ty.writer`, `Ty.defaultDType`
are `Deserialize::reader`, `Serialize::writer`, `AutoSerialize::default_dtype`.  The unsized types
`[u8]`, `[u32]`, `[char]`, `str` have the writers of `Vec<u8>`, `Vec<u32>`, `Vec<char>`, `String`
(slice.rs 789-792), and `&T`, `&mut T`, `Box<T>`, `Rc<T>`, `Arc<T>`, `Cow<T>` the writer and default
dtype of `T` (traits.rs 365-376); they have no codes of their own.  `TypeReadDyn`/`TypeWriteDyn`
(traits.rs 141-191) only forward.  Optional features (`half`, `complex`, `arrayvec`, `derive`) are on.
-/
namespace Npyz

/-- The numeric primitives of primitive.rs 220-244 (`bool` is separate).  Values are bit patterns:
two's complement for signed integers, `to_bits` for floats. -/
inductive Prim where
  | i8 | i16 | i32 | i64 | u8 | u16 | u32 | u64 | f16 | f32 | f64
deriving DecidableEq, Repr

/-- primitive.rs 220-244: `$size`. -/
def Prim.size : Prim → Nat
  | .i8 | .u8 => 1
  | .i16 | .u16 | .f16 => 2
  | .i32 | .u32 | .f32 => 4
  | .i64 | .u64 | .f64 => 8

/-- primitive.rs 220-244: `$MainTy`. -/
def Prim.mainTy : Prim → TypeChar
  | .i8 | .i16 | .i32 | .i64 => .int
  | .u8 | .u16 | .u32 | .u64 => .uint
  | .f16 | .f32 | .f64 => .float

/-- primitive.rs 220-244: the pattern `$SupportTy`. -/
def Prim.supports : Prim → TypeChar → Bool
  | .i64, c => c == .int || c == .timeDelta || c == .dateTime
  | p, c => c == p.mainTy

/-- Component types of `Complex` (primitive.rs 297). -/
inductive FloatTy where
  | f32 | f64
deriving DecidableEq, Repr

/-- primitive.rs 297. -/
def FloatTy.size : FloatTy → Nat
  | .f32 => 4
  | .f64 => 8

mutual
/-- Codes of the Rust types with a `Serialize`/`Deserialize` implementation. -/
inductive Ty where
  | num (p : Prim)
  | bool
  | complex (f : FloatTy)
  | vecU8
  | arrayVecU8 (cap : Nat)
  | fixedBytes (n : Nat)
  | vecU32
  | vecChar
  | string
  | arrayVecU32 (cap : Nat)
  | arrayVecChar (cap : Nat)
  | arrayString (cap : Nat)
  | array (n : Nat) (t : Ty)
  | record (fs : TFields)
/-- The fields of a struct with derived implementations, in declaration order; names without `r#`
(`unraw`, derive/src/lib.rs 276-278). -/
inductive TFields where
  | nil
  | cons (name : Text) (t : Ty) (rest : TFields)
end

/-- Words of `w` bytes. -/
abbrev Word (w : Nat) := BitVec (8 * w)

mutual
/-- The values of a type. -/
def Ty.Val : Ty → Type
  | .num p => Word p.size
  | .bool => Bool
  | .complex f => Word f.size × Word f.size
  | .vecU8 => Bytes
  | .arrayVecU8 cap => { l : Bytes // l.length ≤ cap }
  | .fixedBytes n => { l : Bytes // l.length = n }
  | .vecU32 => List (Word 4)
  | .vecChar => Text
  | .string => Text
  | .arrayVecU32 cap => { l : List (Word 4) // l.length ≤ cap }
  | .arrayVecChar cap => { l : Text // l.length ≤ cap }
  | .arrayString cap => { l : Text // (encodeUtf8 l).length ≤ cap }
  | .array n t => { l : List t.Val // l.length = n }
  | .record fs => fs.Val
/-- The values of a struct: the tuple of its fields. -/
def TFields.Val : TFields → Type
  | .nil => Unit
  | .cons _ t rest => t.Val × rest.Val
end

/-- traits.rs 201-229 `ErrorKind`.  Simplified: the name of the Rust type (`std::any::type_name`) and
the verb ("read"/"write") are left out of the payloads, and are arguments of `message` instead; `Custom` is
not produced by the crate. -/
inductive DTypeErr where
  | expectedScalar (dtype : Text)
  | expectedArray (got : Text)
  | wrongArrayLen (expected actual : Nat)
  | expectedRecord (dtype : Text)
  | wrongFields (expected actual : List Text)
  | badScalar (typeStr : TypeStr)
  | usizeOverflow (x : Nat)
  | requiresPickle
deriving DecidableEq, Repr

/-- `{:?}` of a `String`.  Exact for printable ASCII; simplified for the rest, which Rust may escape as
`\\n`, `\\u{..}`. -/
def debugStr (s : Text) : Text :=
  txt "\"" ++ s.flatMap (fun c => if c = '"' ∨ c = '\\' then ['\\', c] else [c]) ++ txt "\""

/-- `{:?}` of a `Vec<String>`. -/
def debugStrs (l : List Text) : Text := txt "[" ++ commaSep (l.map debugStr) ++ txt "]"

/-- traits.rs 273-308 `Display for DTypeError`. -/
def DTypeErr.message (verb rustType : Text) : DTypeErr → Text
  | .expectedScalar dtype => txt "type " ++ rustType ++ txt " requires a scalar (string) dtype, not " ++ dtype
  | .expectedRecord dtype => txt "expected a record type; got " ++ dtype
  | .expectedArray got => txt "rust array types require an array dtype (got " ++ got ++ txt ")"
  | .wrongArrayLen expected actual =>
    txt "wrong array size (expected " ++ Nat.toDigits 10 expected ++ txt ", got " ++ Nat.toDigits 10 actual ++ txt ")"
  | .wrongFields expected actual =>
    txt "field names do not match (expected " ++ debugStrs expected ++ txt ", got " ++ debugStrs actual ++ txt ")"
  | .badScalar t => txt "cannot " ++ verb ++ txt " type " ++ rustType ++ txt " with type-string '" ++ t.display ++ txt "'"
  | .usizeOverflow x => txt "cannot cast " ++ Nat.toDigits 10 x ++ txt " as usize"
  | .requiresPickle =>
    txt "this dtype uses a pickled array, which npyz's read/write APIs do not currently support"

abbrev DRes (α : Type u) := Out DTypeErr α

/-! ### Machine words -/

/-- `from_ne_bytes`. -/
def fromNe (M : Machine) (w : Nat) (buf : Bytes) : Word w :=
  BitVec.ofNat _ (leNat (if M.bigEndian then buf.reverse else buf))

/-- `to_ne_bytes`. -/
def toNe (M : Machine) {w : Nat} (x : Word w) : Bytes :=
  if M.bigEndian then (leBytes w x.toNat).reverse else leBytes w x.toNat

/-- `swap_bytes`. -/
def swapBytes {w : Nat} (x : Word w) : Word w := BitVec.ofNat _ (leNat (leBytes w x.toNat).reverse)

/-- primitive.rs 28-39, 60-63 `primitive_read_one` (floats go through the unsigned integer of the
same size, `from_bits` is the identity on bit patterns). -/
def readWord (M : Machine) (w : Nat) (swap : Bool) : RProg (Word w) := do
  let buf ← RProg.readExact w
  pure (if swap then swapBytes (fromNe M w buf) else fromNe M w buf)

/-- primitive.rs 42-51, 66-68 `primitive_write_one`. -/
def writeWord (M : Machine) {w : Nat} (swap : Bool) (x : Word w) : WProg Unit :=
  WProg.put (toNe M (if swap then swapBytes x else x))

/-- primitive.rs 110-124 `PrimitiveReader::new`, `PrimitiveWriter::new`. -/
def swapFor (M : Machine) (e : Endianness) : Bool := e.requiresSwap (.ofMachine M)

/-- primitive.rs 81-88. -/
def boolOfByte (b : UInt8) : Res Bool :=
  if b.toNat ≥ 2 then .err (.invalidData "invalid value for bool") else .ok (b.toNat != 0)

/-- primitive.rs 81-88: `read_exact` into a one-byte buffer. -/
def readBool : RProg Bool := do
  let buf ← RProg.readExact 1
  RProg.lift (boolOfByte (buf.headD 0))

/-- primitive.rs 90-92. -/
def writeBool (b : Bool) : WProg Unit := WProg.put [if b then 1 else 0]

/-- primitive.rs 157-161. -/
def readComplex (M : Machine) (w : Nat) (swap : Bool) : RProg (Word w × Word w) := do
  let re ← readWord M w swap
  let im ← readWord M w swap
  pure (re, im)

/-- primitive.rs 169-173. -/
def writeComplex (M : Machine) {w : Nat} (swap : Bool) (x : Word w × Word w) : WProg Unit := do
  writeWord M swap x.1
  writeWord M swap x.2

/-! ### Sequences -/

/-- Read `n` values one after the other (array_member.rs 35-42, slice.rs 349-351, 377-379, 393-398). -/
def readMany {α : Type} (p : RProg α) : (n : Nat) → RProg { l : List α // l.length = n }
  | 0 => pure ⟨[], rfl⟩
  | n + 1 => do
    let x ← p
    let xs ← readMany p n
    pure ⟨x :: xs.1, by simp [xs.2]⟩

/-- Write values one after the other (array_member.rs 54-57). -/
def writeMany {α : Type} (w : α → WProg Unit) : List α → WProg Unit
  | [] => pure ()
  | x :: xs => do
    w x
    writeMany w xs

/-- `iter().rposition(p)`: index of the last element satisfying `p`. -/
def rposition {α : Type} (p : α → Bool) : List α → Option Nat
  | [] => none
  | x :: xs =>
    match rposition p xs with
    | some i => some (i + 1)
    | none => if p x then some 0 else none

/-- slice.rs 774-777 `truncate_trailing_nuls` (and 780-783). -/
def truncateNuls {α : Type} (isNull : α → Bool) (l : List α) : List α :=
  l.take (match rposition (fun x => !isNull x) l with | some i => i + 1 | none => 0)

/-- slice.rs 380-382: pop trailing NULs off a string. -/
def popNuls (s : Text) : Text :=
  match h : s.getLast? with
  | none => s
  | some c => if c = '\x00' then popNuls s.dropLast else s
termination_by s.length
decreasing_by
  cases s with
  | nil => simp at h
  | cons => simp

/-- slice.rs 449-451: pop characters until at most `n` bytes are left. -/
def popToBytes (n : Nat) (s : Text) : Text :=
  if n < (encodeUtf8 s).length then popToBytes n s.dropLast else s
termination_by s.length
decreasing_by
  cases s with
  | nil => simp [encodeUtf8] at *
  | cons => simp

/-! ### Byte strings -/

/-- slice.rs 142 `ByteVecDTypeInfo`, without the type string kept for messages (`checkArrayByteVec` takes it
from the dtype, where it came from). -/
structure ByteInfo where
  size : Nat
  isByteStr : Bool
deriving DecidableEq, Repr

/-- serialize/mod.rs 29-35 `expect_scalar_dtype`. -/
def expectScalar : DType → DRes TypeStr
  | .plain t => .ok t
  | d => .err (.expectedScalar d.descr)

/-- slice.rs 770-772 `size_field_as_usize`. -/
def sizeAsUsize (M : Machine) (t : TypeStr) : DRes Nat :=
  if t.size < M.usizeLim then .ok t.size else .err (.usizeOverflow t.size)

/-- slice.rs 146-150. -/
def isByteStr (t : TypeStr) : DRes Bool :=
  match t.typeChar with
  | .byteStr => .ok true
  | .rawData => .ok false
  | _ => .err (.badScalar t)

/-- slice.rs 143-152 `check_byte_vec_dtype`. -/
def checkByteVec (M : Machine) (d : DType) : DRes ByteInfo := do
  let t ← expectScalar d
  let size ← sizeAsUsize M t
  let isStr ← isByteStr t
  .ok ⟨size, isStr⟩

/-- slice.rs 155-162 `check_array_byte_vec_dtype`. -/
def checkArrayByteVec (M : Machine) (cap : Nat) (d : DType) : DRes ByteInfo := do
  let info ← checkByteVec M d
  let t ← expectScalar d
  if info.isByteStr = false ∧ cap < info.size then .err (.badScalar t) else .ok info

/-- `x == 0` for bytes. -/
def byteIsNul (b : UInt8) : Bool := b == 0

/-- slice.rs 23-32 `BytesReader::read_one`. -/
def readBytes (M : Machine) (info : ByteInfo) : RProg Bytes := do
  RProg.lift (M.allocBytes info.size)
  let vec ← RProg.readExact info.size
  pure (if info.isByteStr then truncateNuls byteIsNul vec else vec)

/-- slice.rs 55-59: the length check. -/
def checkLength (info : ByteInfo) (len : Nat) : Res Unit :=
  if info.size < len ∨ (len < info.size ∧ info.isByteStr = false) then .err (.invalidData "bad item length") else .ok ()

/-- slice.rs 52-66 `BytesWriter::write_one`. -/
def writeBytes (M : Machine) (info : ByteInfo) (bytes : Bytes) : WProg Unit := do
  WProg.lift (checkLength info bytes.length)
  WProg.put bytes
  if info.isByteStr then do
    WProg.lift (M.allocBytes (info.size - bytes.length))
    WProg.put (List.replicate (info.size - bytes.length) 0)
  else pure ()

theorem length_truncateNuls_le {α : Type} (p : α → Bool) (l : List α) : (truncateNuls p l).length ≤ l.length := by
  simp [truncateNuls]; omega

/-- slice.rs 90, 96-99: the buffer of `cap` zeros with `head` read into its beginning, and its trimming. -/
def arrayVecOut (cap : Nat) (info : ByteInfo) (head : Bytes) : Bytes :=
  if info.isByteStr then truncateNuls byteIsNul ((head ++ List.replicate (cap - head.length) 0).take cap)
  else (head ++ List.replicate (cap - head.length) 0).take cap

theorem arrayVecOut_length (cap : Nat) (info : ByteInfo) (head : Bytes) : (arrayVecOut cap info head).length ≤ cap := by
  have h1 : ((head ++ List.replicate (cap - head.length) 0).take cap).length ≤ cap := by simp; omega
  have h2 := length_truncateNuls_le byteIsNul ((head ++ List.replicate (cap - head.length) 0).take cap)
  unfold arrayVecOut
  split <;> omega

/-- slice.rs 92-94: skip what does not fit. -/
def skipRest (M : Machine) (cap : Nat) (info : ByteInfo) : RProg Unit :=
  if info.size > cap then do
    RProg.lift (M.allocBytes (info.size - cap))
    let _ ← RProg.readExact (info.size - cap)
    pure ()
  else pure ()

/-- slice.rs 89-102 `ArrayVecBytesReader::read_one`. -/
def readArrayVecBytes (M : Machine) (cap : Nat) (info : ByteInfo) : RProg { l : Bytes // l.length ≤ cap } := do
  let head ← RProg.readExact (min cap info.size)
  let _ ← skipRest M cap info
  pure ⟨arrayVecOut cap info head, arrayVecOut_length cap info head⟩

/-- slice.rs 232-239, 257-264. -/
def checkFixed (M : Machine) (n : Nat) (d : DType) : DRes Unit := do
  let t ← expectScalar d
  let size ← sizeAsUsize M t
  if t.typeChar = .rawData ∧ size = n then .ok () else .err (.badScalar t)

/-- slice.rs 222-226. -/
def readFixed (n : Nat) : RProg { l : Bytes // l.length = n } :=
  RProg.read n .unexpectedEof fun b => if h : b.length = n then RProg.ret (.ok ⟨b, h⟩) else RProg.ret .panic

/-! ### Unicode strings -/

/-- slice.rs 762-768 `validate_type_u_code_unit`. -/
def validateCodeUnit (x : Word 4) : Res (Word 4) :=
  if x.toNat < 0x110000 then .ok x else .err (.invalidData "codepoint is out of range")

/-- slice.rs 327-330 `CodePointReader::read_one`. -/
def readCodePoint (M : Machine) (swap : Bool) : RProg (Word 4) := do
  let x ← readWord M 4 swap
  RProg.lift (validateCodeUnit x)

/-- slice.rs 338: `char::try_from(u32)`. -/
def charOfWord (x : Word 4) : Res Char :=
  match charOfNat? x.toNat with
  | some c => .ok c
  | none => .err (.invalidData "invalid UTF-32 code unit")

/-- slice.rs 336-341 `CharReader::read_one`. -/
def readChar (M : Machine) (swap : Bool) : RProg Char := do
  let x ← readWord M 4 swap
  RProg.lift (charOfWord x)

/-- `char as u32`. -/
def charWord (c : Char) : Word 4 := BitVec.ofNat _ c.toNat

/-- `x == 0` for `u32`. -/
def wordIsNul (x : Word 4) : Bool := x == 0

/-- `x == '\0'`. -/
def charIsNul (c : Char) : Bool := c == '\x00'

/-- slice.rs 347-355 `Utf32WithSurrogatesReader::read_one`. -/
def readVecU32 (M : Machine) (swap : Bool) (n : Nat) : RProg (List (Word 4)) := do
  let l ← readMany (readCodePoint M swap) n
  pure (truncateNuls wordIsNul l.1)

/-- slice.rs 361-369 `Utf32Reader::read_one`. -/
def readVecChar (M : Machine) (swap : Bool) (n : Nat) : RProg Text := do
  let l ← readMany (readChar M swap) n
  pure (truncateNuls charIsNul l.1)

/-- slice.rs 375-384 `Utf32StringReader::read_one`. -/
def readUtf32String (M : Machine) (swap : Bool) (n : Nat) : RProg Text := do
  let l ← readMany (readChar M swap) n
  pure (popNuls l.1)

/-- slice.rs 391-401, 408-418: the first `min(n, cap)` units are kept, the others are read and dropped. -/
def readArrayVec {α : Type} (unit : RProg α) (isNull : α → Bool) (cap n : Nat) : RProg { l : List α // l.length ≤ cap } := do
  let out ← readMany unit (min n cap)
  let _ ← readMany unit (n - cap)
  pure ⟨truncateNuls isNull out.1, by
    have := length_truncateNuls_le isNull out.1
    have := out.2
    omega⟩

/-- slice.rs 426: `String::from_utf8`. -/
def textOfBytes (b : Bytes) : Res Text :=
  match decodeUtf8 b with
  | some t => .ok t
  | none => .err (.invalidData "invalid utf-8")

/-- slice.rs 424-429 `Utf8StringReader::read_one`. -/
def readUtf8String (M : Machine) (info : ByteInfo) : RProg Text := do
  let vec ← readBytes M info
  RProg.lift (textOfBytes vec)

/-- slice.rs 452: `ArrayString::try_from(..).unwrap()`. -/
def toArrayString (cap : Nat) (s : Text) : Res { l : Text // (encodeUtf8 l).length ≤ cap } :=
  if h : (encodeUtf8 s).length ≤ cap then .ok ⟨s, h⟩ else .panic

/-- slice.rs 447-453 `Utf8ArrayStringReader::read_one`. -/
def readArrayString (M : Machine) (cap : Nat) (info : ByteInfo) : RProg { l : Text // (encodeUtf8 l).length ≤ cap } := do
  let s ← readUtf8String M info
  RProg.lift (toArrayString cap (popToBytes cap s))

/-- slice.rs 622-624, 641-643. -/
def checkUnits (n len : Nat) : Res Unit := if n < len then .err (.invalidData "bad item length") else .ok ()

/-- slice.rs 627-628. -/
def writeCodePoint (M : Machine) (swap : Bool) (x : Word 4) : WProg Unit := do
  let y ← WProg.lift (validateCodeUnit x)
  writeWord M swap y

/-- slice.rs 621-634 `Utf32WithSurrogatesWriter::write_one`. -/
def writeVecU32 (M : Machine) (swap : Bool) (n : Nat) (l : List (Word 4)) : WProg Unit := do
  WProg.lift (checkUnits n l.length)
  writeMany (writeCodePoint M swap) l
  writeMany (writeWord M swap) (List.replicate (n - l.length) (0 : Word 4))

/-- slice.rs 640-652 `Utf32Writer::write_one`. -/
def writeVecChar (M : Machine) (swap : Bool) (n : Nat) (l : Text) : WProg Unit := do
  WProg.lift (checkUnits n l.length)
  writeMany (fun c => writeWord M swap (charWord c)) l
  writeMany (writeWord M swap) (List.replicate (n - l.length) (0 : Word 4))

/-- slice.rs 659-669: `used` characters have been written already. -/
def writeStrLoop (M : Machine) (swap : Bool) (n : Nat) : Nat → Text → WProg Unit
  | used, [] => writeMany (writeWord M swap) (List.replicate (n - used) (0 : Word 4))
  | used, c :: cs =>
    if n < used + 1 then WProg.lift (.err (.invalidData "string has too many code units"))
    else do
      writeWord M swap (charWord c)
      writeStrLoop M swap n (used + 1) cs

/-- slice.rs 658-674 `Utf32StrWriter::write_one`. -/
def writeUtf32Str (M : Machine) (swap : Bool) (n : Nat) (s : Text) : WProg Unit := writeStrLoop M swap n 0 s

/-- slice.rs 681-686. -/
def checkStrBytes (n len : Nat) : Res Unit :=
  if n < len then .err (.invalidData "string has too many code units") else .ok ()

/-- slice.rs 680-692 `Utf8StrWriter::write_one`. -/
def writeUtf8Str (M : Machine) (n : Nat) (s : Text) : WProg Unit := do
  WProg.lift (checkStrBytes n (encodeUtf8 s).length)
  WProg.put (encodeUtf8 s)
  if (encodeUtf8 s).length < n then do
    WProg.lift (M.allocBytes (n - (encodeUtf8 s).length))
    WProg.put (List.replicate (n - (encodeUtf8 s).length) 0)
  else pure ()

/-! ### Matching dtypes -/

/-- primitive.rs 185-194, 202-208 for the numeric primitives: the endianness. -/
def checkPrim (p : Prim) (d : DType) : DRes Endianness := do
  let t ← expectScalar d
  if t.size = p.size ∧ p.supports t.typeChar = true then .ok t.endianness else .err (.badScalar t)

/-- primitive.rs 185-194, 202-208 for `bool` (primitive.rs 246-249). -/
def checkBool (d : DType) : DRes Unit := do
  let t ← expectScalar d
  if t.size = 1 ∧ t.typeChar = .bool then .ok () else .err (.badScalar t)

/-- primitive.rs 258-267, 275-284. -/
def checkComplex (f : FloatTy) (d : DType) : DRes Endianness := do
  let t ← expectScalar d
  if t.size = 2 * f.size ∧ t.typeChar = .complex then .ok t.endianness else .err (.badScalar t)

/-- slice.rs 490-495, 505-510, 710-715, 726-731: type first, then size. -/
def checkUnicode (M : Machine) (d : DType) : DRes (Nat × Endianness) := do
  let t ← expectScalar d
  if t.typeChar = .unicodeStr then do
    let n ← sizeAsUsize M t
    .ok (n, t.endianness)
  else .err (.badScalar t)

/-- slice.rs 538-545, 556-563: size first, then type. -/
def checkUnicodeArrayVec (M : Machine) (d : DType) : DRes (Nat × Endianness) := do
  let t ← expectScalar d
  let n ← sizeAsUsize M t
  if t.typeChar = .unicodeStr then .ok (n, t.endianness) else .err (.badScalar t)

/-- Which string format a dtype asks for. -/
inductive StrFormat where
  | utf8 (info : ByteInfo)
  | utf32 (n : Nat) (e : Endianness)
deriving DecidableEq, Repr

/-- slice.rs 457-468 `Utf8StringReader::try_from_dtype`. -/
def tryUtf8 (M : Machine) (d : DType) : Option (DRes ByteInfo) :=
  match checkByteVec M d with
  | .err (.usizeOverflow x) => some (.err (.usizeOverflow x))
  | .err _ => none
  | .panic => some .panic
  | .ok info => if info.isByteStr = false then none else some (.ok info)

/-- slice.rs 472-483 `Utf32StringReader::try_from_dtype`. -/
def tryUtf32 (M : Machine) (d : DType) : Option (DRes (Nat × Endianness)) :=
  match expectScalar d with
  | .ok t =>
    if t.typeChar = .unicodeStr then
      match sizeAsUsize M t with
      | .ok n => some (.ok (n, t.endianness))
      | .err e => some (.err e)
      | .panic => some .panic
    else none
  | _ => none

/-- slice.rs 526-527, 577-578: the error for a dtype no string reader accepts. -/
def badString {α : Type} (d : DType) : DRes α := do
  let t ← expectScalar d
  .err (.badScalar t)

/-- slice.rs 519-529 `String::reader`. -/
def readFormat (M : Machine) (d : DType) : DRes StrFormat :=
  match tryUtf32 M d with
  | some imp => do
    let x ← imp
    .ok (.utf32 x.1 x.2)
  | none =>
    match tryUtf8 M d with
    | some imp => do
      let x ← imp
      .ok (.utf8 x)
    | none => badString d

/-- slice.rs 573-581 `ArrayString::reader`. -/
def readArrayFormat (M : Machine) (d : DType) : DRes ByteInfo :=
  match tryUtf8 M d with
  | some imp => imp
  | none => badString d

/-- slice.rs 741-757 `str::writer`; for `S` only the size is kept. -/
def writeFormat (M : Machine) (d : DType) : DRes StrFormat := do
  let t ← expectScalar d
  match t.typeChar with
  | .unicodeStr => do
    let n ← sizeAsUsize M t
    .ok (.utf32 n t.endianness)
  | .byteStr => do
    let n ← sizeAsUsize M t
    .ok (.utf8 ⟨n, true⟩)
  | _ => .err (.badScalar t)

/-- array_member.rs 8-23 `array_inner_dtype`. -/
def arrayInner (n : Nat) : DType → DRes DType
  | .array len d => if len ≠ n then .err (.wrongArrayLen n len) else .ok d
  | .record _ => .err (.expectedArray (txt "a record"))
  | .plain _ => .err (.expectedArray (txt "a scalar"))

/-- derive/src/lib.rs 221: names of the fields of a record dtype. -/
def Fields.names : Fields → List Text
  | .nil => []
  | .cons name _ rest => name :: rest.names

/-- derive/src/lib.rs 218: names of the fields of a struct. -/
def TFields.names : TFields → List Text
  | .nil => []
  | .cons name _ rest => name :: rest.names

/-- derive/src/lib.rs 212-226 `FieldDTypes::extract`: the checks.  The code passes the names in the file as
`expected` and those of the struct as `actual` (line 225 against traits.rs 257-260). -/
def extractFields (names : List Text) : DType → DRes Fields
  | .record fs => if fs.names = names then .ok fs else .err (.wrongFields fs.names names)
  | d => .err (.expectedRecord d.descr)

/-- slice.rs 435-440 `StringReader::read_one`. -/
def readString (M : Machine) : StrFormat → RProg Text
  | .utf8 info => readUtf8String M info
  | .utf32 n e => readUtf32String M (swapFor M e) n

/-- slice.rs 698-703 `StrWriter::write_one`. -/
def writeString (M : Machine) : StrFormat → Text → WProg Unit
  | .utf8 info => writeUtf8Str M info.size
  | .utf32 n e => writeUtf32Str M (swapFor M e) n

mutual
/-- `Deserialize::reader`; the reader object is represented by its `read_one` program. -/
def Ty.reader (M : Machine) : (t : Ty) → DType → DRes (RProg t.Val)
  | .num p, d => do
    let e ← checkPrim p d
    .ok (readWord M p.size (swapFor M e))
  | .bool, d => do
    checkBool d
    .ok readBool
  | .complex f, d => do
    let e ← checkComplex f d
    .ok (readComplex M f.size (swapFor M e))
  | .vecU8, d => do
    let info ← checkByteVec M d
    .ok (readBytes M info)
  | .arrayVecU8 cap, d => do
    let info ← checkArrayByteVec M cap d
    .ok (readArrayVecBytes M cap info)
  | .fixedBytes n, d => do
    checkFixed M n d
    .ok (readFixed n)
  | .vecU32, d => do
    let x ← checkUnicode M d
    .ok (readVecU32 M (swapFor M x.2) x.1)
  | .vecChar, d => do
    let x ← checkUnicode M d
    .ok (readVecChar M (swapFor M x.2) x.1)
  | .string, d => do
    let f ← readFormat M d
    .ok (readString M f)
  | .arrayVecU32 cap, d => do
    let x ← checkUnicodeArrayVec M d
    .ok (readArrayVec (readCodePoint M (swapFor M x.2)) wordIsNul cap x.1)
  | .arrayVecChar cap, d => do
    let x ← checkUnicodeArrayVec M d
    .ok (readArrayVec (readChar M (swapFor M x.2)) charIsNul cap x.1)
  | .arrayString cap, d => do
    let info ← readArrayFormat M d
    .ok (readArrayString M cap info)
  | .array n t, d => do
    let inner ← arrayInner n d
    let p ← t.reader M inner
    .ok (readMany p n)
  | .record fs, d => do
    let dfs ← extractFields fs.names d
    fs.reader M dfs
/-- derive/src/lib.rs 157-163, 169-176: the generated reader, field by field.  A missing field would
be the `unwrap` of line 232. -/
def TFields.reader (M : Machine) : (fs : TFields) → Fields → DRes (RProg fs.Val)
  | .nil, _ => .ok (pure ())
  | .cons _ _ _, .nil => .panic
  | .cons _ t rest, .cons _ d dfs => do
    let p ← t.reader M d
    let q ← rest.reader M dfs
    .ok (do
      let x ← p
      let xs ← q
      pure (x, xs))
end

mutual
/-- `Serialize::writer`; the writer object is represented by its `write_one` function. -/
def Ty.writer (M : Machine) : (t : Ty) → DType → DRes (t.Val → WProg Unit)
  | .num p, d => do
    let e ← checkPrim p d
    .ok (writeWord M (swapFor M e))
  | .bool, d => do
    checkBool d
    .ok writeBool
  | .complex f, d => do
    let e ← checkComplex f d
    .ok (writeComplex M (swapFor M e))
  | .vecU8, d => do
    let info ← checkByteVec M d
    .ok (writeBytes M info)
  | .arrayVecU8 cap, d => do
    let info ← checkArrayByteVec M cap d
    .ok (fun v => writeBytes M info v.1)
  | .fixedBytes n, d => do
    checkFixed M n d
    .ok (fun v => WProg.put v.1)
  | .vecU32, d => do
    let x ← checkUnicode M d
    .ok (writeVecU32 M (swapFor M x.2) x.1)
  | .vecChar, d => do
    let x ← checkUnicode M d
    .ok (writeVecChar M (swapFor M x.2) x.1)
  | .string, d => do
    let f ← writeFormat M d
    .ok (writeString M f)
  | .arrayVecU32 _, d => do
    let x ← checkUnicode M d
    .ok (fun v => writeVecU32 M (swapFor M x.2) x.1 v.1)
  | .arrayVecChar _, d => do
    let x ← checkUnicode M d
    .ok (fun v => writeVecChar M (swapFor M x.2) x.1 v.1)
  | .arrayString _, d => do
    let f ← writeFormat M d
    .ok (fun v => writeString M f v.1)
  | .array n t, d => do
    let inner ← arrayInner n d
    let w ← t.writer M inner
    .ok (fun v => writeMany w v.1)
  | .record fs, d => do
    let dfs ← extractFields fs.names d
    fs.writer M dfs
/-- derive/src/lib.rs 106-112, 118-125: the generated writer, field by field. -/
def TFields.writer (M : Machine) : (fs : TFields) → Fields → DRes (fs.Val → WProg Unit)
  | .nil, _ => .ok (fun _ => pure ())
  | .cons _ _ _, .nil => .panic
  | .cons _ t rest, .cons _ d dfs => do
    let w ← t.writer M d
    let ws ← rest.writer M dfs
    .ok (fun v => do
      w v.1
      ws v.2)
end

/-- The panic of `with_auto_endianness` is the only failure of `default_dtype`. -/
def autoDType (M : Machine) (c : TypeChar) (size : Nat) : DRes DType :=
  match TypeStr.withAutoEndianness M c size none with
  | .ok t => .ok (.plain t)
  | _ => .panic

mutual
/-- `AutoSerialize::default_dtype` (primitive.rs 212-216, 289-293, slice.rs 813-834,
array_member.rs 61-66, derive/src/lib.rs 181-199); `none` for types without an implementation. -/
def Ty.defaultDType (M : Machine) : Ty → Option (DRes DType)
  | .num p => some (autoDType M p.mainTy p.size)
  | .bool => some (autoDType M .bool 1)
  | .complex f => some (autoDType M .complex (2 * f.size))
  | .arrayVecU32 cap => some (autoDType M .unicodeStr cap)
  | .arrayVecChar cap => some (autoDType M .unicodeStr cap)
  | .arrayString cap => some (autoDType M .byteStr cap)
  | .array n t =>
    match t.defaultDType M with
    | some r => some (do
      let d ← r
      .ok (.array n d))
    | none => none
  | .record fs =>
    match fs.defaultDType M with
    | some r => some (do
      let dfs ← r
      .ok (.record dfs))
    | none => none
  | .vecU8 | .arrayVecU8 _ | .fixedBytes _ | .vecU32 | .vecChar | .string => none
/-- derive/src/lib.rs 190-195. -/
def TFields.defaultDType (M : Machine) : TFields → Option (DRes Fields)
  | .nil => some (.ok .nil)
  | .cons name t rest =>
    match t.defaultDType M, rest.defaultDType M with
    | some r, some rs => some (do
      let d ← r
      let ds ← rs
      .ok (.cons name d ds))
    | _, _ => none
end

end Npyz
