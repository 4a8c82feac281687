import Verif.Model.Serialize
import Verif.Spec.DType
/-!
Independent description of how values are stored: which element types go with which dtypes (the
table of `/repo/src/type_matchup_docs.rs`), the bytes of a value, and the value of some bytes.
Only the data types of the model are used here (and `encodeUtf8`/`decodeUtf8`/`charOfNat?`, the
definition of Unicode), none of its readers or writers, and no machine: everything on disk is
machine-independent.
-/
namespace Npyz.Spec

/-! ### Which dtypes a type accepts -/

/-- Numeric types: the type codes and the exact size. -/
def numAccepts : Prim → TypeChar → Nat → Prop
  | .i8, c, n => c = .int ∧ n = 1
  | .i16, c, n => c = .int ∧ n = 2
  | .i32, c, n => c = .int ∧ n = 4
  | .i64, c, n => (c = .int ∨ c = .timeDelta ∨ c = .dateTime) ∧ n = 8
  | .u8, c, n => c = .uint ∧ n = 1
  | .u16, c, n => c = .uint ∧ n = 2
  | .u32, c, n => c = .uint ∧ n = 4
  | .u64, c, n => c = .uint ∧ n = 8
  | .f16, c, n => c = .float ∧ n = 2
  | .f32, c, n => c = .float ∧ n = 4
  | .f64, c, n => c = .float ∧ n = 8

/-- Scalar types that are both readable and writable as type code `c` with size field `m`. -/
def scalarAccepts : Ty → TypeChar → Nat → Prop
  | .num p, c, m => numAccepts p c m
  | .bool, c, m => c = .bool ∧ m = 1
  | .complex .f32, c, m => c = .complex ∧ m = 8
  | .complex .f64, c, m => c = .complex ∧ m = 16
  | .string, c, _ => c = .byteStr ∨ c = .unicodeStr
  | .vecU8, c, _ => c = .rawData ∨ c = .byteStr
  | .vecU32, c, _ => c = .unicodeStr
  | .vecChar, c, _ => c = .unicodeStr
  | .fixedBytes n, c, m => c = .rawData ∧ m = n
  | .arrayVecU8 n, c, m => (c = .rawData ∧ m ≤ n) ∨ c = .byteStr
  | .arrayVecU32 _, c, _ => c = .unicodeStr
  | .arrayVecChar _, c, _ => c = .unicodeStr
  | .arrayString _, c, _ => c = .byteStr
  | .array _ _, _, _ => False
  | .record _, _, _ => False

/-- The one type that can be written but not read in some format. -/
def writeOnly : Ty → TypeChar → Prop
  | .arrayString _, c => c = .unicodeStr
  | _, _ => False

mutual
/-- `t` can be read from `d`. -/
def CanRead (t : Ty) : DType → Prop
  | .plain s => scalarAccepts t s.typeChar s.size
  | .array n d => ∃ t', t = .array n t' ∧ CanRead t' d
  | .record dfs => ∃ fs, t = .record fs ∧ CanReadFields fs dfs
/-- Same names in the same order, each field can be read from its dtype. -/
def CanReadFields (fs : TFields) : Fields → Prop
  | .nil => fs = .nil
  | .cons name d dfs => ∃ t rest, fs = .cons name t rest ∧ CanRead t d ∧ CanReadFields rest dfs
end

mutual
/-- `t` can be written as `d`. -/
def CanWrite (t : Ty) : DType → Prop
  | .plain s => scalarAccepts t s.typeChar s.size ∨ writeOnly t s.typeChar
  | .array n d => ∃ t', t = .array n t' ∧ CanWrite t' d
  | .record dfs => ∃ fs, t = .record fs ∧ CanWriteFields fs dfs
/-- Same names in the same order, each field can be written as its dtype. -/
def CanWriteFields (fs : TFields) : Fields → Prop
  | .nil => fs = .nil
  | .cons name d dfs => ∃ t rest, fs = .cons name t rest ∧ CanWrite t d ∧ CanWriteFields rest dfs
end

mutual
/-- Every size field is below `lim`. -/
def SizesFit (lim : Nat) : DType → Prop
  | .plain s => s.size < lim
  | .array _ d => SizesFit lim d
  | .record fs => FieldSizesFit lim fs
def FieldSizesFit (lim : Nat) : Fields → Prop
  | .nil => True
  | .cons _ d rest => SizesFit lim d ∧ FieldSizesFit lim rest
end

/-! ### Bytes of a value -/

/-- The `w` bytes of the number `n`, most significant first for `big`, least significant first
otherwise. -/
def wordBytes (e : Endianness) (w n : Nat) : Bytes :=
  if e = .big then (List.range w).map fun i => UInt8.ofNat (n / 256 ^ (w - 1 - i))
  else (List.range w).map fun i => UInt8.ofNat (n / 256 ^ i)

/-- The number stored in some bytes. -/
def wordValue (e : Endianness) (bs : Bytes) : Nat :=
  if e = .big then bs.foldl (fun acc b => 256 * acc + b.toNat) 0
  else bs.foldr (fun b acc => b.toNat + 256 * acc) 0

/-- Remove trailing zeros. -/
def trimEnd {α : Type} (isZero : α → Bool) (l : List α) : List α := (l.reverse.dropWhile isZero).reverse

/-- `|Sn`: pad with NUL bytes; a longer string does not fit. -/
def padBytes (n : Nat) (b : Bytes) : Option Bytes :=
  if b.length ≤ n then some (b ++ List.replicate (n - b.length) 0) else none

/-- `Un`: code units of four bytes each, padded with NULs. -/
def padUnits (e : Endianness) (n : Nat) (units : List Nat) : Option Bytes :=
  if units.length ≤ n then
    some ((units ++ List.replicate (n - units.length) 0).flatMap (wordBytes e 4))
  else none

/-- Bytes of a byte string under `|Sn` or `|Vn`. -/
def encodeBytes (s : TypeStr) (b : Bytes) : Option Bytes :=
  if s.typeChar = .byteStr then padBytes s.size b
  else if b.length = s.size then some b else none

/-- Bytes of a sequence of `u32` code points under `Un`; they must be below 0x110000. -/
def encodeUnits (s : TypeStr) (l : List (Word 4)) : Option Bytes :=
  if ∀ x ∈ l, x.toNat < 0x110000 then padUnits s.endianness s.size (l.map (·.toNat)) else none

/-- Bytes of a sequence of characters under `Un`. -/
def encodeChars (s : TypeStr) (l : Text) : Option Bytes := padUnits s.endianness s.size (l.map (·.toNat))

/-- Bytes of a string: UTF-8 under `|Sn`, code points under `Un`. -/
def encodeText (s : TypeStr) (l : Text) : Option Bytes :=
  if s.typeChar = .unicodeStr then encodeChars s l else padBytes s.size (encodeUtf8 l)

/-- Concatenate two pieces, if both exist. -/
def both : Option Bytes → Option Bytes → Option Bytes
  | some a, some b => some (a ++ b)
  | _, _ => none

/-- Concatenate the bytes of all elements. -/
def encodeAll {α : Type} (f : α → Option Bytes) : List α → Option Bytes
  | [] => some []
  | x :: xs => both (f x) (encodeAll f xs)

/-- `False` is 0, `True` is 1. -/
def boolByte (b : Bool) : UInt8 := if b then 1 else 0

/-- Apply a rule for scalar dtypes. -/
def onPlain {α : Type} (f : TypeStr → Option α) : DType → Option α
  | .plain s => f s
  | _ => none

/-- Apply a rule for array dtypes. -/
def onArray {α : Type} (f : DType → Option α) : DType → Option α
  | .array _ d => f d
  | _ => none

/-- Apply a rule for record dtypes. -/
def onRecord {α : Type} (f : Fields → Option α) : DType → Option α
  | .record fs => f fs
  | _ => none

mutual
/-- The bytes of a value `v : t` under dtype `d`; `none` if `v` does not fit. -/
def encode : (t : Ty) → DType → t.Val → Option Bytes
  | .num p, d, v => d |> onPlain fun s => some (wordBytes s.endianness p.size v.toNat)
  | .bool, d, v => d |> onPlain fun _ => some [boolByte v]
  | .complex f, d, v => d |> onPlain fun s =>
    some (wordBytes s.endianness f.size v.1.toNat ++ wordBytes s.endianness f.size v.2.toNat)
  | .vecU8, d, v => d |> onPlain fun s => encodeBytes s v
  | .arrayVecU8 _, d, v => d |> onPlain fun s => encodeBytes s v.1
  | .fixedBytes _, d, v => d |> onPlain fun _ => some v.1
  | .vecU32, d, v => d |> onPlain fun s => encodeUnits s v
  | .vecChar, d, v => d |> onPlain fun s => encodeChars s v
  | .string, d, v => d |> onPlain fun s => encodeText s v
  | .arrayVecU32 _, d, v => d |> onPlain fun s => encodeUnits s v.1
  | .arrayVecChar _, d, v => d |> onPlain fun s => encodeChars s v.1
  | .arrayString _, d, v => d |> onPlain fun s => encodeText s v.1
  | .array _ t, d, v => d |> onArray fun d => encodeAll (encode t d) v.1
  | .record fs, d, v => d |> onRecord fun dfs => encodeFields fs dfs v
/-- The fields one after the other, without padding. -/
def encodeFields : (fs : TFields) → Fields → fs.Val → Option Bytes
  | .nil, _, _ => some []
  | .cons _ _ _, .nil, _ => none
  | .cons _ t rest, .cons _ d dfs, v => both (encode t d v.1) (encodeFields rest dfs v.2)
end

/-! ### Value of some bytes -/

/-- Split into `n` pieces of `k` bytes and decode each. -/
def decodeMany {α : Type} (f : Bytes → Option α) (k : Nat) : (n : Nat) → Bytes → Option { l : List α // l.length = n }
  | 0, _ => some ⟨[], rfl⟩
  | n + 1, bs =>
    match f (bs.take k), decodeMany f k n (bs.drop k) with
    | some x, some xs => some ⟨x :: xs.1, by simp [xs.2]⟩
    | _, _ => none

/-- A code point below 0x110000 (surrogates allowed). -/
def decodeUnit (e : Endianness) (bs : Bytes) : Option (Word 4) :=
  if wordValue e bs < 0x110000 then some (BitVec.ofNat _ (wordValue e bs)) else none

/-- A code point that is a character. -/
def decodeChar (e : Endianness) (bs : Bytes) : Option Char := charOfNat? (wordValue e bs)

/-- Text stored as UTF-8 under `|Sn`. -/
def decodeUtf8Item (bs : Bytes) : Option Text := decodeUtf8 (trimEnd (· == 0) bs)

/-- The longest prefix whose UTF-8 encoding has at most `n` bytes. -/
def fitPrefix : Nat → Text → Text
  | _, [] => []
  | n, c :: cs => if c.utf8Size ≤ n then c :: fitPrefix (n - c.utf8Size) cs else []

theorem trimEnd_append {α : Type} (p : α → Bool) (l : List α) :
    ∃ t, l = trimEnd p l ++ t ∧ ∀ x ∈ t, p x = true := by
  refine ⟨(l.reverse.takeWhile p).reverse, ?_, ?_⟩
  · rw [trimEnd, ← List.reverse_append, List.takeWhile_append_dropWhile, List.reverse_reverse]
  · intro x hx
    rw [List.mem_reverse] at hx
    exact List.all_eq_true.mp List.all_takeWhile x hx

theorem encode_trimEnd_le (p : Char → Bool) (l : Text) :
    (encodeUtf8 (trimEnd p l)).length ≤ (encodeUtf8 l).length := by
  obtain ⟨t, ht, -⟩ := trimEnd_append p l
  have : encodeUtf8 l = encodeUtf8 (trimEnd p l) ++ encodeUtf8 t := by
    conv => lhs; rw [ht]
    simp [encodeUtf8]
  rw [this, List.length_append]
  omega

theorem length_trimEnd_le {α : Type} (p : α → Bool) (l : List α) : (trimEnd p l).length ≤ l.length := by
  have h : ∀ l : List α, (l.dropWhile p).length ≤ l.length := by
    intro l
    induction l with
    | nil => simp
    | cons x xs ih =>
      simp only [List.dropWhile_cons]
      split
      · simp; omega
      · simp
  simpa [trimEnd] using h l.reverse

theorem trimEnd_take_le {α : Type} (p : α → Bool) (n : Nat) (l : List α) : (trimEnd p (l.take n)).length ≤ n := by
  have := length_trimEnd_le p (l.take n)
  simp at this
  omega

theorem encode_fitPrefix_le (n : Nat) (s : Text) : (encodeUtf8 (fitPrefix n s)).length ≤ n := by
  induction s generalizing n with
  | nil => simp [fitPrefix, encodeUtf8]
  | cons c cs ih =>
    simp only [fitPrefix]
    split
    · have := ih (n - c.utf8Size)
      have hc : (String.utf8EncodeChar c).length = c.utf8Size := by simp
      simp only [encodeUtf8, List.flatMap_cons, List.length_append] at this ⊢
      omega
    · simp [encodeUtf8]

/-- Bytes for an `ArrayVec<u8, cap>`: `|Sn` is truncated to `cap` bytes and trimmed.  `|Vn` (where
`n ≤ cap`) ought to be returned as it is, but the code returns `cap` bytes, filled up with zeros; the
discrepancy is property C34. -/
def arrayVecBytes (cap : Nat) (s : TypeStr) (bs : Bytes) : { l : Bytes // l.length ≤ cap } :=
  if s.typeChar = .byteStr then ⟨trimEnd (· == 0) (bs.take cap), trimEnd_take_le _ _ _⟩
  else ⟨(bs ++ List.replicate (cap - bs.length) 0).take cap, by simp; omega⟩

/-- Decode a prefix of `k` bytes and then the rest. -/
def decodePair {α β : Type} (k : Nat) (f : Bytes → Option α) (g : Bytes → Option β) (bs : Bytes) : Option (α × β) :=
  match f (bs.take k), g (bs.drop k) with
  | some v, some vs => some (v, vs)
  | _, _ => none

mutual
/-- The value of type `t` stored in the bytes `bs` of an item of dtype `d`; `none` if there is none. -/
def decode : (t : Ty) → DType → Bytes → Option t.Val
  | .num p, d, bs => d |> onPlain fun s => some (BitVec.ofNat (8 * p.size) (wordValue s.endianness bs))
  | .bool, d, bs => d |> onPlain fun _ =>
    if bs = [0] then some false else if bs = [1] then some true else none
  | .complex f, d, bs => d |> onPlain fun s =>
    some (BitVec.ofNat (8 * f.size) (wordValue s.endianness (bs.take f.size)),
      BitVec.ofNat (8 * f.size) (wordValue s.endianness (bs.drop f.size)))
  | .vecU8, d, bs => d |> onPlain fun s => some (if s.typeChar = .byteStr then trimEnd (· == 0) bs else bs)
  | .arrayVecU8 cap, d, bs => d |> onPlain fun s => some (arrayVecBytes cap s bs)
  | .fixedBytes n, d, bs => d |> onPlain fun _ => if h : bs.length = n then some ⟨bs, h⟩ else none
  | .vecU32, d, bs => d |> onPlain fun s =>
    (decodeMany (decodeUnit s.endianness) 4 s.size bs).map fun l => trimEnd (· == 0) l.1
  | .vecChar, d, bs => d |> onPlain fun s =>
    (decodeMany (decodeChar s.endianness) 4 s.size bs).map fun l => trimEnd (· == '\x00') l.1
  | .string, d, bs => d |> onPlain fun s =>
    if s.typeChar = .unicodeStr then
      (decodeMany (decodeChar s.endianness) 4 s.size bs).map fun l => trimEnd (· == '\x00') l.1
    else decodeUtf8Item bs
  | .arrayVecU32 cap, d, bs => d |> onPlain fun s =>
    (decodeMany (decodeUnit s.endianness) 4 s.size bs).map fun l =>
      ⟨trimEnd (· == 0) (l.1.take cap), trimEnd_take_le _ _ _⟩
  | .arrayVecChar cap, d, bs => d |> onPlain fun s =>
    (decodeMany (decodeChar s.endianness) 4 s.size bs).map fun l =>
      ⟨trimEnd (· == '\x00') (l.1.take cap), trimEnd_take_le _ _ _⟩
  | .arrayString cap, d, bs => d |> onPlain fun _ =>
    (decodeUtf8Item bs).map fun l => ⟨fitPrefix cap l, encode_fitPrefix_le _ _⟩
  | .array n t, d, bs => d |> onArray fun d =>
    (exactBytes d).bind fun k => decodeMany (decode t d) k n bs
  | .record fs, d, bs => d |> onRecord fun dfs => decodeFields fs dfs bs
/-- The fields one after the other. -/
def decodeFields : (fs : TFields) → Fields → Bytes → Option fs.Val
  | .nil, _, _ => some ()
  | .cons _ _ _, .nil, _ => none
  | .cons _ t rest, .cons _ d dfs, bs =>
    (exactBytes d).bind fun k => decodePair k (decode t d) (decodeFields rest dfs) bs
end

/-! ### What survives a round trip -/

/-- The element dtype of an array dtype. -/
def elemOf : DType → DType
  | .array _ d => d
  | d => d

/-- The fields of a record dtype. -/
def fieldsOf : DType → Fields
  | .record fs => fs
  | _ => .nil

/-- Trailing NULs of `|Sn` items are not part of the value. -/
def readBackBytes (d : DType) (v : Bytes) : Bytes :=
  match d with
  | .plain s => if s.typeChar = .byteStr then trimEnd (· == 0) v else v
  | _ => v

/-- See `arrayVecBytes`. -/
def readBackArrayVec (cap : Nat) (d : DType) (v : { l : Bytes // l.length ≤ cap }) : { l : Bytes // l.length ≤ cap } :=
  match d with
  | .plain s => arrayVecBytes cap s v.1
  | _ => v

mutual
/-- The value read back after writing `v`: strings lose trailing NULs; an `ArrayVec<u8, cap>` stored
as `|Vn` comes back with `cap` bytes (see `arrayVecBytes`); everything else is unchanged. -/
def readBack : (t : Ty) → DType → t.Val → t.Val
  | .num _, _, v => v
  | .bool, _, v => v
  | .complex _, _, v => v
  | .fixedBytes _, _, v => v
  | .vecU8, d, v => readBackBytes d v
  | .arrayVecU8 cap, d, v => readBackArrayVec cap d v
  | .vecU32, _, v => trimEnd (· == 0) v
  | .vecChar, _, v => trimEnd (· == '\x00') v
  | .string, _, v => trimEnd (· == '\x00') v
  | .arrayVecU32 _, _, v => ⟨trimEnd (· == 0) v.1, Nat.le_trans (length_trimEnd_le _ _) v.2⟩
  | .arrayVecChar _, _, v => ⟨trimEnd (· == '\x00') v.1, Nat.le_trans (length_trimEnd_le _ _) v.2⟩
  | .arrayString _, _, v => ⟨trimEnd (· == '\x00') v.1, Nat.le_trans (encode_trimEnd_le _ _) v.2⟩
  | .array _ t, d, v => ⟨v.1.map (readBack t (elemOf d)), by simp [v.2]⟩
  | .record fs, d, v => readBackFields fs (fieldsOf d) v
def readBackFields : (fs : TFields) → Fields → fs.Val → fs.Val
  | .nil, _, v => v
  | .cons _ _ _, .nil, v => v
  | .cons _ t rest, .cons _ d dfs, v => (readBack t d v.1, readBackFields rest dfs v.2)
end

/-! ### Reading and writing one item -/

/-- The program succeeds and emits exactly `bs`, whatever has been written before. -/
def WritesItem (w : WProg Unit) (bs : Bytes) : Prop := ∀ s : Sink, w.exec s = (.ok (), s.put bs)

/-- The program refuses with an `InvalidData` error (some prefix `bs` may already be written). -/
def RefusesItem (w : WProg Unit) : Prop := ∃ bs why, ∀ s : Sink, w.exec s = (.err (.invalidData why), s.put bs)

/-- Given `bs` and anything after it, the program returns `v` and consumes exactly `bs`. -/
def ReadsItem {α : Type} (p : RProg α) (bs : Bytes) (v : α) : Prop := ∀ rest, p.run (bs ++ rest) = (.ok v, rest)

/-- Given `bs` and anything after it, the program fails with an `InvalidData` error. -/
def RejectsItem {α : Type} (p : RProg α) (bs : Bytes) : Prop :=
  ∀ rest, ∃ why, (p.run (bs ++ rest)).1 = .err (.invalidData why)

/-! ### Default dtypes -/

/-- The default type code and size of scalar types, as documented (the table in
`/repo/src/type_matchup_docs.rs`). -/
def documentedDefault : Ty → Option (TypeChar × Nat)
  | .num .i8 => some (.int, 1)
  | .num .i16 => some (.int, 2)
  | .num .i32 => some (.int, 4)
  | .num .i64 => some (.int, 8)
  | .num .u8 => some (.uint, 1)
  | .num .u16 => some (.uint, 2)
  | .num .u32 => some (.uint, 4)
  | .num .u64 => some (.uint, 8)
  | .num .f16 => some (.float, 2)
  | .num .f32 => some (.float, 4)
  | .num .f64 => some (.float, 8)
  | .bool => some (.bool, 1)
  | .complex .f32 => some (.complex, 8)
  | .complex .f64 => some (.complex, 16)
  | .fixedBytes n => some (.rawData, n)
  | .arrayVecU32 n => some (.unicodeStr, n)
  | .arrayVecChar n => some (.unicodeStr, n)
  | .arrayString n => some (.byteStr, n)
  | _ => none

/-- The byte order of a default: the machine's, or none where it has no meaning. -/
def DefaultOrder (bigEndian : Bool) (s : TypeStr) : Prop :=
  (OrderMatters s.typeChar s.size → s.endianness = if bigEndian then .big else .little) ∧
  (¬ OrderMatters s.typeChar s.size → s.endianness = .irrelevant)

mutual
/-- `d` is the documented default of `t` on a machine with the given byte order. -/
def DefaultFor (bigEndian : Bool) (t : Ty) : DType → Prop
  | .plain s => documentedDefault t = some (s.typeChar, s.size) ∧ s.timeUnits = none ∧ DefaultOrder bigEndian s
  | .array n d => ∃ t', t = .array n t' ∧ DefaultFor bigEndian t' d
  | .record dfs => ∃ fs, t = .record fs ∧ DefaultForFields bigEndian fs dfs
def DefaultForFields (bigEndian : Bool) (fs : TFields) : Fields → Prop
  | .nil => fs = .nil
  | .cons name d dfs => ∃ t rest, fs = .cons name t rest ∧ DefaultFor bigEndian t d ∧ DefaultForFields bigEndian rest dfs
end

mutual
/-- Every const generic parameter is a `usize`: below `lim`. -/
def ConstsFit (lim : Nat) : Ty → Prop
  | .arrayVecU8 n | .fixedBytes n | .arrayVecU32 n | .arrayVecChar n | .arrayString n => n < lim
  | .array n t => n < lim ∧ ConstsFit lim t
  | .record fs => FieldConstsFit lim fs
  | _ => True
def FieldConstsFit (lim : Nat) : TFields → Prop
  | .nil => True
  | .cons _ t rest => ConstsFit lim t ∧ FieldConstsFit lim rest
end

mutual
/-- Types without strings: every value is stored exactly. -/
def Exact : Ty → Prop
  | .num _ | .bool | .complex _ | .fixedBytes _ => True
  | .array _ t => Exact t
  | .record fs => FieldsExact fs
  | _ => False
def FieldsExact : TFields → Prop
  | .nil => True
  | .cons _ t rest => Exact t ∧ FieldsExact rest
end

end Npyz.Spec
