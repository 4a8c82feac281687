import Verif.Spec.Codec
/-!
Independent description of the other byte order: the dtype with `<` and `>` exchanged everywhere, and the bytes of an item in
which every machine word is reversed.
-/
set_option autoImplicit false
namespace Npyz.Spec

/-- `<` for `>` and `>` for `<`. -/
def otherEndian : Endianness → Endianness
  | .little => .big
  | .big => .little
  | .irrelevant => .irrelevant

mutual
/-- The dtype with the other byte order in every scalar. -/
def otherDType : DType → DType
  | .plain s => .plain { s with endianness := otherEndian s.endianness }
  | .array n d => .array n (otherDType d)
  | .record fs => .record (otherFields fs)
def otherFields : Fields → Fields
  | .nil => .nil
  | .cons name d rest => .cons name (otherDType d) (otherFields rest)
end

/-- Change each of `n` pieces of `k` bytes. -/
def mapPieces (f : Bytes → Bytes) (k : Nat) : (n : Nat) → Bytes → Bytes
  | 0, _ => []
  | n + 1, bs => f (bs.take k) ++ mapPieces f k n (bs.drop k)

/-- The words of a scalar reversed: strings of characters consist of words of four bytes, complex numbers of two words, byte strings of
single bytes; all others are one word. -/
def reverseWords (s : TypeStr) (bs : Bytes) : Bytes :=
  match s.typeChar with
  | .byteStr | .rawData | .object => bs
  | .unicodeStr => mapPieces List.reverse 4 s.size bs
  | .complex => mapPieces List.reverse (s.size / 2) 2 bs
  | _ => bs.reverse

mutual
/-- The bytes of an item with every word reversed. -/
def reverseItem : DType → Bytes → Bytes
  | .plain s, bs => reverseWords s bs
  | .array n d, bs => match exactBytes d with
    | some k => mapPieces (reverseItem d) k n bs
    | none => bs
  | .record fs, bs => reverseFields fs bs
def reverseFields : Fields → Bytes → Bytes
  | .nil, bs => bs
  | .cons _ d rest, bs => match exactBytes d with
    | some k => reverseItem d (bs.take k) ++ reverseFields rest (bs.drop k)
    | none => bs
end

end Npyz.Spec
