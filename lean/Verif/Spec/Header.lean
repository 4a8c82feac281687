import Verif.Model.Py
/-!
Independent description of the framing of an NPY header and of dictionary lookup.
-/
namespace Npyz.Spec

/-- The six magic bytes `\x93NUMPY`. -/
def magicBytes : Bytes := [0x93, 0x4E, 0x55, 0x4D, 0x50, 0x59]

/-- Byte `i` of a stream as a number. -/
def byteAt (bs : Bytes) (i : Nat) : Nat := (bs.getD i 0).toNat

/-- Offset of the first byte after the header, from the length field: two bytes at offset 8 in
version 1, four bytes otherwise, little-endian. -/
def headerEnd (bs : Bytes) : Nat :=
  if byteAt bs 6 = 1 then 10 + (byteAt bs 8 + 256 * byteAt bs 9)
  else 12 + (byteAt bs 8 + 256 * byteAt bs 9 + 65536 * byteAt bs 10 + 16777216 * byteAt bs 11)

/-- The stream begins with the magic bytes and version 1.0, 2.0 or 3.0. -/
def GoodPreamble (bs : Bytes) : Prop :=
  8 ≤ bs.length ∧ bs.take 6 = magicBytes ∧ (byteAt bs 6 = 1 ∨ byteAt bs 6 = 2 ∨ byteAt bs 6 = 3) ∧ byteAt bs 7 = 0

/-- `v` is the value of key `k`: the last entry with that key. -/
def LastEntry (k : String) (v : PyVal) (kvs : List (PyVal × PyVal)) : Prop :=
  ∃ pre post, kvs = pre ++ (.str k.toList, v) :: post ∧ ∀ w, (.str k.toList, w) ∉ post

/-- Every key is a string. -/
def StringKeys (kvs : List (PyVal × PyVal)) : Prop := ∀ kv ∈ kvs, ∃ s, kv.1 = .str s

/-- No key occurs twice. -/
def DistinctKeys (kvs : List (PyVal × PyVal)) : Prop := (kvs.map Prod.fst).Nodup

end Npyz.Spec
