import Verif.Spec.Numpy
/-!
What may differ between two headers that say the same.
-/
namespace Npyz.Spec

/-- The bytes are the UTF-8 of this text, with any number of blanks before and behind it, and with or without a final newline. -/
inductive Line (text : Text) : Bytes → Prop
  | bare (m n : Nat) : Line text (encodeUtf8 (List.replicate m ' ' ++ text ++ List.replicate n ' '))
  | ended (m n : Nat) : Line text (encodeUtf8 (List.replicate m ' ' ++ text ++ List.replicate n ' ') ++ [10])

/-- A complete header of a known version, at the start of these bytes, of a length that memory can hold. -/
structure Framed (M : Machine) (bs : Bytes) : Prop where
  preamble : GoodPreamble bs
  whole : headerEnd bs ≤ bs.length
  room : headerEnd bs ≤ M.isizeMax

/-- What follows the header. -/
def behind (bs : Bytes) : Bytes := bs.drop (headerEnd bs)

/-- The preamble of version `v`, then the length of the text in two or four bytes, then the text. -/
def frame (v : Nat) (text : Bytes) : Bytes :=
  magicBytes ++ [UInt8.ofNat v, 0] ++ (List.range (if v = 1 then 2 else 4)).map (fun i => UInt8.ofNat (text.length / 256 ^ i)) ++ text

end Npyz.Spec
