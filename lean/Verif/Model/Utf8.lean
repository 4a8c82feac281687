import Verif.Model.Basic
/-!
UTF-8, as used through `str::as_bytes`, `str::from_utf8` and `String::from_utf8`
(`/repo/src/header.rs` 238, `/repo/src/serialize/slice.rs` 426, 672).  The encoder is Lean core's
`String.utf8EncodeChar`; the decoder is written out and proved in `Proofs/Utf8.lean` to accept
exactly the encodings.
-/
namespace Npyz

/-- `str::as_bytes`. -/
def encodeUtf8 (s : Text) : Bytes := s.flatMap String.utf8EncodeChar

/-- A scalar value, `char::try_from(u32)`: refused above 0x10FFFF and in the surrogate range. -/
def charOfNat? (v : Nat) : Option Char :=
  if h : v.isValidChar then some (Char.ofNatAux v h) else none

/-- The char with code `v`, provided it needs at least this many bytes (`v ≥ lo`). -/
def decodeScalar (lo v : Nat) : Option Char := if lo ≤ v then charOfNat? v else none

/-- Payload of a continuation byte `10xxxxxx`. -/
def contByte (b : UInt8) : Option Nat :=
  if 0x80 ≤ b.toNat ∧ b.toNat < 0xC0 then some (b.toNat - 0x80) else none

/-- First character of a byte string and the number of bytes it takes. -/
def decodeChar : Bytes → Option (Char × Nat)
  | [] => none
  | b0 :: r =>
    if b0.toNat < 0x80 then (decodeScalar 0 b0.toNat).map (·, 1)
    else if b0.toNat < 0xC0 then none
    else if b0.toNat < 0xE0 then
      match r with
      | b1 :: _ => do
        let y1 ← contByte b1
        let c ← decodeScalar 0x80 ((b0.toNat - 0xC0) * 64 + y1)
        some (c, 2)
      | _ => none
    else if b0.toNat < 0xF0 then
      match r with
      | b1 :: b2 :: _ => do
        let y1 ← contByte b1
        let y2 ← contByte b2
        let c ← decodeScalar 0x800 ((b0.toNat - 0xE0) * 4096 + y1 * 64 + y2)
        some (c, 3)
      | _ => none
    else if b0.toNat < 0xF8 then
      match r with
      | b1 :: b2 :: b3 :: _ => do
        let y1 ← contByte b1
        let y2 ← contByte b2
        let y3 ← contByte b3
        let c ← decodeScalar 0x10000 ((b0.toNat - 0xF0) * 262144 + y1 * 4096 + y2 * 64 + y3)
        some (c, 4)
      | _ => none
    else none

/-- Decoding loop; `fuel` bounds the number of characters. -/
def decodeUtf8Go : Nat → Bytes → Option Text
  | _, [] => some []
  | 0, _ :: _ => none
  | fuel + 1, b :: bs => do
    let (c, n) ← decodeChar (b :: bs)
    let rest ← decodeUtf8Go fuel ((b :: bs).drop n)
    some (c :: rest)

/-- `str::from_utf8` (`None` for an encoding error). -/
def decodeUtf8 (bs : Bytes) : Option Text := decodeUtf8Go bs.length bs

end Npyz
