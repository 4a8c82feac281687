import Verif.Model.Header
/-!
Model of output streams and of the header part of `/repo/src/write.rs`.
-/
namespace Npyz

/-- An output stream: its contents and the write position.  Seekable streams (`File`,
`Cursor<Vec<u8>>`) start anywhere; for plain `Write` sinks `pos` is always the end. -/
structure Sink where
  data : Bytes
  pos : Nat
  seekable : Bool
deriving DecidableEq, Repr

/-- Overwrite (and possibly extend) at a position; a gap is filled with zeros. -/
def overwrite (data : Bytes) (pos : Nat) (b : Bytes) : Bytes :=
  (data ++ List.replicate (pos - data.length) 0).take pos ++ b ++ data.drop (pos + b.length)

/-- Write `b` at the current position. -/
def Sink.put (s : Sink) (b : Bytes) : Sink :=
  if b = [] then s else { s with data := overwrite s.data s.pos b, pos := s.pos + b.length }

/-- Programs that write: `write` is `write_all`, `tell` is `seek(SeekFrom::Current(0))`, `seek` is
`seek(SeekFrom::Start(_))`. -/
inductive WProg (α : Type) where
  | ret (r : Res α)
  | write (b : Bytes) (k : WProg α)
  | tell (k : Nat → WProg α)
  | seek (pos : Nat) (k : WProg α)
  | flush (k : WProg α)

namespace WProg

/-- Sequencing; errors and panics stop the program (`?`, unwinding). -/
def bind {α β : Type} : WProg α → (α → WProg β) → WProg β
  | ret (.ok a), f => f a
  | ret (.err e), _ => ret (.err e)
  | ret .panic, _ => ret .panic
  | write b k, f => write b (k.bind f)
  | tell k, f => tell fun n => (k n).bind f
  | seek p k, f => seek p (k.bind f)
  | flush k, f => flush (k.bind f)

instance : Monad WProg where
  pure a := ret (.ok a)
  bind := bind

/-- `write_all`. -/
def put (b : Bytes) : WProg Unit := write b (ret (.ok ()))

/-- A pure computation. -/
def lift {α : Type} (r : Res α) : WProg α := ret r

/-- Run on a stream that never fails.  Seeking a plain `Write` sink is the `unreachable!` panic of
write.rs 755-757. -/
def exec {α : Type} : WProg α → Sink → Res α × Sink
  | ret r, s => (r, s)
  | write b k, s => k.exec (s.put b)
  | tell k, s => if s.seekable then (k s.pos).exec s else (.panic, s)
  | seek p k, s => if s.seekable then k.exec { s with pos := p } else (.panic, s)
  | flush k, s => k.exec s

/-- The process dies when `n` bytes have been written: the stream it leaves behind. -/
def crash {α : Type} : Nat → WProg α → Sink → Sink
  | _, ret _, s => s
  | n, write b k, s => if n < b.length then s.put (b.take n) else k.crash (n - b.length) (s.put b)
  | n, tell k, s => if s.seekable then (k s.pos).crash n s else s
  | n, seek p k, s => if s.seekable then k.crash n { s with pos := p } else s
  | n, flush k, s => k.crash n s

/-- `std::io::Write::write_all` (default implementation): loop over `write`, retry on `Interrupted`.
Events as for readers: accept at most `k + 1` bytes, `Interrupted`, or another error (among them the
`WriteZero` error for a sink that accepts nothing).  When the schedule is used up everything is
accepted. -/
def writeLoop : List RProg.Ev → Bytes → Sink → Option Nat × Sink × List RProg.Ev
  | [], b, s => (none, s.put b, [])
  | ev :: evs, b, s =>
    if b = [] then (none, s, ev :: evs)
    else
      match ev with
      | .interrupted => writeLoop evs b s
      | .fail c => (some c, s, evs)
      | .short k => writeLoop evs (b.drop (k + 1)) (s.put (b.take (k + 1)))

/-- The event for a `seek` or `flush` call: only failures matter. -/
def opEvent : List RProg.Ev → Option Nat × List RProg.Ev
  | [] => (none, [])
  | .fail c :: evs => (some c, evs)
  | _ :: evs => (none, evs)

/-- Run on a stream that behaves according to a schedule. -/
def runSched {α : Type} : WProg α → Sink → List RProg.Ev → Res α × Sink × List RProg.Ev
  | ret r, s, evs => (r, s, evs)
  | write b k, s, evs =>
    match writeLoop evs b s with
    | (none, s', evs') => k.runSched s' evs'
    | (some c, s', evs') => (.err (.source c), s', evs')
  | tell k, s, evs =>
    if s.seekable then
      match opEvent evs with
      | (none, evs') => (k s.pos).runSched s evs'
      | (some c, evs') => (.err (.source c), s, evs')
    else (.panic, s, evs)
  | seek p k, s, evs =>
    if s.seekable then
      match opEvent evs with
      | (none, evs') => k.runSched { s with pos := p } evs'
      | (some c, evs') => (.err (.source c), s, evs')
    else (.panic, s, evs)
  | flush k, s, evs =>
    match opEvent evs with
    | (none, evs') => k.runSched s evs'
    | (some c, evs') => (.err (.source c), s, evs')

end WProg

/-! ### Header text -/

/-- write.rs 23-27 `ShapeHint`. -/
inductive ShapeHint where
  | nd (dims : List Nat)
  | twoD (recordLen : Nat)
  | oneD
deriving DecidableEq, Repr

/-- write.rs 436-445 `ShapeInfo`. -/
inductive ShapeInfo where
  | known (expected : Nat)
  | auto1 (offset : Nat)
  | auto2 (offset recordLen : Nat) (order : Order)
deriving DecidableEq, Repr

/-- write.rs 17 `FILLER_FOR_UNKNOWN_SIZE`. -/
def filler : Text := List.replicate 20 '*'

/-- write.rs 429-434 `filler_space_padding`. -/
def fillerPadding (actualLen : Nat) : Res Text :=
  if actualLen ≤ 20 then .ok (List.replicate (20 - actualLen) ' ') else .panic

/-- write.rs 405-411 `shape_suffix_1d` (before encoding to bytes; all characters are ASCII). -/
def shapeSuffix1d (axis : Text) : Res Text := do
  let pad ← fillerPadding axis.length
  .ok (axis ++ txt ",), }" ++ pad)

/-- write.rs 416-419: the two axes. -/
def axes2d (order : Order) (recordLen : Nat) (axis : Text) : Text :=
  match order with
  | .c => axis ++ txt ", " ++ Nat.toDigits 10 recordLen
  | .fortran => Nat.toDigits 10 recordLen ++ txt ", " ++ axis

/-- write.rs 413-421 `shape_suffix_2d`. -/
def shapeSuffix2d (order : Order) (recordLen : Nat) (axis : Text) : Res Text := do
  let pad ← fillerPadding axis.length
  .ok (axes2d order recordLen axis ++ txt "), }" ++ pad)

/-- write.rs 601-605. -/
def orderText : Order → Text
  | .c => txt "False"
  | .fortran => txt "True"

/-- write.rs 598-606: the dict text up to the shape. -/
def dictPrefix (d : DType) (order : Order) : Text :=
  txt "{'descr': " ++ d.descr ++ txt ", 'fortran_order': " ++ orderText order ++ txt ", 'shape': ("

/-- write.rs 609-612: the complete shape. -/
def shapeText (dims : List Nat) : Text := (dims.flatMap fun n => Nat.toDigits 10 n ++ txt ", ") ++ txt "), }"

/-- write.rs 597-629 `create_dict`.  The text is kept as characters; offsets are byte offsets. -/
def createDict (M : Machine) (d : DType) (order : Order) (shape : ShapeHint) : Res (Text × ShapeInfo) :=
  match shape with
  | .nd dims => do
    let n ← shapeProduct M 1 dims
    .ok (dictPrefix d order ++ shapeText dims, .known n)
  | .twoD recordLen => do
    let suffix ← shapeSuffix2d order recordLen filler
    .ok (dictPrefix d order ++ suffix, .auto2 (encodeUtf8 (dictPrefix d order)).length recordLen order)
  | .oneD => do
    let suffix ← shapeSuffix1d filler
    .ok (dictPrefix d order ++ suffix, .auto1 (encodeUtf8 (dictPrefix d order)).length)

/-- write.rs 659 `SAFE_U16_CUTOFF`. -/
def safeU16Cutoff : Nat := 0xffff_fc00

/-- write.rs 661-664: the required version properties. -/
def requiredProps (header : Bytes) : VersionProps where
  sizeType := if header.length ≥ safeU16Cutoff then .u32 else .u16
  encoding := if header.any (fun b => decide (b.toNat ≥ 128)) then .utf8 else .ascii

/-- write.rs 678-680: padding and newline. -/
def padHeader (header : Bytes) (before : Nat) : Bytes :=
  header ++ List.replicate (64 - 1 - (header.length + before) % 64) 32 ++ [10]

/-- write.rs 646-683 `determine_required_version_and_pad_header`.  `expect` on
`get_version_props` and the final assertion are explicit panics. -/
def determineVersion (header : Bytes) : Res (Bytes × (UInt8 × UInt8) × VersionProps) :=
  match getVersionProps (getMinimalVersion (requiredProps header)).1 (getMinimalVersion (requiredProps header)).2 with
  | .ok props =>
    if ((padHeader header props.bytesBeforeText).length + props.bytesBeforeText) % 64 = 0 then
      .ok (padHeader header props.bytesBeforeText, getMinimalVersion (requiredProps header), props)
    else .panic
  | _ => .panic

/-- Little-endian encoding in `w` bytes (`write_u16`, `write_u32` of byteorder). -/
def leBytes : Nat → Nat → Bytes
  | 0, _ => []
  | w + 1, n => UInt8.ofNat (n % 256) :: leBytes w (n / 256)

/-- An assertion. -/
def assert (b : Prop) [Decidable b] : Res Unit := if b then .ok () else .panic

/-- write.rs 582-591: the length field. -/
def writeHeaderLen (props : VersionProps) (len : Nat) : WProg Unit :=
  match props.sizeType with
  | .u16 => do
    WProg.lift (assert (len ≤ 0xffff))
    WProg.put (leBytes 2 len)
  | .u32 => do
    WProg.lift (assert (len ≤ 0xffff_ffff))
    WProg.put (leBytes 4 len)

/-- write.rs 570-572: the outermost dtype must not be an array. -/
def DType.isArray : DType → Bool
  | .array _ _ => true
  | _ => false

/-- write.rs 564-595 `write_header` (all of `write_header_only`, 195-208). -/
def writeHeader (M : Machine) (d : DType) (order : Order) (shape : ShapeHint) : WProg (ShapeInfo × VersionProps) := do
  WProg.lift (assert (d.isArray = false))
  let dict ← WProg.lift (createDict M d order shape)
  let padded ← WProg.lift (determineVersion (encodeUtf8 dict.1))
  WProg.put [0x93]
  WProg.put (encodeUtf8 (txt "NUMPY"))
  WProg.put [padded.2.1.1, padded.2.1.2]
  WProg.lift (assert ((padded.1.length + padded.2.2.bytesBeforeText) % 16 = 0))
  writeHeaderLen padded.2.2 padded.1.length
  WProg.put padded.1
  pure (dict.2, padded.2.2)

end Npyz
