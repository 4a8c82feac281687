import Verif.Model.Serialize
/-!
Model of the reading half of `/repo/src/read.rs`: `NpyFile`, `NpyReader`, `NpyData`.
-/
namespace Npyz

/-! ### Sources -/

/-- A user-supplied `R: io::Read (+ io::Seek)`.  `exec` runs a reading function on it, `seek` is
`seek(SeekFrom::Current(_))`. -/
structure Source (σ : Type) where
  exec : {α : Type} → RProg α → σ → Res α × σ
  seek : Int → σ → Res Unit × σ

/-- A well-behaved in-memory or on-disk source: contents and position. -/
structure Src where
  data : Bytes
  pos : Nat
deriving DecidableEq, Repr

/-- What is left to read. -/
def Src.rest (s : Src) : Bytes := s.data.drop s.pos

/-- Advance so that only `rest` is left (`rest` is a suffix of what was left). -/
def Src.leave (s : Src) (rest : Bytes) : Src := { s with pos := s.pos + (s.rest.length - rest.length) }

/-- `Cursor::seek`, `File::seek`: positions below zero or above `u64::MAX` are errors. -/
def Src.seek (off : Int) (s : Src) : Res Unit × Src :=
  if 0 ≤ (s.pos : Int) + off ∧ (s.pos : Int) + off < u64Lim then (.ok (), { s with pos := ((s.pos : Int) + off).toNat })
  else (.err (.source 22), s)

/-- The well-behaved source. -/
def disk : Source Src where
  exec p s := ((p.run s.rest).1, s.leave (p.run s.rest).2)
  seek := Src.seek

/-- Like `Src`, but every `read` and `seek` call behaves according to a schedule of short reads,
interruptions and failures. -/
structure FlakySrc where
  src : Src
  evs : List RProg.Ev

/-- A `seek` call uses up one event of the schedule; only failures matter. -/
def FlakySrc.seek (off : Int) (s : FlakySrc) : Res Unit × FlakySrc :=
  match s.evs with
  | .fail c :: evs => (.err (.source c), { s with evs })
  | evs => ((s.src.seek off).1, ⟨(s.src.seek off).2, evs.tail⟩)

/-- The scheduled source. -/
def flaky : Source FlakySrc where
  exec p s := ((p.runSched s.src.rest s.evs).1,
    ⟨s.src.leave (p.runSched s.src.rest s.evs).2.1, (p.runSched s.src.rest s.evs).2.2⟩)
  seek := FlakySrc.seek

/-! ### Arithmetic -/

/-- Reduce to an `i64`. -/
def wrapI64 (x : Int) : Int := (x + 2 ^ 63) % 2 ^ 64 - 2 ^ 63

/-- An `i64` operation with exact result `x`. -/
def Machine.i64 (M : Machine) (x : Int) : Res Int :=
  if -2 ^ 63 ≤ x ∧ x < 2 ^ 63 then .ok x
  else if M.overflowChecks then .panic
  else .ok (wrapI64 x)

/-- A `u64` or `usize` subtraction, `bits` wide. -/
def Machine.subUint (M : Machine) (bits a b : Nat) : Res Nat :=
  if b ≤ a then .ok (a - b)
  else if M.overflowChecks then .panic
  else .ok (2 ^ bits + a - b)

/-! ### Files and readers -/

/-- read.rs 122-126 `NpyFile`. -/
structure NpyFile (σ : Type) where
  header : NpyHeader
  src : σ

/-- read.rs 181-186 `NpyReader`; the type reader is represented by its `read_one` program. -/
structure NpyReader (V : Type) (σ : Type) where
  header : NpyHeader
  prog : RProg V
  src : σ
  cur : Nat

/-- read.rs 219-222 `NpyFile::new`. -/
def NpyFile.new {σ : Type} (M : Machine) (py : PyParser) (S : Source σ) (src : σ) : Res (NpyFile σ) × σ :=
  match S.exec (NpyHeader.fromReader M py) src with
  | (.ok h, s) => (.ok ⟨h, s⟩, s)
  | (.err e, s) => (.err e, s)
  | (.panic, s) => (.panic, s)

/-- read.rs 225-227 `NpyFile::with_header`. -/
def NpyFile.withHeader {σ : Type} (header : NpyHeader) (src : σ) : NpyFile σ := ⟨header, src⟩

/-- read.rs 235-237 `NpyFile::into_inner`. -/
def NpyFile.intoInner {σ : Type} (f : NpyFile σ) : σ := f.src

/-- read.rs 290-296 `forbid_pickle`. -/
def NpyHeader.forbidPickle (h : NpyHeader) : DRes Unit := if h.usesPickled then .err .requiresPickle else .ok ()

/-- read.rs 314-320 `NpyFile::data`, for any implementation `reader` of `Deserialize`: it gets the
dtype and returns its `read_one` program. -/
def NpyFile.dataWith {V σ : Type} (reader : DType → DRes (RProg V)) (f : NpyFile σ) : DRes (NpyReader V σ) := do
  f.header.forbidPickle
  let prog ← reader f.header.dtype
  .ok ⟨f.header, prog, f.src, 0⟩

/-- read.rs 314-320 `NpyFile::data`, for the element types of the library. -/
def NpyFile.data {σ : Type} (M : Machine) (t : Ty) (f : NpyFile σ) : DRes (NpyReader t.Val σ) := f.dataWith (t.reader M)

/-- read.rs 325-336 `NpyFile::try_data`. -/
def NpyFile.tryData {σ : Type} (M : Machine) (t : Ty) (f : NpyFile σ) : Out (NpyFile σ) (NpyReader t.Val σ) :=
  if f.header.usesPickled then .err f
  else
    match t.reader M f.header.dtype with
    | .ok prog => .ok ⟨f.header, prog, f.src, 0⟩
    | .err _ => .err f
    | .panic => .panic

namespace NpyReader
variable {V : Type} {σ : Type}

/-- read.rs 401-403 `total_len`. -/
def totalLen (r : NpyReader V σ) : Nat := r.header.nRecords

/-- read.rs 406-408 `len`. -/
def len (M : Machine) (r : NpyReader V σ) : Res Nat := M.subUint 64 r.header.nRecords r.cur

/-- read.rs 559-566 `next`. -/
def next (S : Source σ) (r : NpyReader V σ) : Option (Res V) × NpyReader V σ :=
  if r.cur < r.header.nRecords then
    (some (S.exec r.prog r.src).1, { r with src := (S.exec r.prog r.src).2, cur := r.cur + 1 })
  else (none, r)

/-- read.rs 568-575 `size_hint`. -/
def sizeHint (M : Machine) (r : NpyReader V σ) : Res (Nat × Option Nat) := do
  let n ← r.len M
  if n > M.usizeLim - 1 then .ok (M.usizeLim - 1, none) else .ok (n, some n)

/-- read.rs 430-437: move by a nonzero number of items. -/
def seekBy (M : Machine) (S : Source σ) (r : NpyReader V σ) (delta : Int) (index : Nat) : Res Unit × NpyReader V σ :=
  match r.header.itemSize with
  | none => (.err .unsupported, r)
  | some size =>
    match M.i64 (delta * wrapI64 size) with
    | .ok off =>
      match S.seek off r.src with
      | (.ok (), s) => (.ok (), { r with src := s, cur := index })
      | (.err e, s) => (.err e, { r with src := s })
      | (.panic, s) => (.panic, { r with src := s })
    | .err e => (.err e, r)
    | .panic => (.panic, r)

/-- read.rs 422-440 `seek_to`. -/
def seekTo (M : Machine) (S : Source σ) (r : NpyReader V σ) (index : Nat) : Res Unit × NpyReader V σ :=
  if index ≤ r.totalLen then
    match M.i64 (wrapI64 index - wrapI64 r.cur) with
    | .ok delta => if delta ≠ 0 then r.seekBy M S delta index else (.ok (), r)
    | .err e => (.err e, r)
    | .panic => (.panic, r)
  else (.panic, r)

/-- read.rs 452: `self.next().unwrap()`. -/
def nextUnwrap (S : Source σ) (r : NpyReader V σ) : Res V × NpyReader V σ :=
  match r.next S with
  | (some x, r') => (x, r')
  | (none, r') => (.panic, r')

/-- read.rs 447-453 `read_at`. -/
def readAt (M : Machine) (S : Source σ) (r : NpyReader V σ) (index : Nat) : Res V × NpyReader V σ :=
  if index < r.totalLen then
    match r.seekTo M S index with
    | (.ok (), r') => r'.nextUnwrap S
    | (.err e, r') => (.err e, r')
    | (.panic, r') => (.panic, r')
  else (.panic, r)

/-- `Iterator::collect::<io::Result<Vec<T>>>` (read.rs 305): call `next` until `None` or the first
`Err`.  The first argument bounds the number of calls; `collect` below gives enough. -/
def collectLoop (S : Source σ) : Nat → NpyReader V σ → Res (List V) × NpyReader V σ
  | 0, r => (.panic, r)
  | k + 1, r =>
    match r.next S with
    | (none, r') => (.ok [], r')
    | (some (.ok v), r') =>
      match collectLoop S k r' with
      | (.ok vs, r'') => (.ok (v :: vs), r'')
      | (.err e, r'') => (.err e, r'')
      | (.panic, r'') => (.panic, r'')
    | (some (.err e), r') => (.err e, r')
    | (some .panic, r') => (.panic, r')

/-- `collect`. -/
def collect (S : Source σ) (r : NpyReader V σ) : Res (List V) × NpyReader V σ :=
  collectLoop S (r.header.nRecords - r.cur + 1) r

end NpyReader

/-- read.rs 303-308 `NpyFile::into_vec`: the result and what the (borrowed) source looks like
afterwards. -/
def NpyFile.intoVec {σ : Type} (M : Machine) (S : Source σ) (t : Ty) (f : NpyFile σ) : Res (List t.Val) × σ :=
  match f.data M t with
  | .ok r => ((r.collect S).1, (r.collect S).2.src)
  | .err _ => (.err (.invalidData "dtype error"), f.src)
  | .panic => (.panic, f.src)

/-! ### Histories of calls -/

/-- A call on a reader. -/
inductive ROp where
  | next
  | seekTo (index : Nat)
  | readAt (index : Nat)
deriving DecidableEq, Repr

/-- What a call returned. -/
inductive ROut (V : Type) where
  | item (x : Option (Res V))
  | moved (x : Res Unit)
  | value (x : Res V)

/-- One call. -/
def NpyReader.step {V : Type} {σ : Type} (M : Machine) (S : Source σ) (r : NpyReader V σ) : ROp → ROut V × NpyReader V σ
  | .next => (.item (r.next S).1, (r.next S).2)
  | .seekTo i => (.moved (r.seekTo M S i).1, (r.seekTo M S i).2)
  | .readAt i => (.value (r.readAt M S i).1, (r.readAt M S i).2)

/-- A sequence of calls. -/
def NpyReader.steps {V : Type} {σ : Type} (M : Machine) (S : Source σ) : List ROp → NpyReader V σ → List (ROut V) × NpyReader V σ
  | [], r => ([], r)
  | op :: ops, r =>
    ((r.step M S op).1 :: (steps M S ops (r.step M S op).2).1, (steps M S ops (r.step M S op).2).2)

/-! ### `NpyData` -/

/-- read.rs 196-199 `NpyData` over a byte slice: the slice is the rest after the header. -/
structure NpyData (t : Ty) where
  header : NpyHeader
  prog : RProg t.Val
  slice : Bytes

/-- read.rs 463-479 `NpyData::from_bytes`. -/
def NpyData.fromBytes (M : Machine) (py : PyParser) (t : Ty) (bytes : Bytes) : Res (NpyData t) :=
  match NpyFile.new M py disk ⟨bytes, 0⟩ with
  | (.ok f, _) =>
    match f.data M t with
    | .ok r =>
      match r.header.itemSize with
      | some size =>
        match M.mulU64 size r.header.nRecords with
        | .ok total => if total = r.src.rest.length then .ok ⟨r.header, r.prog, r.src.rest⟩ else .panic
        | .err e => .err e
        | .panic => .panic
      | none => .ok ⟨r.header, r.prog, r.src.rest⟩
    | .err _ => .err (.invalidData "dtype error")
    | .panic => .panic
  | (.err e, _) => .err e
  | (.panic, _) => .panic

namespace NpyData
variable {t : Ty}

/-- read.rs 485-489 `len`: truncated to `usize`. -/
def len (M : Machine) (d : NpyData t) : Nat := d.header.nRecords % M.usizeLim

/-- `Result::unwrap`. -/
def unwrap {α : Type} : Res α → Res α
  | .ok a => .ok a
  | _ => .panic

/-- A `usize` multiplication. -/
def mulUsize (M : Machine) (a b : Nat) : Res Nat :=
  if a * b < M.usizeLim then .ok (a * b)
  else if M.overflowChecks then .panic
  else .ok ((a * b) % M.usizeLim)

/-- read.rs 519-523 `get_unchecked`. -/
def getUnchecked (M : Machine) (d : NpyData t) (i : Nat) : Res t.Val :=
  match d.header.itemSize with
  | none => .panic
  | some size =>
    match mulUsize M i size with
    | .ok off => if off ≤ d.slice.length then unwrap (d.prog.run (d.slice.drop off)).1 else .panic
    | .err e => .err e
    | .panic => .panic

/-- read.rs 503-509 `get`. -/
def get (M : Machine) (d : NpyData t) (i : Nat) : Res (Option t.Val) :=
  if i < d.len M then
    match d.getUnchecked M i with
    | .ok v => .ok (some v)
    | .err e => .err e
    | .panic => .panic
  else .ok none

/-- read.rs 532-533: decode `k` elements from the slice. -/
def toVecLoop (prog : RProg t.Val) : Nat → Bytes → Res (List t.Val)
  | 0, _ => .ok []
  | k + 1, bs =>
    match prog.run bs with
    | (.ok v, rest) =>
      match toVecLoop prog k rest with
      | .ok vs => .ok (v :: vs)
      | .err e => .err e
      | .panic => .panic
    | _ => .panic

/-- read.rs 531-534 `to_vec`. -/
def toVec (M : Machine) (d : NpyData t) : Res (List t.Val) := toVecLoop d.prog (d.len M) d.slice

end NpyData

/-- read.rs 581-585 `IntoIter`. -/
structure IntoIter (t : Ty) where
  data : NpyData t
  i : Nat

/-- read.rs 606-610 `IntoIter::next` (the counter cannot reach `usize::MAX` in practice). -/
def IntoIter.next {t : Ty} (M : Machine) (it : IntoIter t) : Res (Option t.Val) × IntoIter t :=
  (it.data.get M it.i, { it with i := it.i + 1 })

/-- read.rs 612-614 `IntoIter::size_hint`; `ExactSizeIterator::len` is the same number. -/
def IntoIter.sizeHint {t : Ty} (M : Machine) (it : IntoIter t) : Res Nat :=
  M.subUint M.usizeBits (it.data.len M) it.i

end Npyz
