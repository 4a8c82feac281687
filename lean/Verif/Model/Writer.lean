import Verif.Model.Read
/-!
Model of the file writer of `/repo/src/write.rs`: builder, `NpyWriter`, `to_file_1d`.
(The header part of that file is in `Model/Write.lean`, element encoding in `Model/Serialize.lean`.)
-/
namespace Npyz

/-- A `u64` addition. -/
def Machine.addU64 (M : Machine) (a b : Nat) : Res Nat :=
  if a + b < u64Lim then .ok (a + b)
  else if M.overflowChecks then .panic
  else .ok ((a + b) % u64Lim)

/-! ### Builder -/

/-- The builder types of write.rs 57-60, 212-230: `WriteOptions` wrapped in any number of
`WithWriter`, `WithDType`, `WithShape`. -/
inductive Builder (W : Type) where
  | options (order : Order)
  | withWriter (writer : W) (inner : Builder W)
  | withDType (dtype : DType) (inner : Builder W)
  | withShape (shape : List Nat) (inner : Builder W)

namespace Builder
variable {W : Type}

/-- write.rs 64-67 `WriteOptions::new`. -/
def new : Builder W := options .c

/-- write.rs 293-311 `order`: handed down to the innermost `WriteOptions`. -/
def setOrder (o : Order) : Builder W → Builder W
  | options _ => options o
  | withWriter w b => withWriter w (b.setOrder o)
  | withDType d b => withDType d (b.setOrder o)
  | withShape s b => withShape s (b.setOrder o)

/-- write.rs 295, 300, 305, 310 `__get_order`. -/
def getOrder : Builder W → Order
  | options o => o
  | withWriter _ b => b.getOrder
  | withDType _ b => b.getOrder
  | withShape _ b => b.getOrder

/-- write.rs 315-317, 336-340, 358-362 `__get_dtype`; `none` where the trait `HasDType` is not
implemented (the program does not compile). -/
def getDType : Builder W → Option DType
  | options _ => none
  | withDType d _ => some d
  | withWriter _ b => b.getDType
  | withShape _ b => b.getDType

/-- write.rs 318-320, 341-345, 358-362 `__get_shape`. -/
def getShape : Builder W → Option (List Nat)
  | options _ => none
  | withShape s _ => some s
  | withWriter _ b => b.getShape
  | withDType _ b => b.getShape

/-- write.rs 321-325, 346-352, 358-362 `__into_writer`. -/
def getWriter : Builder W → Option W
  | options _ => none
  | withWriter w _ => some w
  | withDType _ b => b.getWriter
  | withShape _ b => b.getWriter

/-- The builder methods; `default_dtype` (99) is `dtype` with a particular argument. -/
inductive Call (W : Type) where
  | dtype (d : DType)
  | shape (s : List Nat)
  | order (o : Order)
  | writer (w : W)

/-- write.rs 96-123: one call. -/
def call (b : Builder W) : Call W → Builder W
  | .dtype d => withDType d b
  | .shape s => withShape s b
  | .order o => b.setOrder o
  | .writer w => withWriter w b

/-- A chain of calls. -/
def calls (cs : List (Call W)) : Builder W := cs.foldl call new

end Builder

/-! ### Writing -/

namespace WProg

/-- `seek(SeekFrom::Current(0))`. -/
def position : WProg Nat := tell fun n => ret (.ok n)

/-- `seek(SeekFrom::Start(p))`. -/
def seekTo (p : Nat) : WProg Unit := seek p (ret (.ok ()))

/-- `flush()`. -/
def flushAll : WProg Unit := flush (ret (.ok ()))

/-- Hand an error to the caller as a value.  (Only meant for `exec` and `crash`, where errors come
from the program and not from the stream.) -/
def catchErr {α : Type} : WProg α → WProg (Res α)
  | ret (.ok a) => ret (.ok (.ok a))
  | ret (.err e) => ret (.ok (.err e))
  | ret .panic => ret .panic
  | write b k => write b k.catchErr
  | tell k => tell fun n => (k n).catchErr
  | seek p k => seek p k.catchErr
  | flush k => flush k.catchErr

end WProg

/-- A user-supplied `W: io::Write (+ io::Seek)`. -/
structure Target (σ : Type) where
  exec : {α : Type} → WProg α → σ → Res α × σ

/-- A stream that never fails. -/
def solid : Target Sink where
  exec p s := p.exec s

/-- A stream whose calls behave according to a schedule. -/
def shaky : Target (Sink × List RProg.Ev) where
  exec p s := p.runSched s.1 s.2

/-- write.rs 396-403 `NpyWriter`, without the stream, which is passed to each method.  The type
writer is represented by its `write_one` program. -/
structure NpyWriter (V : Type) where
  startPos : Option Nat
  info : ShapeInfo
  numItems : Nat
  prog : V → WProg Unit
  props : VersionProps

/-- write.rs 135-140, 156-161, 180-185: `begin_nd` wraps the stream in `MaybeSeek::Isnt`, the others in
`MaybeSeek::new_seek`. -/
def ShapeHint.seeks : ShapeHint → Bool
  | .nd _ => false
  | .twoD _ => true
  | .oneD => true

/-- write.rs 490: a dtype error becomes an `InvalidData` error. -/
def dtypeToIo {α : Type} : DRes α → Res α
  | .ok a => .ok a
  | .err _ => .err (.invalidData "dtype")
  | .panic => .panic

/-- write.rs 479-482: the start position. -/
def startPosition (hint : ShapeHint) : WProg (Option Nat) :=
  if hint.seeks then WProg.position >>= fun p => pure (some p) else pure none

namespace NpyWriter
variable {V : Type}

/-- write.rs 476-499 `_begin`, for any implementation `writer` of `Serialize`: it gets the dtype and
returns its `write_one` programs. -/
def beginWith (M : Machine) (writer : DType → DRes (V → WProg Unit)) (d : DType) (order : Order) (hint : ShapeHint) :
    WProg (NpyWriter V) := do
  let start ← startPosition hint
  let r ← writeHeader M d order hint
  let prog ← WProg.lift (dtypeToIo (writer d))
  pure ⟨start, r.1, 0, prog, r.2⟩

/-- write.rs 476-499 `_begin`, for the element types of the library. -/
abbrev «begin» (M : Machine) (t : Ty) (d : DType) (order : Order) (hint : ShapeHint) : WProg (NpyWriter t.Val) :=
  beginWith M (t.writer M) d order hint

/-- write.rs 503: `self.num_items += 1`. -/
def counted (M : Machine) (w : NpyWriter V) : Res (NpyWriter V) :=
  M.addU64 w.numItems 1 >>= fun n => .ok { w with numItems := n }

/-- write.rs 502-505 `push`. -/
def push {σ : Type} (M : Machine) (T : Target σ) (w : NpyWriter V) (v : V) (s : σ) : Res Unit × NpyWriter V × σ :=
  match w.counted M with
  | .ok w' => ((T.exec (w'.prog v) s).1, w', (T.exec (w'.prog v) s).2)
  | .err e => (.err e, w, s)
  | .panic => (.panic, w, s)

/-- write.rs 508-510 `extend`: stop at the first error. -/
def extend {σ : Type} (M : Machine) (T : Target σ) (w : NpyWriter V) : List V → σ → Res Unit × NpyWriter V × σ
  | [], s => (.ok (), w, s)
  | v :: vs, s =>
    match w.push M T v s with
    | (.ok (), w', s') => w'.extend M T vs s'
    | (r, w', s') => (r, w', s')

/-- A caller that pushes one value after the other and carries on after errors: the results, the
writer and the stream. -/
def pushAll {σ : Type} (M : Machine) (T : Target σ) (w : NpyWriter V) : List V → σ → List (Res Unit) × NpyWriter V × σ
  | [], s => ([], w, s)
  | v :: vs, s => ((w.push M T v s).1 :: ((w.push M T v s).2.1.pushAll M T vs (w.push M T v s).2.2).1,
      ((w.push M T v s).2.1.pushAll M T vs (w.push M T v s).2.2).2)

/-- write.rs 523, 539 `self.start_pos.unwrap()`. -/
def unwrapStart (w : NpyWriter V) : Res Nat :=
  match w.startPos with
  | some p => .ok p
  | none => .panic

/-- write.rs 523-529, 539-545: rewrite the shape. -/
def rewrite (M : Machine) (w : NpyWriter V) (offset : Nat) (suffix : Res Text) : WProg Unit := do
  let start ← WProg.lift w.unwrapStart
  let textPos ← WProg.lift (M.addU64 start w.props.bytesBeforeText)
  let shapePos ← WProg.lift (M.addU64 textPos offset)
  let endPos ← WProg.position
  WProg.seekTo shapePos
  let text ← WProg.lift suffix
  WProg.put (encodeUtf8 text)
  WProg.seekTo endPos

/-- write.rs 532-536, 543: `num_items % record_len` and `num_items / record_len`; division by zero panics. -/
def rows (n recordLen : Nat) : Res Nat :=
  if recordLen = 0 then .panic
  else if n % recordLen ≠ 0 then .err (.invalidData "items not divisible")
  else .ok (n / recordLen)

/-- write.rs 512-547: the `match` of `finish_`. -/
def patch (M : Machine) (w : NpyWriter V) : WProg Unit :=
  match w.info with
  | .known expected =>
    WProg.lift (if expected ≠ w.numItems then .err (.invalidData "wrong number of items") else .ok ())
  | .auto1 offset => w.rewrite M offset (shapeSuffix1d (Nat.toDigits 10 w.numItems))
  | .auto2 offset recordLen order => do
    let n ← WProg.lift (rows w.numItems recordLen)
    w.rewrite M offset (shapeSuffix2d order recordLen (Nat.toDigits 10 n))

/-- write.rs 512-550 `finish_`. -/
def finish_ (M : Machine) (w : NpyWriter V) : WProg Unit := do
  w.patch M
  WProg.flushAll

/-- write.rs 631-635 `drop`: errors are ignored, panics are not. -/
def drop {σ : Type} (M : Machine) (T : Target σ) (w : NpyWriter V) (s : σ) : Res Unit × σ :=
  match T.exec (w.finish_ M) s with
  | (.panic, s') => (.panic, s')
  | (_, s') => (.ok (), s')

/-- write.rs 559-561 `finish`: it consumes the writer, so `drop` runs afterwards (also when
unwinding from a panic). -/
def finish {σ : Type} (M : Machine) (T : Target σ) (w : NpyWriter V) (s : σ) : Res Unit × σ :=
  match w.drop M T (T.exec (w.finish_ M) s).2 with
  | (.panic, s') => (.panic, s')
  | (_, s') => ((T.exec (w.finish_ M) s).1, s')

/-- Start a writer, push values (carrying on after errors) and stop: one program, so that it can be
interrupted anywhere. -/
def pushSession (M : Machine) (w : NpyWriter V) : List V → WProg (NpyWriter V)
  | [] => pure w
  | v :: vs => do
    let w' ← WProg.lift (w.counted M)
    let _ ← (w'.prog v).catchErr
    w'.pushSession M vs

/-- See `pushSession`. -/
def sessionWith (M : Machine) (writer : DType → DRes (V → WProg Unit)) (d : DType) (order : Order) (hint : ShapeHint) (vs : List V) :
    WProg (NpyWriter V) := do
  let w ← NpyWriter.beginWith M writer d order hint
  w.pushSession M vs

/-- See `pushSession`; for an element type of the library. -/
def session (M : Machine) (t : Ty) (d : DType) (order : Order) (hint : ShapeHint) (vs : List t.Val) : WProg (NpyWriter t.Val) :=
  sessionWith M (t.writer M) d order hint vs

/-- A complete session: start, push all values, finish, drop. -/
def saveWith {σ : Type} (M : Machine) (T : Target σ) (writer : DType → DRes (V → WProg Unit)) (d : DType) (order : Order)
    (hint : ShapeHint) (vs : List V) (s : σ) : Res Unit × σ :=
  match T.exec (beginWith M writer d order hint) s with
  | (.ok w, s') =>
    match w.extend M T vs s' with
    | (.ok (), w', s'') => w'.finish M T s''
    | (.err e, w', s'') =>
      -- `?`: the writer is dropped on the way out
      match w'.drop M T s'' with
      | (.panic, s3) => (.panic, s3)
      | (_, s3) => (.err e, s3)
    | (.panic, w', s'') => (.panic, (w'.drop M T s'').2)
  | (.err e, s') => (.err e, s')
  | (.panic, s') => (.panic, s')

/-- A complete session for an element type of the library. -/
def save {σ : Type} (M : Machine) (T : Target σ) (t : Ty) (d : DType) (order : Order) (hint : ShapeHint)
    (vs : List t.Val) (s : σ) : Res Unit × σ := saveWith M T (t.writer M) d order hint vs s

end NpyWriter

/-- write.rs 701-713 `to_file_1d`, after `File::create`, on the (empty) file; `OutFile::open` and
`close` are 452-474.  The `BufWriter` is in `T`: see `buffered`.  `none`: the type has no default dtype (the program
does not compile). -/
def toFile1d {σ : Type} (M : Machine) (T : Target σ) (t : Ty) (vs : List t.Val) (s : σ) : Option (Res Unit × σ) :=
  match t.defaultDType M with
  | none => none
  | some (.ok d) => some (NpyWriter.save M T t d .c .oneD vs s)
  | some _ => some (.panic, s)

namespace Builder
variable {W : Type}

/-- write.rs 128-141 `begin_nd`: the stream, and what is done to it. -/
def beginNd (M : Machine) (t : Ty) (b : Builder W) : Option (W × WProg (NpyWriter t.Val)) := do
  let d ← b.getDType
  let shape ← b.getShape
  let w ← b.getWriter
  some (w, NpyWriter.begin M t d b.getOrder (.nd shape))

/-- write.rs 150-162 `begin_1d`. -/
def begin1d (M : Machine) (t : Ty) (b : Builder W) : Option (W × WProg (NpyWriter t.Val)) := do
  let d ← b.getDType
  let w ← b.getWriter
  some (w, NpyWriter.begin M t d b.getOrder .oneD)

/-- write.rs 174-186 `begin_2d`. -/
def begin2d (M : Machine) (t : Ty) (recordLen : Nat) (b : Builder W) : Option (W × WProg (NpyWriter t.Val)) := do
  let d ← b.getDType
  let w ← b.getWriter
  some (w, NpyWriter.begin M t d b.getOrder (.twoD recordLen))

/-- write.rs 195-208 `write_header_only`. -/
def writeHeaderOnly (M : Machine) (b : Builder W) : Option (W × WProg (ShapeInfo × VersionProps)) := do
  let d ← b.getDType
  let shape ← b.getShape
  let w ← b.getWriter
  some (w, writeHeader M d b.getOrder (.nd shape))

end Builder

end Npyz
