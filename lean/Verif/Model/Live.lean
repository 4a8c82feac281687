import Verif.Model.BufRead
import Verif.Model.Buffer
/-!
A file that is being changed by another program while it is read.  `NpyFile::new` and `NpyReader` (read.rs 219-222, 412-445, 556-564) read from a `File`,
with or without a `BufReader` around it; what each `read` call of the file returns depends on what it holds at that moment.
-/
namespace Npyz
set_option autoImplicit false

namespace RProg

/-- `Read::read_exact` (for read.rs 340-342) on such a file, through a `BufReader` of capacity `cap` whose buffer is empty; `cap = 0`: on the file itself.  Each
call of `read` of the file finds the contents `c` and returns at most `k + 1` bytes of it from the position on; when the schedule is used up, the file holds
`now` and no longer changes.  A `BufReader` asks for `cap` bytes if it needs less, and keeps what it does not need.  Returns the bytes (none if the end of the
file was met first), the buffer, the position in the file and the unused schedule. -/
def liveLoop (now : Bytes) (cap : Nat) : List (Bytes × Nat) → Nat → Nat → Bytes → Option Bytes × Bytes × Nat × List (Bytes × Nat)
  | [], need, pos, got =>
    if need ≤ (now.drop pos).length then
      (some (got ++ (now.drop pos).take need), ((now.drop pos).take (max need cap)).drop need, pos + ((now.drop pos).take (max need cap)).length, [])
    else (none, [], pos + (now.drop pos).length, [])
  | (c, k) :: evs, need, pos, got =>
    if c.drop pos = [] then (none, [], pos, evs)
    else
      let b := (c.drop pos).take (min (k + 1) (max need cap))
      if need ≤ b.length then (some (got ++ b.take need), b.drop need, pos + b.length, evs)
      else liveLoop now cap evs (need - b.length) (pos + b.length) (got ++ b)

/-- `Read::read_exact` (for read.rs 340-342): what is in the buffer comes first. -/
def liveExact (now : Bytes) (cap need : Nat) (buf : Bytes) (pos : Nat) (evs : List (Bytes × Nat)) : Option Bytes × Bytes × Nat × List (Bytes × Nat) :=
  if need ≤ buf.length then (some (buf.take need), buf.drop need, pos, evs)
  else liveLoop now cap evs (need - buf.length) pos buf

/-- Run a reading function on such a file. -/
def runLive {α : Type} (now : Bytes) (cap : Nat) : RProg α → Bytes → Nat → List (Bytes × Nat) → Res α × Bytes × Nat × List (Bytes × Nat)
  | ret r, buf, pos, evs => (r, buf, pos, evs)
  | read n eof k, buf, pos, evs =>
    match liveExact now cap n buf pos evs with
    | (some b, buf', pos', evs') => runLive now cap (k b) buf' pos' evs'
    | (none, buf', pos', evs') => (.err eof, buf', pos', evs')

end RProg

/-- The reader's side of such a file: what has been fetched from it but not been read yet, the position in the file behind that, what the file holds at the
following calls, and what it holds afterwards. -/
structure LiveSrc where
  buf : Bytes
  pos : Nat
  evs : List (Bytes × Nat)
  now : Bytes

/-- The changing file as a source, with a `BufReader` of capacity `cap` (0: none).  (`seek`, read.rs 435, does not depend on the contents.) -/
def live (cap : Nat) : Source LiveSrc where
  exec p s :=
    ((p.runLive s.now cap s.buf s.pos s.evs).1,
      ⟨(p.runLive s.now cap s.buf s.pos s.evs).2.1, (p.runLive s.now cap s.buf s.pos s.evs).2.2.1, (p.runLive s.now cap s.buf s.pos s.evs).2.2.2, s.now⟩)
  seek off s :=
    match (⟨⟨⟨s.now, s.pos⟩, []⟩, s.buf⟩ : BufReadSrc).seek off with
    | (r, b) => (r, { s with buf := b.buf, pos := b.inner.src.pos })

/-- A complete successful session as one program, so that it can be looked at after any number of bytes: start, push all values, finish (write.rs 559-561),
drop (write.rs 631-635, which completes the header once more). -/
def NpyWriter.saveProg (M : Machine) (t : Ty) (d : DType) (order : Order) (hint : ShapeHint) (vs : List t.Val) : WProg Unit := do
  let w ← NpyWriter.session M t d order hint vs
  w.finish_ M
  w.finish_ M

/-- What a program does to a file through a `BufWriter` of capacity `cap` (write.rs 448-474, 701-713) with `buf` in its buffer, including the drop of the
`BufWriter`: the calls of the file, as a program itself.  (The file takes what it is given; for one that does not, see `WProg.runBuf`.) -/
def WProg.throughBuf {α : Type} (cap : Nat) : WProg α → Bytes → WProg α
  | ret r, buf => .write buf (.ret r)
  | write b k, buf =>
    if b = [] then k.throughBuf cap buf
    else if buf.length + b.length ≤ cap ∧ b.length < cap then k.throughBuf cap (buf ++ b)
    else .write buf (if b.length < cap then k.throughBuf cap b else .write b (k.throughBuf cap []))
  | tell k, buf => .write buf (.tell fun p => (k p).throughBuf cap [])
  | seek p k, buf => .write buf (.seek p (k.throughBuf cap []))
  | flush k, buf => .write buf (.flush (k.throughBuf cap []))

namespace WProg

/-- What another program can find in the file during one call of `write` that accepts `b`: any part of it may have arrived. -/
def parts (b : Bytes) (s : Sink) : List Bytes := (List.range (b.length + 1)).map fun j => (s.put (b.take j)).data

/-- What another program can find in the file during `write_all` (`writeLoop`). -/
def writeSeen : List RProg.Ev → Bytes → Sink → List Bytes
  | [], b, s => parts b s
  | ev :: evs, b, s =>
    if b = [] then []
    else
      match ev with
      | .interrupted => writeSeen evs b s
      | .fail _ => []
      | .short k => parts (b.take (k + 1)) s ++ writeSeen evs (b.drop (k + 1)) (s.put (b.take (k + 1)))

/-- What another program can find in the file while a program writes to it (`runSched`): the contents, in order. -/
def seen {α : Type} : WProg α → Sink → List RProg.Ev → List Bytes
  | ret _, _, _ => []
  | write b k, s, evs =>
    writeSeen evs b s ++
      match writeLoop evs b s with
      | (none, s', evs') => k.seen s' evs'
      | (some _, _, _) => []
  | tell k, s, evs =>
    if s.seekable then
      match opEvent evs with
      | (none, evs') => (k s.pos).seen s evs'
      | (some _, _) => []
    else []
  | seek p k, s, evs =>
    if s.seekable then
      match opEvent evs with
      | (none, evs') => k.seen { s with pos := p } evs'
      | (some _, _) => []
    else []
  | flush k, s, evs =>
    match opEvent evs with
    | (none, evs') => k.seen s evs'
    | (some _, _) => []

end WProg

/-- A stream that behaves according to a schedule (`shaky`), with a record of what it held. -/
def traced : Target (Sink × List RProg.Ev × List Bytes) where
  exec p s := ((p.runSched s.1 s.2.1).1, (p.runSched s.1 s.2.1).2.1, (p.runSched s.1 s.2.1).2.2, s.2.2 ++ p.seen s.1 s.2.1)

/-- A session that need not succeed: start (write.rs 476-499), push values until one cannot be written (write.rs 502-510), then `finish` (write.rs 559-561) if
all could be pushed and `fin` is set; otherwise, and after a failed push, the writer is just dropped (write.rs 631-635). -/
def NpyWriter.attempt {σ : Type} (M : Machine) (T : Target σ) (t : Ty) (d : DType) (order : Order) (hint : ShapeHint) (vs : List t.Val) (fin : Bool) (s : σ) :
    Res Unit × σ :=
  match T.exec (NpyWriter.begin M t d order hint) s with
  | (.ok w, s') =>
    match w.extend M T vs s' with
    | (.ok (), w', s'') => if fin then w'.finish M T s'' else w'.drop M T s''
    | (.err e, w', s'') =>
      match w'.drop M T s'' with
      | (.panic, s3) => (.panic, s3)
      | (_, s3) => (.err e, s3)
    | (.panic, w', s'') => (.panic, (w'.drop M T s'').2)
  | (.err e, s') => (.err e, s')
  | (.panic, s') => (.panic, s')

end Npyz
