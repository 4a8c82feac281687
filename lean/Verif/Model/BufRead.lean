import Verif.Model.Read
/-!
Model of `std::io::BufReader`, through which files are read: `NpzArchive::open` puts one around the file (npz_feature.rs 21-26), and so do users of
`NpyFile::new` (read.rs 219-222).
-/
namespace Npyz
set_option autoImplicit false

namespace RProg

/-- `BufReader::read_exact` (for npz_feature.rs 24) once the buffer is empty: `read` is called until `need` bytes are there, `Interrupted` is retried.
A `read` of at least `cap` bytes goes directly to the source; for a smaller one, up to `cap` bytes are asked of the source and what is not needed
remains in the buffer.  Returns the outcome, the buffer, the unread bytes of the source and the unused schedule. -/
def fillLoop (cap : Nat) : List Ev → Nat → Bytes → Bytes → Got × Bytes × Bytes × List Ev
  | [], need, src, got =>
    if need ≤ src.length then
      if need = 0 ∨ cap ≤ need then (.ok (got ++ src.take need), [], src.drop need, [])
      else (.ok (got ++ src.take need), (src.take cap).drop need, src.drop cap, [])
    else (.eof, [], [], [])
  | ev :: evs, need, src, got =>
    if need = 0 then (.ok got, [], src, ev :: evs)
    else
      match ev with
      | .interrupted => fillLoop cap evs need src got
      | .fail c => (.fail c, [], src, evs)
      | .short k =>
        let n := min (k + 1) (min (max need cap) src.length)
        if n = 0 then (.eof, [], [], evs)
        else if need ≤ n then (.ok (got ++ src.take need), (src.take n).drop need, src.drop n, evs)
        else fillLoop cap evs (need - n) (src.drop n) (got ++ src.take n)

/-- `BufReader::read_exact` (for npz_feature.rs 24): what is in the buffer comes first. -/
def bufReadExact (cap : Nat) (need : Nat) (buf src : Bytes) (evs : List Ev) : Got × Bytes × Bytes × List Ev :=
  if need ≤ buf.length then (.ok (buf.take need), buf.drop need, src, evs)
  else fillLoop cap evs (need - buf.length) src buf

/-- Run a reading function on a `BufReader`. -/
def runBuf {α : Type} (cap : Nat) : RProg α → Bytes → Bytes → List Ev → Res α × Bytes × Bytes × List Ev
  | ret r, buf, src, evs => (r, buf, src, evs)
  | read n eof k, buf, src, evs =>
    match bufReadExact cap n buf src evs with
    | (.ok b, buf', src', evs') => runBuf cap (k b) buf' src' evs'
    | (.eof, buf', src', evs') => (.err eof, buf', src', evs')
    | (.fail c, buf', src', evs') => (.err (.source c), buf', src', evs')

end RProg

/-- A `BufReader` around a scheduled source: `buf` has been fetched from the source but not been read yet. -/
structure BufReadSrc where
  inner : FlakySrc
  buf : Bytes

/-- `BufReader::seek(SeekFrom::Current(off))` (for read.rs 435): the source is ahead by what is in the buffer; if the difference is not an `i64`,
there are two seeks.  The buffer is dropped unless the seek fails. -/
def BufReadSrc.seek (off : Int) (s : BufReadSrc) : Res Unit × BufReadSrc :=
  if -2 ^ 63 ≤ off - s.buf.length ∧ off - s.buf.length < 2 ^ 63 then
    match s.inner.seek (off - s.buf.length) with
    | (.ok (), i) => (.ok (), ⟨i, []⟩)
    | (.err e, i) => (.err e, ⟨i, s.buf⟩)
    | (.panic, i) => (.panic, ⟨i, s.buf⟩)
  else
    match s.inner.seek (-s.buf.length) with
    | (.ok (), i) =>
      match i.seek off with
      | (r, i') => (r, ⟨i', []⟩)
    | (.err e, i) => (.err e, ⟨i, s.buf⟩)
    | (.panic, i) => (.panic, ⟨i, s.buf⟩)

/-- The `BufReader` with a buffer of `cap` bytes. -/
def bufRead (cap : Nat) : Source BufReadSrc where
  exec p s :=
    ((p.runBuf cap s.buf s.inner.src.rest s.inner.evs).1,
      ⟨⟨s.inner.src.leave (p.runBuf cap s.buf s.inner.src.rest s.inner.evs).2.2.1, (p.runBuf cap s.buf s.inner.src.rest s.inner.evs).2.2.2⟩,
        (p.runBuf cap s.buf s.inner.src.rest s.inner.evs).2.1⟩)
  seek := BufReadSrc.seek

end Npyz
