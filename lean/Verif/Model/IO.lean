import Verif.Model.Basic
/-!
Readers as programs.  All of npyz reads its input through `Read::read_exact` only, so a function
taking `impl io::Read` is modelled by a tree of `read_exact` requests; interpreters supply the source.
-/
namespace Npyz

/-- A computation over an `io::Read`.
* `ret r`: return `r` (a value, an `Err`, or a panic).
* `read n eof k`: `read_exact` on an `n`-byte buffer; if the source ends early the call returns
  `eof` (normally `UnexpectedEof`; `read_magic_and_version`, header.rs 265-268, maps it), otherwise
  continue with the bytes.  Other errors of the source are passed through by every caller. -/
inductive RProg (α : Type) where
  | ret (r : Res α)
  | read (n : Nat) (eof : Err) (k : Bytes → RProg α)

namespace RProg

/-- Sequencing with `?`. -/
def bind {α β : Type} : RProg α → (α → RProg β) → RProg β
  | ret (.ok a), f => f a
  | ret (.err e), _ => ret (.err e)
  | ret .panic, _ => ret .panic
  | read n eof k, f => read n eof (fun b => (k b).bind f)

instance : Monad RProg where
  pure a := ret (.ok a)
  bind := bind

/-- `reader.read_exact(&mut buf)?` for a buffer of `n` bytes. -/
def readExact (n : Nat) : RProg Bytes := read n .unexpectedEof (fun b => ret (.ok b))

/-- A result computed without reading. -/
def lift {α : Type} (r : Res α) : RProg α := ret r

/-- Run on an in-memory source (`&[u8]`, `Cursor`): result and unread rest.  On a premature end the
whole rest is consumed (std leaves the amount unspecified). -/
def run {α : Type} : RProg α → Bytes → Res α × Bytes
  | ret r, bs => (r, bs)
  | read n eof k, bs =>
    if n ≤ bs.length then run (k (bs.take n)) (bs.drop n) else (.err eof, [])

/-- What one call of `Read::read` on a nonempty buffer does. -/
inductive Ev where
  /-- deliver at most `k + 1` bytes (at least one unless the data or the buffer is exhausted) -/
  | short (k : Nat)
  /-- `ErrorKind::Interrupted` -/
  | interrupted
  /-- any other error -/
  | fail (code : Nat)
deriving DecidableEq, Repr

/-- Result of `read_exact`: the bytes, a premature end, or a source error. -/
inductive Got where
  | ok (b : Bytes)
  | eof
  | fail (code : Nat)
deriving DecidableEq, Repr

/-- `std::io::Read::read_exact` (default implementation): loop over `read`, retry on `Interrupted`,
stop with `UnexpectedEof` when `read` returns 0.  `need` bytes are still wanted, `got` are already
in the buffer.  When the schedule is used up the source delivers everything asked for.
Returns the outcome, the unread bytes and the unused schedule. -/
def readLoop : List Ev → Nat → Bytes → Bytes → Got × Bytes × List Ev
  | [], need, src, got =>
    if need ≤ src.length then (.ok (got ++ src.take need), src.drop need, []) else (.eof, [], [])
  | ev :: evs, need, src, got =>
    if need = 0 then (.ok got, src, ev :: evs)
    else
      match ev with
      | .interrupted => readLoop evs need src got
      | .fail c => (.fail c, src, evs)
      | .short k =>
        if min (k + 1) (min need src.length) = 0 then (.eof, [], evs)
        else readLoop evs (need - min (k + 1) (min need src.length))
          (src.drop (min (k + 1) (min need src.length)))
          (got ++ src.take (min (k + 1) (min need src.length)))

/-- Run on a source that delivers `src` according to a schedule of short reads, interruptions and
failures; returns the unread bytes and the unused schedule as well. -/
def runSched {α : Type} : RProg α → Bytes → List Ev → Res α × Bytes × List Ev
  | ret r, src, evs => (r, src, evs)
  | read n eof k, src, evs =>
    match readLoop evs n src [] with
    | (.ok b, src', evs') => runSched (k b) src' evs'
    | (.eof, src', evs') => (.err eof, src', evs')
    | (.fail c, src', evs') => (.err (.source c), src', evs')

/-- Run on a source that delivers `src` and then fails with error `code` (instead of ending). -/
def runFail {α : Type} (code : Nat) : RProg α → Bytes → Res α × Bytes
  | ret r, bs => (r, bs)
  | read n _ k, bs =>
    if n ≤ bs.length then runFail code (k (bs.take n)) (bs.drop n) else (.err (.source code), [])

end RProg

/-- Largest allocation `vec![0; n]` accepts; above it std panics with "capacity overflow". -/
def Machine.isizeMax (M : Machine) : Nat := 2 ^ (M.usizeBits - 1) - 1

/-- `vec![0u8; n]`: panics when `n` exceeds `isize::MAX`.  (Running out of memory below that limit is
not modelled.) -/
def Machine.allocBytes (M : Machine) (n : Nat) : Res Unit :=
  if n ≤ M.isizeMax then .ok () else .panic

end Npyz
