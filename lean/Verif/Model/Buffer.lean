import Verif.Model.Writer
/-!
Model of `std::io::BufWriter` as the stream of an `NpyWriter`: `OutFile` (write.rs 448-474) and `to_file_1d`
(701-713) use it, and users are advised to.  The inner stream follows a schedule as in `WProg.runSched`.
-/
namespace Npyz

/-- A `BufWriter`: what is in the buffer, the inner stream and its schedule. -/
structure BufSink where
  buf : Bytes
  inner : Sink
  evs : List RProg.Ev

namespace BufSink

/-- `BufWriter::flush_buf`: hand the buffer to the inner stream; what the stream did not take before an error stays
in the buffer.  Result: the error, what stays in the buffer, the stream, the schedule. -/
def flushLoop : List RProg.Ev → Bytes → Sink → Option Nat × Bytes × Sink × List RProg.Ev
  | [], b, s => (none, [], s.put b, [])
  | ev :: evs, b, s =>
    if b = [] then (none, [], s, ev :: evs)
    else
      match ev with
      | .interrupted => flushLoop evs b s
      | .fail c => (some c, b, s, evs)
      | .short k => flushLoop evs (b.drop (k + 1)) (s.put (b.take (k + 1)))

/-- `write_all` on a `BufWriter` whose buffer is empty: `BufWriter::write` hands data that does not fit in the buffer
to the inner stream, directly. -/
def directLoop (cap : Nat) : List RProg.Ev → Bytes → Sink → Option Nat × Bytes × Sink × List RProg.Ev
  | [], b, s => if b.length < cap then (none, b, s, []) else (none, [], s.put b, [])
  | ev :: evs, b, s =>
    if b = [] ∨ b.length < cap then (none, b, s, ev :: evs)
    else
      match ev with
      | .interrupted => directLoop cap evs b s
      | .fail c => (some c, [], s, evs)
      | .short k => directLoop cap evs (b.drop (k + 1)) (s.put (b.take (k + 1)))

/-- `BufWriter::flush_buf`. -/
def flushBuf (t : BufSink) : Option Nat × BufSink :=
  match flushLoop t.evs t.buf t.inner with
  | (e, b, s, evs) => (e, ⟨b, s, evs⟩)

/-- `write_all` on a `BufWriter`: data that fits goes into the buffer, otherwise the buffer is emptied first. -/
def writeAll (cap : Nat) (b : Bytes) (t : BufSink) : Option Nat × BufSink :=
  if b = [] then (none, t)
  else if t.buf.length + b.length ≤ cap ∧ b.length < cap then (none, { t with buf := t.buf ++ b })
  else
    match t.flushBuf with
    | (some c, t') => (some c, t')
    | (none, t') =>
      match directLoop cap t'.evs b t'.inner with
      | (e, b', s, evs) => (e, ⟨b', s, evs⟩)

/-- A call of the inner stream's `seek` or `flush`: only failures matter. -/
def innerOp (t : BufSink) : Option Nat × BufSink :=
  match WProg.opEvent t.evs with
  | (e, evs) => (e, { t with evs := evs })

/-- `BufWriter::flush` and the first half of `BufWriter::seek`: empty the buffer, then call the inner stream. -/
def flushOp (t : BufSink) : Option Nat × BufSink :=
  match t.flushBuf with
  | (some c, t') => (some c, t')
  | (none, t') => t'.innerOp

end BufSink

/-- Run a program on a `BufWriter` of capacity `cap`. -/
def WProg.runBuf {α : Type} (cap : Nat) : WProg α → BufSink → Res α × BufSink
  | ret r, t => (r, t)
  | write b k, t =>
    match t.writeAll cap b with
    | (none, t') => k.runBuf cap t'
    | (some c, t') => (.err (.source c), t')
  | tell k, t =>
    if t.inner.seekable then
      match t.flushOp with
      | (none, t') => (k t'.inner.pos).runBuf cap t'
      | (some c, t') => (.err (.source c), t')
    else (.panic, t)
  | seek p k, t =>
    if t.inner.seekable then
      match t.flushOp with
      | (none, t') => k.runBuf cap { t' with inner := { t'.inner with pos := p } }
      | (some c, t') => (.err (.source c), t')
    else (.panic, t)
  | flush k, t =>
    match t.flushOp with
    | (none, t') => k.runBuf cap t'
    | (some c, t') => (.err (.source c), t')

/-- A `BufWriter` as the stream of a writer. -/
def buffered (cap : Nat) : Target BufSink where
  exec p t := p.runBuf cap t

/-- `impl Drop for BufWriter`: empty the buffer, ignore errors. -/
def BufSink.close (t : BufSink) : Sink := t.flushBuf.2.inner

end Npyz
