import Verif.Model.Buffer
/-!
What a `BufWriter` stands for.
-/
namespace Npyz.Spec

/-- What would be in the inner stream if the buffer were emptied now. -/
def viewed (t : BufSink) : Sink := t.inner.put t.buf

/-- What is in the inner stream if only `j` bytes of the buffer reach it: 0 if the buffer is lost (the process dies),
fewer than all if emptying it fails, all of them if it succeeds. -/
def kept (t : BufSink) (j : Nat) : Bytes := (t.inner.put (t.buf.take j)).data

/-- A new `BufWriter` around a stream. -/
def fresh (s : Sink) (evs : List RProg.Ev) : BufSink := ⟨[], s, evs⟩

end Npyz.Spec
