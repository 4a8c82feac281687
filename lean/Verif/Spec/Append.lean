import Verif.Model.Writer
/-!
Files opened for appending (`OpenOptions::append`).
-/
set_option autoImplicit false
namespace Npyz

/-- Every write goes to the end of the file, wherever the position is, and leaves the position behind it. -/
def Sink.append (s : Sink) (b : Bytes) : Sink :=
  if b = [] then s else { s with data := s.data ++ b, pos := s.data.length + b.length }

/-- Run on a file opened for appending, that never fails.  The position can be asked for and be set, but writes do not care. -/
def WProg.appendExec {α : Type} : WProg α → Sink → Res α × Sink
  | ret r, s => (r, s)
  | write b k, s => k.appendExec (s.append b)
  | tell k, s => if s.seekable then (k s.pos).appendExec s else (.panic, s)
  | seek p k, s => if s.seekable then k.appendExec { s with pos := p } else (.panic, s)
  | flush k, s => k.appendExec s

/-- A file opened for appending. -/
def appending : Target Sink where
  exec p s := p.appendExec s

end Npyz
