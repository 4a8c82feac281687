import Verif.Model.Read
import Verif.Spec.Read
/-!
What a reader may do on a source that fails now and then.
-/
namespace Npyz.Spec
set_option autoImplicit false

/-- What one call should show if the reader is at element `i` of `n`, and where the reader is then. -/
def callAt {V : Type} (elem : Nat → Option V) (n : Nat) (i : Nat) : ROp → Seen V × Nat
  | .next => if i < n then (look elem i, i + 1) else (.done, i)
  | .seekTo j => (.moved, j)
  | .readAt j => (look elem j, j + 1)

/-- The results of a history of calls from element `i` on in which some calls of `seek_to` and `read_at` have failed and all the others have
returned what they should, as if the failed ones had not been made. -/
inductive Resumes {V : Type} (elem : Nat → Option V) (n : Nat) : List ROp → Nat → List (Seen V) → Prop
  | nil {i : Nat} : Resumes elem n [] i []
  | right {op : ROp} {ops : List ROp} {i : Nat} {out : List (Seen V)} (h : Resumes elem n ops (callAt elem n i op).2 out) :
      Resumes elem n (op :: ops) i ((callAt elem n i op).1 :: out)
  | refused {op : ROp} {ops : List ROp} {i : Nat} {out : List (Seen V)} (ho : op ≠ .next) (h : Resumes elem n ops i out) :
      Resumes elem n (op :: ops) i (.failed :: out)

/-- A source whose seeks fail where its schedule says so (without having moved), and which is sound otherwise. -/
structure StiffSrc where
  src : Src
  fails : List (Option Nat)

def StiffSrc.seek (off : Int) (s : StiffSrc) : Res Unit × StiffSrc :=
  match s.fails with
  | some c :: rest => (.err (.source c), ⟨s.src, rest⟩)
  | rest => ((s.src.seek off).1, ⟨(s.src.seek off).2, rest.tail⟩)

def stiff : Source StiffSrc where
  exec p s := ((disk.exec p s.src).1, ⟨(disk.exec p s.src).2, s.fails⟩)
  seek := StiffSrc.seek

end Npyz.Spec
