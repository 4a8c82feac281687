import Verif.Spec.Recover
/-!
Two readers of one open file.  `&File` and the results of `File::try_clone` can be read and have one position in common.
-/
set_option autoImplicit false
namespace Npyz.Spec

/-- Calls of two readers whose source is the same open file: each call is made by the first reader (`false`) or the second (`true`), and
leaves the position where the next call finds it. -/
def shared {V : Type} (M : Machine) : List (Bool × ROp) → NpyReader V Src → NpyReader V Src → List (ROut V)
  | [], _, _ => []
  | (false, op) :: calls, a, b =>
    (a.step M disk op).1 :: shared M calls (a.step M disk op).2 { b with src := (a.step M disk op).2.src }
  | (true, op) :: calls, a, b =>
    (b.step M disk op).1 :: shared M calls { a with src := (b.step M disk op).2.src } (b.step M disk op).2

/-- What the calls should return: each reader is at its own element, `i` and `j`. -/
def apart {V : Type} (elem : Nat → Option V) (n : Nat) : List (Bool × ROp) → Nat → Nat → List (Seen V)
  | [], _, _ => []
  | (false, op) :: calls, i, j => (callAt elem n i op).1 :: apart elem n calls (callAt elem n i op).2 j
  | (true, op) :: calls, i, j => (callAt elem n j op).1 :: apart elem n calls i (callAt elem n j op).2

/-- What follows a call, if it has not failed. -/
def unlessFailed {V : Type} : Seen V → List (Seen V) → List (Seen V)
  | .failed, _ => []
  | _, rest => rest

/-- What the calls do return, up to the first that fails: each reader counts its elements from the one where the other reader is. -/
def entangled {V : Type} (elem : Nat → Option V) (n : Nat) : List (Bool × ROp) → Nat → Nat → List (Seen V)
  | [], _, _ => []
  | (false, op) :: calls, i, j =>
    (callAt (fun k => elem (k + j)) n i op).1 ::
      unlessFailed (callAt (fun k => elem (k + j)) n i op).1 (entangled elem n calls (callAt (fun k => elem (k + j)) n i op).2 j)
  | (true, op) :: calls, i, j =>
    (callAt (fun k => elem (k + i)) n j op).1 ::
      unlessFailed (callAt (fun k => elem (k + i)) n j op).1 (entangled elem n calls i (callAt (fun k => elem (k + i)) n j op).2)

/-- The readers take turns, and each goes back to the first element before it is the turn of the other. -/
def takingTurns (turns : List (Bool × List ROp)) : List (Bool × ROp) :=
  turns.flatMap fun turn => (turn.2 ++ [.seekTo 0]).map fun op => (turn.1, op)

end Npyz.Spec
