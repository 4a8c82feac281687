import Verif.Spec.Recover
/-!
A file that grows while a reader is in use.
-/
namespace Npyz.Spec
set_option autoImplicit false

/-- The reader after the contents of its file have become `now`.  A `File` keeps its position. -/
def refresh {V : Type} (r : NpyReader V Src) (now : Bytes) : NpyReader V Src := { r with src := { r.src with data := now } }

/-- Calls of a reader of a file that will be `full` when it is complete.  At each call so many bytes of it are there. -/
def growing {V : Type} (M : Machine) (full : Bytes) : List (ROp × Nat) → NpyReader V Src → List (ROut V)
  | [], _ => []
  | (op, len) :: calls, r =>
    ((refresh r (full.take len)).step M disk op).1 :: growing M full calls ((refresh r (full.take len)).step M disk op).2

/-- The results of a history of calls from element `i` on are what they should be, up to the first failed call; that call reports an error. -/
inductive UntilFailure {V : Type} (elem : Nat → Option V) (n : Nat) : List ROp → Nat → List (Option (Seen V)) → Prop
  | nil {i : Nat} : UntilFailure elem n [] i []
  | right {op : ROp} {ops : List ROp} {i : Nat} {out : List (Option (Seen V))} (h : UntilFailure elem n ops (callAt elem n i op).2 out) :
      UntilFailure elem n (op :: ops) i (some (callAt elem n i op).1 :: out)
  | failed {op : ROp} {ops : List ROp} {i : Nat} {out : List (Option (Seen V))} : UntilFailure elem n (op :: ops) i (some .failed :: out)

end Npyz.Spec
