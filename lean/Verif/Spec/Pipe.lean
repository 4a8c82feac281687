import Verif.Model.Read
/-!
Reading from a pipe.  `Source` in `Verif/Model/IO.lean` is a file: reading beyond its end fails.  Reading beyond what a sender has sent so
far waits instead.
-/
set_option autoImplicit false
namespace Npyz.Spec

/-- `p`, when it reads from a pipe through which `arrived` has come, asks for more than that, and so waits for the sender. -/
def waits {α : Type} : RProg α → Bytes → Bool
  | .ret _, _ => false
  | .read n _ k, arrived => if n ≤ arrived.length then waits (k (arrived.take n)) (arrived.drop n) else true

/-- The results of `k` calls of `next`, if none of them waits; `r.src` is what has arrived, and how much of it has been read. -/
def nexts {V : Type} : Nat → NpyReader V Src → Option (List (Option (Res V)) × NpyReader V Src)
  | 0, r => some ([], r)
  | k + 1, r =>
    if r.cur < r.header.nRecords ∧ waits r.prog r.src.rest = true then none
    else
      match nexts k (r.next disk).2 with
      | some (xs, r') => some ((r.next disk).1 :: xs, r')
      | none => none

/-- A receiver opens the array that begins at `arrived.pos`, asks for its elements as values of type `t`, and calls `next` `k` times: the
header and the results of the calls, if none of them waits. -/
def receive (M : Machine) (py : PyParser) (t : Ty) (arrived : Src) (k : Nat) : Option (NpyHeader × List (Option (Res t.Val))) :=
  if waits (NpyHeader.fromReader M py) arrived.rest = true then none
  else
    match (NpyFile.new M py disk arrived).1 with
    | .ok f =>
      match f.data M t with
      | .ok r =>
        match nexts k r with
        | some (xs, _) => some (f.header, xs)
        | none => none
      | _ => none
    | _ => none

end Npyz.Spec
