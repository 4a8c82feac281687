import Verif.Model.Read
/-!
The methods of `Iterator` that `NpyReader` takes from the standard library: read.rs 556-577 implements `next` and `size_hint` only, so `nth`,
`count`, `last` and `take` are the default ones, which call `next`.
-/
namespace Npyz.NpyReader
set_option autoImplicit false

variable {V : Type} {σ : Type}

/-- `Iterator::nth` on the `Iterator` of read.rs 556-577: `k` items are dropped, whether they are values or errors, until there is none left, and
the next one is returned. -/
def nth (S : Source σ) : Nat → NpyReader V σ → Option (Res V) × NpyReader V σ
  | 0, r => r.next S
  | k + 1, r =>
    match r.next S with
    | (none, r') => (none, r')
    | (some .panic, r') => (some .panic, r')
    | (some _, r') => nth S k r'

/-- `Iterator::fold` on the `Iterator` of read.rs 556-577: call `next` until it returns `None`.  The first argument bounds the number of calls;
`fold` below gives enough. -/
def foldLoop {B : Type} (S : Source σ) (g : B → Res V → Res B) : Nat → B → NpyReader V σ → Res B × NpyReader V σ
  | 0, _, r => (.panic, r)
  | k + 1, b, r =>
    match r.next S with
    | (none, r') => (.ok b, r')
    | (some .panic, r') => (.panic, r')
    | (some x, r') =>
      match g b x with
      | .ok b' => foldLoop S g k b' r'
      | .err e => (.err e, r')
      | .panic => (.panic, r')

/-- `Iterator::fold`. -/
def fold {B : Type} (S : Source σ) (g : B → Res V → Res B) (b : B) (r : NpyReader V σ) : Res B × NpyReader V σ :=
  foldLoop S g (r.header.nRecords - r.cur + 1) b r

/-- `Iterator::count` on the `Iterator` of read.rs 556-577: add one to a `usize` for every item. -/
def count (M : Machine) (S : Source σ) (r : NpyReader V σ) : Res Nat × NpyReader V σ :=
  r.fold S (fun n _ => if n + 1 < M.usizeLim then .ok (n + 1) else if M.overflowChecks then .panic else .ok 0) 0

/-- `Iterator::last` on the `Iterator` of read.rs 556-577. -/
def last (S : Source σ) (r : NpyReader V σ) : Res (Option (Res V)) × NpyReader V σ :=
  r.fold S (fun _ x => .ok (some x)) none

/-- `by_ref().take(k).collect::<io::Result<Vec<T>>>()` on the `Iterator` of read.rs 556-577: at most `k` items, up to the first error. -/
def takeCollect (S : Source σ) : Nat → NpyReader V σ → Res (List V) × NpyReader V σ
  | 0, r => (.ok [], r)
  | k + 1, r =>
    match r.next S with
    | (none, r') => (.ok [], r')
    | (some (.ok v), r') =>
      match takeCollect S k r' with
      | (.ok vs, r'') => (.ok (v :: vs), r'')
      | (.err e, r'') => (.err e, r'')
      | (.panic, r'') => (.panic, r'')
    | (some (.err e), r') => (.err e, r')
    | (some .panic, r') => (.panic, r')

end Npyz.NpyReader
