import Verif.Model.Read
import Verif.Spec.Codec
/-!
Independent description of reading: what the elements of an array are, and what a history of calls
should return.
-/
namespace Npyz

/-- Apply a function to a success. -/
def Out.map {ε α β : Type} (f : α → β) : Out ε α → Out ε β
  | .ok a => .ok (f a)
  | .err e => .err e
  | .panic => .panic

end Npyz

namespace Npyz.Spec

/-- `h` was read from some file on machine `M`. -/
def Opened (M : Machine) (h : NpyHeader) : Prop :=
  ∃ py bs rest, (NpyHeader.fromReader M py).run bs = (.ok h, rest)

/-- Item `i` of an array of `size`-byte items stored in `data` from offset `base` on, for items
decoded by `f`; `none` if the item is incomplete or malformed. -/
def itemAt {V : Type} (f : Bytes → Option V) (data : Bytes) (base size i : Nat) : Option V :=
  if base + (i + 1) * size ≤ data.length then f ((data.drop (base + i * size)).take size) else none

/-- What a program that reads one item must do: on `n` bytes that `f` decodes it returns the value and has
consumed them, on other `n` bytes, and on fewer, it returns an error. -/
structure Decodes {V : Type} (p : RProg V) (n : Nat) (f : Bytes → Option V) : Prop where
  ok : ∀ bs rest v, bs.length = n → f bs = some v → p.run (bs ++ rest) = (.ok v, rest)
  bad : ∀ bs rest, bs.length = n → f bs = none → ∃ e, (p.run (bs ++ rest)).1 = .err e
  short : ∀ bs, bs.length < n → ∃ e, (p.run bs).1 = .err e

/-- Element `i` of an array with element type `t` and dtype `d`. -/
abbrev elementAt (t : Ty) (d : DType) (data : Bytes) (base size i : Nat) : Option t.Val :=
  itemAt (decode t d) data base size i

/-- What one call shows to the caller. -/
inductive Seen (V : Type) where
  /-- an element -/
  | value (v : V)
  /-- an `Err` -/
  | failed
  /-- the end of the iteration -/
  | done
  /-- a successful `seek_to` -/
  | moved

/-- Reading element `i` where elements are given by a function. -/
def look {V : Type} (elem : Nat → Option V) (i : Nat) : Seen V :=
  match elem i with
  | some v => .value v
  | none => .failed

/-- What a history of calls should show on an array of `n` elements, starting at element `i`: `next`
reads the element at the current position, `read_at` the one asked for, and both leave the position
behind it. -/
def expected {V : Type} (elem : Nat → Option V) (n : Nat) : List ROp → Nat → List (Seen V)
  | [], _ => []
  | .next :: ops, i => if i < n then look elem i :: expected elem n ops (i + 1) else .done :: expected elem n ops i
  | .seekTo j :: ops, _ => .moved :: expected elem n ops j
  | .readAt j :: ops, _ => look elem j :: expected elem n ops (j + 1)

/-- All indices of a history are in range. -/
def InRange (n : Nat) (ops : List ROp) : Prop := ∀ op ∈ ops, (∀ j, op = .seekTo j → j ≤ n) ∧ (∀ j, op = .readAt j → j < n)

/-- What the caller sees of a result; `none` is a panic. -/
def seen {V : Type} : ROut V → Option (Seen V)
  | .item none => some .done
  | .item (some (.ok v)) => some (.value v)
  | .item (some (.err _)) => some .failed
  | .moved (.ok ()) => some .moved
  | .moved (.err _) => some .failed
  | .value (.ok v) => some (.value v)
  | .value (.err _) => some .failed
  | .item (some .panic) | .moved .panic | .value .panic => none

/-- The call returned this error. -/
def FailsWith {V : Type} (e : Err) (o : ROut V) : Prop := o = .item (some (.err e)) ∨ o = .moved (.err e) ∨ o = .value (.err e)

/-- Does a call to `next` yield an item (a value or an error)? -/
def yields {V : Type} : ROut V → Bool
  | .item (some _) => true
  | _ => false

/-- A schedule with short reads and interruptions only. -/
def NoFail (evs : List RProg.Ev) : Prop := ∀ c, RProg.Ev.fail c ∉ evs

/-- Call `try_data` with one type after the other, each time on the file given back by the previous
failure; `none` if one of them succeeds (or panics). -/
def attempts {σ : Type} (M : Machine) : List Ty → NpyFile σ → Option (NpyFile σ)
  | [], f => some f
  | t :: ts, f =>
    match f.tryData M t with
    | .err f' => attempts M ts f'
    | _ => none

/-- The results of `k` calls to the iterator of a legacy array. -/
def drain {t : Ty} (M : Machine) : Nat → IntoIter t → List (Res (Option t.Val))
  | 0, _ => []
  | k + 1, it => (it.next M).1 :: drain M k (it.next M).2

/-- The iterator after `k` calls. -/
def drained {t : Ty} (M : Machine) : Nat → IntoIter t → IntoIter t
  | 0, it => it
  | k + 1, it => drained M k (it.next M).2

/-- Open a file held in memory and look at its reader. -/
def openAnd (M : Machine) (t : Ty) (bytes : Bytes) (P : NpyReader t.Val Src → Bool) : Bool :=
  match (NpyFile.new M Py.parse disk ⟨bytes, 0⟩).1 with
  | .ok f =>
    match f.data M t with
    | .ok r => P r
    | _ => false
  | _ => false

/-- Open a file and read all its elements. -/
def readFile {σ : Type} (M : Machine) (py : PyParser) (S : Source σ) (t : Ty) (s : σ) : Res (List t.Val) :=
  match (NpyFile.new M py S s).1 with
  | .ok f => (f.intoVec M S t).1
  | .err e => .err e
  | .panic => .panic

end Npyz.Spec

namespace Npyz

/-- Hypotheses of random access on disk: the array fits a file. -/
structure Fits (base n : Nat) (h : NpyHeader) : Prop where
  size : h.itemSize = some n
  count : h.nRecords < 2 ^ 63
  bytes : h.nRecords * n < 2 ^ 63
  last : base + h.nRecords * n < 2 ^ 64

end Npyz
