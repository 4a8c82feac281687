import Verif.Spec.Read
import Verif.Spec.Writer
/-!
Element types defined by the user.  An implementation of `Deserialize` is a function that gets the dtype of
the file and returns an error or the program of `read_one`; an implementation of `Serialize` is a
function that gets the dtype and returns an error or, for each value, the program of `write_one`.  Here is what such
programs may be expected to do.
-/
namespace Npyz.Spec
set_option autoImplicit false

/-- Whatever the stream is, `write_one` does the same: it appends some bytes and then succeeds or fails. -/
def OnlyAppends (p : WProg Unit) : Prop := ∃ r bs, ∀ s : Sink, p.exec s = (r, s.put bs)

/-- `write_one` succeeds and has appended these bytes. -/
def Appends (p : WProg Unit) (bs : Bytes) : Prop := ∀ s : Sink, p.exec s = (.ok (), s.put bs)

/-- The bytes of a list of values. -/
def AllAppend {V : Type} (prog : V → WProg Unit) : List V → List Bytes → Prop
  | [], [] => True
  | v :: vs, b :: bs => Appends (prog v) b ∧ AllAppend prog vs bs
  | _, _ => False

/-- The results of running a program `k` times, each time where the last run stopped. -/
def repeated {V σ : Type} (S : Source σ) (p : RProg V) : Nat → σ → List (Res V)
  | 0, _ => []
  | k + 1, s => (S.exec p s).1 :: repeated S p k (S.exec p s).2

/-- All results, if all are successes. -/
def allOk {V : Type} : List (Res V) → Option (List V)
  | [] => some []
  | .ok v :: rs => (allOk rs).map (v :: ·)
  | _ :: _ => none

/-- The bytes that a program writes, and its result, if it does nothing but write. -/
def written {α : Type} : WProg α → Option (Bytes × Res α)
  | .ret r => some ([], r)
  | .write b k => (written k).map fun x => (b ++ x.1, x.2)
  | .tell _ => none
  | .seek _ _ => none
  | .flush _ => none

/-- `write_one` does nothing but write.  For each value it writes the bytes `enc v` of one item and succeeds, or (if there
are none) it writes something and fails. -/
def WritesItems {V : Type} (prog : V → WProg Unit) (size : Nat) (enc : V → Option Bytes) : Prop :=
  ∀ v, match enc v with
    | some bs => bs.length = size ∧ written (prog v) = some (bs, .ok ())
    | none => ∃ bs e, written (prog v) = some (bs, .err e)

/-- What is left of a file at offset `pos` of `data`: opening it is an error, or it opens with the dtype and order it was
to have and there are fewer items than its shape says, or it has the shape it was to have and the bytes of all its items. -/
def LeftOver (M : Machine) (py : PyParser) (data : Bytes) (pos : Nat) (d : DType) (shape : List Nat) (o : Order) (size : Nat)
    (items : Bytes) : Prop :=
  Unreadable M py data pos ∨
  ∃ f, NpyFile.new M py disk ⟨data, pos⟩ = (.ok f, f.src) ∧ f.header.dtype = d ∧ f.header.order = o ∧
    f.src.data = data ∧ f.src.pos ≤ data.length ∧
    (data.length < f.src.pos + f.header.nRecords * size ∨
     (f.header.shape = shape ∧ f.header.nRecords * size = items.length ∧ ∃ rest, f.src.rest = items ++ rest))

/-- The same in terms of values: opening is an error, or every reader of the file fails when it is collected, or the
file is complete. -/
def NeverWrongWith {V : Type} (M : Machine) (py : PyParser) (reader : DType → DRes (RProg V)) (data : Bytes) (pos : Nat) (d : DType)
    (shape : List Nat) (o : Order) (vs : List V) : Prop :=
  Unreadable M py data pos ∨
  ∃ f, (NpyFile.new M py disk ⟨data, pos⟩).1 = .ok f ∧ f.header.dtype = d ∧ f.header.order = o ∧
    ((∀ r, f.dataWith reader = .ok r → ∃ e, (r.collect disk).1 = .err e) ∨
     (f.header.shape = shape ∧ ∀ r, f.dataWith reader = .ok r → (r.collect disk).1 = .ok vs))

end Npyz.Spec
