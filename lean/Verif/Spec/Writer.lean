import Verif.Model.Writer
import Verif.Spec.Read
import Verif.Spec.WriteHeader
import Verif.Spec.Shape
/-!
Independent description of whole files.
-/
namespace Npyz.Spec

/-- The shape a finished file should have after `n` items. -/
def finalShape (o : Order) (n : Nat) : ShapeHint → List Nat
  | .nd dims => dims
  | .oneD => [n]
  | .twoD r => match o with
    | .c => [n / r, r]
    | .fortran => [r, n / r]

/-- `n` items are the right number for this kind of file. -/
def CountFits (n : Nat) : ShapeHint → Prop
  | .nd dims => n = dims.prod
  | .oneD => True
  | .twoD r => r ∣ n

/-- Opening the file that starts at offset `pos` of `data` shows this dtype, shape and order, and
reading all its elements gives `vs`. -/
def ReadsBack (M : Machine) (py : PyParser) (t : Ty) (data : Bytes) (pos : Nat) (d : DType) (shape : List Nat) (o : Order)
    (vs : List t.Val) : Prop :=
  ∃ f, (NpyFile.new M py disk ⟨data, pos⟩).1 = .ok f ∧ f.header.dtype = d ∧ f.header.shape = shape ∧ f.header.order = o ∧
    (f.intoVec M disk t).1 = .ok vs

/-- The same from one position of a source to another: opening and reading everything also moves the
source from `src` to `src'`. -/
def ReadsOn (M : Machine) (py : PyParser) (t : Ty) (src : Src) (d : DType) (shape : List Nat) (o : Order) (vs : List t.Val)
    (src' : Src) : Prop :=
  ∃ f, NpyFile.new M py disk src = (.ok f, f.src) ∧ f.header.dtype = d ∧ f.header.shape = shape ∧ f.header.order = o ∧
    f.intoVec M disk t = (.ok vs, src')

/-- Reading the file that starts at offset `pos` of `data` fails. -/
def Unreadable (M : Machine) (py : PyParser) (data : Bytes) (pos : Nat) : Prop :=
  ∃ e, (NpyFile.new M py disk ⟨data, pos⟩).1 = .err e

/-- The text from the unknown axis of the shape on: what `finish` replaces. -/
def placeholder (o : Order) : ShapeHint → Text
  | .nd _ => []
  | .oneD => txt "********************,), }"
  | .twoD r => match o with
    | .c => txt "********************, " ++ Nat.toDigits 10 r ++ txt "), }"
    | .fortran => Nat.toDigits 10 r ++ txt ", ********************), }"

/-- What is there is never taken for something else: opening it is an error, or reading its elements is, or it
is the complete file. -/
def NeverWrong (M : Machine) (py : PyParser) (t : Ty) (data : Bytes) (pos : Nat) (d : DType) (shape : List Nat) (o : Order)
    (vs : List t.Val) : Prop :=
  Unreadable M py data pos ∨
  (∃ f, (NpyFile.new M py disk ⟨data, pos⟩).1 = .ok f ∧ ∃ e, (f.intoVec M disk t).1 = .err e) ∨
  ReadsBack M py t data pos d shape o vs

/-- In C order, the items of a `begin_2d` file and those of a record are fewer than 10^16. -/
def Below16 (n : Nat) (o : Order) : ShapeHint → Prop
  | .twoD r => o = .fortran ∨ (n < 10 ^ 16 ∧ r < 10 ^ 16)
  | _ => True

/-- How many of the results are successes. -/
def successes (rs : List (Res Unit)) : Nat := rs.countP fun r => match r with
  | .ok _ => true
  | _ => false

/-! ### Builder calls -/

def dtypeArg {W : Type} : Builder.Call W → Option DType
  | .dtype d => some d
  | _ => none

def shapeArg {W : Type} : Builder.Call W → Option (List Nat)
  | .shape s => some s
  | _ => none

def orderArg {W : Type} : Builder.Call W → Option Order
  | .order o => some o
  | _ => none

def writerArg {W : Type} : Builder.Call W → Option W
  | .writer w => some w
  | _ => none

/-- The argument of the last call of a kind. -/
def lastArg {W α : Type} (f : Builder.Call W → Option α) (cs : List (Builder.Call W)) : Option α := (cs.filterMap f).getLast?

/-- The order in effect: row-major unless set. -/
def lastOrder {W : Type} (cs : List (Builder.Call W)) : Order := (lastArg orderArg cs).getD .c

/-- Two calls are of different kinds. -/
def Different {W : Type} (a b : Builder.Call W) : Prop :=
  ((dtypeArg a).isSome && (dtypeArg b).isSome) = false ∧ ((shapeArg a).isSome && (shapeArg b).isSome) = false ∧
  ((orderArg a).isSome && (orderArg b).isSome) = false ∧ ((writerArg a).isSome && (writerArg b).isSome) = false

/-- No kind of call occurs twice. -/
def OnceEach {W : Type} (cs : List (Builder.Call W)) : Prop :=
  (cs.filterMap dtypeArg).length ≤ 1 ∧ (cs.filterMap shapeArg).length ≤ 1 ∧ (cs.filterMap orderArg).length ≤ 1 ∧
  (cs.filterMap writerArg).length ≤ 1

end Npyz.Spec
