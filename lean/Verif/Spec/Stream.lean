import Verif.Spec.Writer
/-!
Several arrays in one stream.
-/
namespace Npyz.Spec

/-- An array to be written: element type, dtype, order, kind of shape, and the values. -/
structure Arr where
  t : Ty
  d : DType
  o : Order
  hint : ShapeHint
  vs : List t.Val

/-- A caller that writes one array after the other to the same stream, and stops at the first error. -/
def saveArrays {σ : Type} (M : Machine) (T : Target σ) : List Arr → σ → Res Unit × σ
  | [], s => (.ok (), s)
  | a :: as, s =>
    match NpyWriter.save M T a.t a.d a.o a.hint a.vs s with
    | (.ok (), s') => saveArrays M T as s'
    | (r, s') => (r, s')

/-- A caller that opens and reads one array after the other from the same source gets these arrays, and
the source moves from the first to the last position. -/
inductive ReadsAll (M : Machine) (py : PyParser) : List Arr → Src → Src → Prop
  | nil (src : Src) : ReadsAll M py [] src src
  | cons {a : Arr} {as : List Arr} {src mid last : Src} (vs : List a.t.Val) (hv : vs = a.vs.map (readBack a.t a.d))
      (h1 : ReadsOn M py a.t src a.d (finalShape a.o a.vs.length a.hint) a.o vs mid) (h2 : ReadsAll M py as mid last) :
      ReadsAll M py (a :: as) src last

/-- The limits within which an array can be written on machine `M` and read on machine `M'`. -/
structure Arr.Fits (M M' : Machine) (a : Arr) : Prop where
  wf : a.d.Wf
  size : ∃ size, exactBytes a.d = some size ∧ size ≤ M.isizeMax ∧ size ≤ M'.isizeMax
  sizes : AllFit M'.usizeLim a.d
  reader : ∃ p, a.t.reader M' a.d = .ok p
  shape : match a.hint with
    | .nd dims => (∀ k ∈ dims, k < 2 ^ 64) ∧ nonzeroProd dims < 2 ^ 64
    | .oneD => True
    | .twoD r => r < 2 ^ 64
  count : a.vs.length < 2 ^ 64
  header : dictBytes a.d a.o a.hint + 76 ≤ M'.isizeMax

/-- A call that adds values to a writer. -/
inductive AddCall (t : Ty) where
  | push (v : t.Val)
  | extend (vs : List t.Val)

/-- The values it adds. -/
def AddCall.values {t : Ty} : AddCall t → List t.Val
  | .push v => [v]
  | .extend vs => vs

/-- A caller that makes such calls one after the other and stops at the first error. -/
def addAll {t : Ty} {σ : Type} (M : Machine) (T : Target σ) : List (AddCall t) → NpyWriter t.Val → σ → Res Unit × NpyWriter t.Val × σ
  | [], w, s => (.ok (), w, s)
  | c :: cs, w, s =>
    match (match c with
      | .push v => w.push M T v s
      | .extend vs => w.extend M T vs s) with
    | (.ok (), w', s') => addAll M T cs w' s'
    | (r, w', s') => (r, w', s')

end Npyz.Spec
