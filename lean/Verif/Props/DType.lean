import Verif.Proofs.Descr
import Verif.Proofs.DTypeSize
/-!
Properties C05 (whole dtypes) and C06: sizes and descriptions of dtypes.
-/
namespace Npyz.Props
open Spec

/-- C05: `num_bytes` is `Some(n)` exactly when there is no Object member and everything fits `usize`,
and then `n` is the exact packed size. -/
theorem C05_num_bytes (M : Machine) (d : DType) (n : Nat) :
    d.numBytes M = some n ↔ exactBytes d = some n ∧ AllFit M.usizeLim d :=
  numBytes_eq_some d M n

/-- C05: `num_bytes` is `None` exactly for dtypes with an Object inside or with a size that does not
fit. -/
theorem C05_num_bytes_none (M : Machine) (d : DType) :
    d.numBytes M = none ↔ HasObject d ∨ ¬ AllFit M.usizeLim d := by
  rw [← exactBytes_none_iff]
  cases hd : d.numBytes M with
  | none =>
    simp only [true_iff]
    cases he : exactBytes d with
    | none => exact .inl rfl
    | some n =>
      right; intro hf
      have := (numBytes_eq_some d M n).mpr ⟨he, hf⟩
      rw [hd] at this; cases this
  | some n =>
    obtain ⟨h1, h2⟩ := (numBytes_eq_some d M n).mp hd
    simp [h1, h2]

/-- C05: `uses_pickled_array` tells the two `None` cases apart: it is true exactly if an Object is
inside. -/
theorem C05_uses_pickled (d : DType) : d.usesPickled = true ↔ HasObject d := usesPickled_iff d

/-- A record `[('a', '<U5', (2, 3)), ('b', '|S7')]`. -/
def exampleRecord : DType :=
  .record (.cons ['a'] (.array 2 (.array 3 (.plain ⟨.little, .unicodeStr, 5, none⟩)))
    (.cons ['b'] (.plain ⟨.irrelevant, .byteStr, 7, none⟩) .nil))

example : exactBytes exampleRecord = some 127 ∧ exampleRecord.numBytes ⟨false, 64, true⟩ = some 127 := by
  decide
-- an empty array of items too large for usize is refused although its packed size is 0
example : exactBytes (.array 0 (.plain ⟨.irrelevant, .byteStr, 2 ^ 32, none⟩)) = some 0 ∧
    DType.numBytes ⟨false, 32, true⟩ (.array 0 (.plain ⟨.irrelevant, .byteStr, 2 ^ 32, none⟩)) = none := by
  decide
example : HasObject (.record (.cons ['x'] (.array 2 (.plain ⟨.irrelevant, .object, 0, none⟩)) .nil)) :=
  .record (.head (.array (.plain rfl)))

/-- C06: parsing the printed description gives the dtype back, for every literal parser that agrees
with the reference parser. -/
theorem C06_descr_roundtrip (py : PyParser) (hpy : py.ExtendsRef) (d : DType) (hn : d.NotArray) (h : d.Wf) :
    DType.parse py d.descr = .ok d :=
  parse_descr hpy hn h

/-- C06: different dtypes have different descriptions. -/
theorem C06_descr_injective (d d' : DType) (hn : d.NotArray) (hn' : d'.NotArray) (h : d.Wf) (h' : d'.Wf)
    (he : d.descr = d'.descr) : d = d' := by
  have href : (Py.parse).ExtendsRef := fun _ _ h => h
  have h1 := parse_descr href hn h
  rw [he, parse_descr href hn' h'] at h1
  cases h1; rfl

/-- A record with an awkward field name and nested arrays of records. -/
def exampleNested : DType :=
  .record (.cons ['\'', '\\', '\n', '"', '\r', 'é'] (.array 0 (.array 3 exampleRecord))
    (.cons [] (.plain ⟨.big, .dateTime, 8, some .nanosecond⟩) .nil))

theorem exampleRecord_wf : exampleRecord.Wf := by
  refine ⟨⟨by decide, by decide, ?_⟩, ?_, trivial⟩
  · exact wf_of_parse (s := "<U5".toList) (by decide)
  · exact wf_of_parse (s := "|S7".toList) (by decide)

theorem exampleNested_wf : exampleNested.Wf := by
  refine ⟨⟨by decide, by decide, exampleRecord_wf⟩, ?_, trivial⟩
  exact wf_of_parse (s := ">M8[ns]".toList) (by decide)

/-- C06_descr_roundtrip. -/
example : DType.parse Py.parse exampleNested.descr = .ok exampleNested :=
  C06_descr_roundtrip Py.parse (fun _ _ h => h) exampleNested trivial exampleNested_wf

example : exampleNested.NotArray ∧ exampleNested.Wf := ⟨trivial, exampleNested_wf⟩

example : (Py.parse).ExtendsRef := fun _ _ h => h

end Npyz.Props
