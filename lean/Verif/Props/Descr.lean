import Verif.Proofs.Descr
import Verif.Proofs.Descr2
/-!
C81: descriptions of dtypes are read exactly, or rejected.
-/
namespace Npyz.Props
open Npyz Npyz.Spec

/-- C81: a description is read as exactly what it describes. -/
theorem C81_read_iff (v : PyVal) (d : DType) : DType.fromDescr v = .ok d ↔ Describes v d := fromDescr_ok_iff

/-- C81: so no description has two meanings. -/
theorem C81_one_meaning {v : PyVal} {d d' : DType} (h : Describes v d) (h' : Describes v d') : d = d' := by
  have := (fromDescr_ok_iff.mpr h).symm.trans (fromDescr_ok_iff.mpr h')
  cases this; rfl

/-- C81: everything else is an `InvalidData` error, never a panic. -/
theorem C81_otherwise_error (v : PyVal) (h : ∀ d, ¬ Describes v d) : ∃ msg, DType.fromDescr v = .err (.invalidData msg) := by
  cases hv : DType.fromDescr v with
  | ok d => exact absurd (fromDescr_ok_iff.mp hv) (h d)
  | panic => exact absurd hv (fromDescr_ne_panic v)
  | err e => obtain ⟨msg, rfl⟩ := fromDescr_invalid v e hv; exact ⟨msg, rfl⟩

/-- C81: `DType::parse` reads a text without newlines as what it describes, and nothing else. -/
theorem C81_parse_iff (py : PyParser) (s : Text) (hs : '\n' ∉ s) (d : DType) :
    DType.parse py s = .ok d ↔ ∃ v, py s = some v ∧ Describes v d := by
  have hb : (10 : UInt8) ∉ encodeUtf8 s := fun hm => hs (mem_encodeUtf8_newline hm)
  unfold DType.parse parseHeaderText
  rw [stripNewline_of_not_mem hb, decodeUtf8_encode]
  simp only [Out.bind_eq_ok]
  cases py s with
  | none => simp [parseResult]
  | some v => simp [parseResult, fromDescr_ok_iff]

/-- C81: the dtype and the shape of a file are exactly those that its header describes. -/
theorem C81_header_says (M : Machine) (kvs : List (PyVal × PyVal)) (h : NpyHeader) (hh : interpretHeader M (.dict kvs) = .ok h) :
    ∃ vshape vdescr, LastEntry "shape" vshape kvs ∧ LastEntry "descr" vdescr kvs ∧
      LastEntry "fortran_order" (.bool (decide (h.order = .fortran))) kvs ∧ IsShape vshape h.shape ∧ Describes vdescr h.dtype := by
  obtain ⟨-, b, vs, vd, shape, d, h1, h2, h3, h4, h5, h6⟩ := interpretHeader_ok_iff.mp hh
  simp only [NpyHeader.fromParts, Out.bind_eq_ok, Out.ok.injEq] at h6
  obtain ⟨_, _, _, _, _, _, rfl⟩ := h6
  refine ⟨vs, vd, h2, h3, ?_, isShape_iff.mpr h4, fromDescr_ok_iff.mp h5⟩
  cases b <;> exact h1

/-- Fields as lists and as tuples, arrays, an empty shape, a record inside a record:
`[['a', '<i4', [2, 3]], ('b', [('c', '|u1')]), ('d', '>f8', ())]`. -/
def exampleDescr : PyVal :=
  .list [.list [.str (txt "a"), .str (txt "<i4"), .list [.int 2, .int 3]],
    .tuple [.str (txt "b"), .list [.tuple [.str (txt "c"), .str (txt "|u1")]]],
    .tuple [.str (txt "d"), .str (txt ">f8"), .tuple []]]

def exampleDType : DType :=
  .record (.cons (txt "a") (.array 2 (.array 3 (.plain ⟨.little, .int, 4, none⟩)))
    (.cons (txt "b") (.record (.cons (txt "c") (.plain ⟨.irrelevant, .uint, 1, none⟩) .nil))
    (.cons (txt "d") (.plain ⟨.big, .float, 8, none⟩) .nil)))

theorem exampleDescr_describes : Describes exampleDescr exampleDType :=
  have i4 : Spells (txt "<i4") ⟨.little, .int, 4, none⟩ := (parse_ok_iff _ _).mp (by decide)
  have u1 : Spells (txt "|u1") ⟨.irrelevant, .uint, 1, none⟩ := (parse_ok_iff _ _).mp (by decide)
  have f8 : Spells (txt ">f8") ⟨.big, .float, 8, none⟩ := (parse_ok_iff _ _).mp (by decide)
  .record (.cons (.array (.inl rfl) (.plain i4) (dims := [2, 3]) ⟨.inl rfl, by decide⟩ (.cons (.cons .nil)))
    (.cons (.single (.inr rfl) (.record (.cons (.single (.inr rfl) (.plain u1)) .nil)))
    (.cons (.array (.inr rfl) (.plain f8) (dims := []) ⟨.inr rfl, by decide⟩ .nil) .nil)))

/-- C81_read_iff, C81_one_meaning: this is the only dtype it describes. -/
example : DType.fromDescr exampleDescr = .ok exampleDType ∧ ∀ d, Describes exampleDescr d → d = exampleDType :=
  ⟨(C81_read_iff _ _).mpr exampleDescr_describes, fun _ h => C81_one_meaning h exampleDescr_describes⟩

/-- C81_otherwise_error: `('<i4', (2,))`, a sub-array on its own. -/
example : ∃ msg, DType.fromDescr (.tuple [.str (txt "<i4"), .tuple [.int 2]]) = .err (.invalidData msg) :=
  C81_otherwise_error _ (fun d h => by cases h)

/-- C81_parse_iff: the text `'>f8'`. -/
example : DType.parse Py.parse "'>f8'".toList = .ok (.plain ⟨.big, .float, 8, none⟩) :=
  (C81_parse_iff Py.parse _ (by decide) _).mpr ⟨.str (txt ">f8"), rfl, .plain ((parse_ok_iff _ _).mp (by decide))⟩

/-- `('<i4', (2,))`, a sub-array on its own, describes nothing. -/
example : ∀ d, ¬ Describes (.tuple [.str (txt "<i4"), .tuple [.int 2]]) d := by
  intro d h; cases h

/-- Nor does a field with a title, `[(('title', 'a'), '<i4')]`. -/
example : ∀ d, ¬ Describes (.list [.tuple [.tuple [.str (txt "title"), .str (txt "a")], .str (txt "<i4")]]) d := by
  intro d h
  have := C81_read_iff _ _ |>.mpr h
  simp [DType.fromDescr, Fields.fromList, fieldFromVal, fieldFromTuple, fieldName] at this

end Npyz.Props
