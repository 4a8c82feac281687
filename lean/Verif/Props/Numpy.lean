import Verif.Proofs.Numpy
import Verif.Props.WriteHeader
import Verif.Props.Writer
/-!
Properties C73 and C74: exchanging files with NumPy.  `NumpyWrote` and `NumpyReads` (Spec/Numpy.lean) describe
what NumPy writes and what it accepts.
-/
namespace Npyz.Props
open Spec Py

/-! ### C73 -/

/-- C73, where it holds: a header NumPy wrote in version 3, or in version 1 or 2 with ASCII characters only, is read with
the dtype, shape and order NumPy meant, leaving the data unread, if the shape's products fit `u64`, the item size
fits `usize` and the header fits the memory.  Missing: Latin-1 characters in versions 1 and 2 (`C73_violated`). -/
theorem C73_understood_partial {M : Machine} {py : PyParser} (hpy : py.ExtendsRef) {bs : Bytes} {d : DType} {o : Order} {dims : List Nat}
    {text : Text} (h : NumpyWrote bs d o dims text) (ha : byteAt bs 6 = 3 ∨ ∀ c ∈ text, c.toNat < 128)
    (hdims : ∀ n ∈ dims, n < 2 ^ 64) (hprod : nonzeroProd dims < 2 ^ 64) (hsize : HasObject d ∨ AllFit M.usizeLim d)
    (hmem : headerEnd bs ≤ M.isizeMax) :
    ∃ hdr, (NpyHeader.fromReader M py).run bs = (.ok hdr, bs.drop (headerEnd bs)) ∧
      hdr.dtype = d ∧ hdr.shape = dims ∧ hdr.order = o ∧ hdr.nRecords = dims.prod := by
  obtain ⟨hg, hle, descr, blanks, h1, rfl, h3⟩ := h
  obtain ⟨v, hl, hv⟩ := lit_descrText h1
  have hp := parse_of_lit (lit_numpyDict hl o dims) blanks
  have hsz : ∃ sz, itemSizeOf M d = .ok sz := by
    by_cases ho : HasObject d
    · exact ⟨none, itemSizeOf_ok_iff.mpr (.inl ⟨ho, rfl⟩)⟩
    · have hf := hsize.resolve_left ho
      cases he : exactBytes d with
      | none => exact absurd ((exactBytes_none_iff d).mp he) ho
      | some n => exact ⟨some n, itemSizeOf_ok_iff.mpr (.inr ⟨ho, hf, n, he, rfl⟩)⟩
  obtain ⟨sz, hsz⟩ := hsz
  rw [run_body hg hle hmem, finish_encoded h3 ha]
  unfold numpyLine
  rw [hpy _ _ hp]
  have : interpretHeader M _ = _ := interpretHeader_of (M := M) (o := o) ⟨v, hv, rfl⟩ hdims
  simp only [parseResult, Out.bind_ok]
  rw [this, fromParts_eq hprod hsz]
  exact ⟨_, rfl, rfl, rfl, rfl, rfl⟩

/-- A record with one field of this name. -/
def oneField (name : Text) : DType := .record (.cons name (.plain ⟨.little, .float, 8, none⟩) .nil)

/-- What NumPy prints for it, if the name needs no escapes. -/
def oneFieldDescr (name : Text) : Text := ['[', '(', '\''] ++ name ++ "', '<f8')]".toList

theorem oneFieldDescr_text {name : Text} (h : pyRepr name = '\'' :: (name ++ ['\''])) : DescrText (oneFieldDescr name) (oneField name) := by
  have hs : Spells "<f8".toList ⟨.little, .float, 8, none⟩ := (parse_ok_iff _ _).mp (by decide)
  have := DescrText.record (FieldsText.scalar (name := name) (.plain hs) .nil)
  rw [h] at this
  simpa [List.intercalate, oneField, oneFieldDescr] using this

/-- The header NumPy writes for an array of such records, with two axes of lengths 3 and 4, in version 1. -/
def latinHeader (name : Text) : Bytes :=
  magicBytes ++ [1, 0, 118, 0] ++ (numpyLine (oneFieldDescr name) .c [3, 4] (50 - name.length) ++ ['\n']).map fun c => UInt8.ofNat c.toNat

theorem isizeMax_128 {M : Machine} (hM : M.Wf) : 128 ≤ M.isizeMax := by
  rcases hM with h | h <;> unfold Machine.isizeMax <;> rw [h] <;> decide

theorem oneField_fits {M : Machine} (hM : M.Wf) (name : Text) : AllFit M.usizeLim (oneField name) := by
  have : (8 : Nat) < M.usizeLim := by rcases hM with h | h <;> unfold Machine.usizeLim <;> rw [h] <;> decide
  exact ⟨⟨fun n hn => by cases hn; exact this, trivial⟩, fun k hk => by cases hk; exact this⟩

theorem oneField_noObject (name : Text) : ¬ HasObject (oneField name) := by
  intro h
  have := (exactBytes_none_iff _).mpr h
  cases this

/-- C73 is violated: NumPy writes version 1 headers in Latin-1.  A field name `é` makes the file unreadable,
and the field name `Ã©` is read as `é`. -/
theorem C73_violated : 
    (∃ bs text, NumpyWrote bs (oneField ['é']) .c [3, 4] text ∧ bs.length = 128 ∧ ∀ (M : Machine) (py : PyParser), M.Wf →
      ((NpyHeader.fromReader M py).run bs).1 = .err (.invalidData "could not parse utf-8")) ∧
    (∃ bs text, NumpyWrote bs (oneField ['Ã', '©']) .c [3, 4] text ∧ bs.length = 128 ∧ ∀ (M : Machine) (py : PyParser), M.Wf → py.ExtendsRef →
      ∃ hdr, ((NpyHeader.fromReader M py).run bs).1 = .ok hdr ∧ hdr.dtype = oneField ['é']) := by
  refine ⟨⟨latinHeader ['é'], _, ⟨?_, ?_, _, 49, oneFieldDescr_text (by decide), rfl, ?_⟩, by decide +kernel, fun M py hM => ?_⟩,
    latinHeader ['Ã', '©'], _, ⟨?_, ?_, _, 48, oneFieldDescr_text (by decide), rfl, ?_⟩, by decide +kernel, fun M py hM hpy => ?_⟩
  · exact ⟨by decide +kernel, by decide +kernel, by decide +kernel, by decide +kernel⟩
  · decide +kernel
  · exact ⟨by decide +kernel, by decide +kernel⟩
  · rw [run_body ⟨by decide +kernel, by decide +kernel, by decide +kernel, by decide +kernel⟩ (by decide +kernel)
      (Nat.le_trans (by decide +kernel) (isizeMax_128 hM))]
    have : decodeUtf8 (stripNewline (headerBody (latinHeader ['é']))) = none := by decide +kernel
    simp only [finishHeader, parseHeaderText, this]
    rfl
  · exact ⟨by decide +kernel, by decide +kernel, by decide +kernel, by decide +kernel⟩
  · decide +kernel
  · exact ⟨by decide +kernel, by decide +kernel⟩
  · rw [run_body ⟨by decide +kernel, by decide +kernel, by decide +kernel, by decide +kernel⟩ (by decide +kernel)
      (Nat.le_trans (by decide +kernel) (isizeMax_128 hM))]
    have h1 : decodeUtf8 (stripNewline (headerBody (latinHeader ['Ã', '©']))) = some (numpyLine (oneFieldDescr ['é']) .c [3, 4] 48) := by
      decide +kernel
    obtain ⟨v, hl, hv⟩ := lit_descrText (oneFieldDescr_text (name := ['é']) (by decide))
    have hp := parse_of_lit (lit_numpyDict hl .c [3, 4]) 48
    have hi : interpretHeader M _ = _ := interpretHeader_of (M := M) (o := .c) (dims := [3, 4]) ⟨v, hv, rfl⟩ (by decide)
    have hsz := (itemSizeOf_ok_iff (M := M) (d := oneField ['é'])).mpr (.inr ⟨oneField_noObject _, oneField_fits hM _, 8, rfl, rfl⟩)
    simp only [finishHeader, parseHeaderText, h1]
    unfold numpyLine
    rw [hpy _ _ hp]
    simp only [parseResult, Out.bind_ok]
    rw [hi, fromParts_eq (by decide) hsz]
    exact ⟨_, rfl, rfl⟩

-- the hypotheses are met: names with quotes, a sub-array, a nested record, version 2
example : DescrText "[(\"it's\", '<f8', (2,)), ('b', [('c', '|S3')])]".toList
    (.record (.cons "it's".toList (.array 2 (.plain ⟨.little, .float, 8, none⟩))
      (.cons "b".toList (.record (.cons "c".toList (.plain ⟨.irrelevant, .byteStr, 3, none⟩) .nil)) .nil))) := by
  have h1 : Spells "<f8".toList ⟨.little, .float, 8, none⟩ := (parse_ok_iff _ _).mp (by decide)
  have h2 : Spells "|S3".toList ⟨.irrelevant, .byteStr, 3, none⟩ := (parse_ok_iff _ _).mp (by decide)
  have := DescrText.record (FieldsText.array (name := "it's".toList) (dims := [2]) (.plain h1) (by simp) (by decide)
    (.scalar (name := "b".toList) (.record (.scalar (name := "c".toList) (.plain h2) .nil)) .nil))
  exact Eq.mp (congrArg (DescrText · _) (by decide)) this

example {M : Machine} (hM : M.Wf) {py : PyParser} (hpy : py.ExtendsRef) :
    ∃ hdr, (NpyHeader.fromReader M py).run (latinHeader ['a']) = (.ok hdr, []) ∧ hdr.dtype = oneField ['a'] ∧ hdr.shape = [3, 4] := by
  obtain ⟨hdr, h1, h2, h3, -⟩ := C73_understood_partial (M := M) hpy (bs := latinHeader ['a']) (d := oneField ['a']) (o := .c) (dims := [3, 4])
    ⟨⟨by decide +kernel, by decide +kernel, by decide +kernel, by decide +kernel⟩, by decide +kernel, _, 49, oneFieldDescr_text (by decide), rfl,
      by decide +kernel, by decide +kernel⟩ (.inr (by decide +kernel)) (by decide) (by decide) (.inr (oneField_fits hM _))
      (Nat.le_trans (by decide +kernel) (isizeMax_128 hM))
  exact ⟨hdr, by rw [h1, show (latinHeader ['a']).drop _ = [] by decide +kernel], h2, h3⟩

/-! ### C74 -/

/-- C74, where it holds: after a successful session NumPy reads the file, wherever it starts in the stream, as an array of the same dtype,
order and shape, if the field names of each record are distinct, not empty and without NUL characters.  Missing: such names (`C74_refused`). -/
theorem C74_numpy_reads_partial {M : Machine} {t : Ty} {d : DType} {size : Nat} (hd : d.Wf) (hn : exactBytes d = some size)
    (hm : size ≤ M.isizeMax) (hz : NoNul d) (hu : DistinctNames d) {o : Order} {hint : ShapeHint} {vs : List t.Val} (hc : vs.length < 2 ^ 64) {s s' : Sink}
    (hpos : hint.seeks = true → s.pos + dictBytes d o hint + 76 ≤ 2 ^ 64) (h : NpyWriter.save M solid t d o hint vs s = (.ok (), s')) :
    NumpyReads (s'.data.drop s.pos) d o (finalShape o vs.length hint) := by
  obtain ⟨items, he, rfl, h1, h2, -⟩ := save_ok hd hn hm hc hpos h
  have hna := isArray_false.mp h1
  obtain ⟨txt, k, e1, e2, e3⟩ := finalDict_lit hna hz o hint vs.length
  obtain ⟨rest, hdrop⟩ := Sink.put_drop s (headerBytes (finalDict d o hint vs.length) ++ items) (by simp [headerBytes_ne_nil])
  rw [hdrop, List.append_assoc]
  exact numpyReads_headerBytes e1 e2 e3 (headerOf_headerDict hna hd o _) hu (finalDict_fits hc h2) _

/-- C74: the same for a header written on its own, for any dtype (also with Python objects). -/
theorem C74_header_partial {M : Machine} {d : DType} (hd : d.Wf) (hz : NoNul d) (hu : DistinctNames d) {o : Order} {dims : List Nat} {s s' : Sink}
    {r : ShapeInfo × VersionProps} (h : (writeHeader M d o (.nd dims)).exec s = (.ok r, s')) :
    NumpyReads (s'.data.drop s.pos) d o dims := by
  obtain ⟨h1, -, -, h2, rfl⟩ := exec_writeHeader_ok h
  have hna := isArray_false.mp h1
  obtain ⟨txt, k, e1, e2, e3⟩ := finalDict_lit hna hz o (.nd dims) 0
  obtain ⟨rest, hdrop⟩ := Sink.put_drop s (headerBytes (dictText d o (.nd dims))) (headerBytes_ne_nil _)
  rw [hdrop]
  exact numpyReads_headerBytes e1 e2 e3 (headerOf_headerDict hna hd o _) hu h2 _

/-- C74 fails for every dtype with such names: NumPy reads what a successful session wrote as no array at all. -/
theorem C74_refused {M : Machine} {t : Ty} {d : DType} {size : Nat} (hd : d.Wf) (hn : exactBytes d = some size)
    (hm : size ≤ M.isizeMax) (hz : ¬ (NoNul d ∧ DistinctNames d)) {o : Order} {hint : ShapeHint} {vs : List t.Val} (hc : vs.length < 2 ^ 64)
    {s s' : Sink} (hpos : hint.seeks = true → s.pos + dictBytes d o hint + 76 ≤ 2 ^ 64)
    (h : NpyWriter.save M solid t d o hint vs s = (.ok (), s')) : ∀ d' o' dims', ¬ NumpyReads (s'.data.drop s.pos) d' o' dims' := by
  obtain ⟨items, he, rfl, h1, h2, -⟩ := save_ok hd hn hm hc hpos h
  have hna := isArray_false.mp h1
  obtain ⟨rest, hdrop⟩ := Sink.put_drop s (headerBytes (finalDict d o hint vs.length) ++ items) (by simp [headerBytes_ne_nil])
  rw [hdrop, List.append_assoc]
  by_cases hz' : NoNul d
  · obtain ⟨txt, k, e1, e2, e3⟩ := finalDict_lit hna hz' o hint vs.length
    intro d' o' dims' hr
    obtain ⟨rfl, -⟩ := numpyReads_unique e1 e2 (headerOf_headerDict hna hd o _) (finalDict_fits hc h2) hr
    exact hz ⟨hz', hr.2.2.choose_spec.choose_spec.2.2.2.2⟩
  · exact not_numpyReads_headerBytes (finalDict_nul hna hz' o hint vs.length) (finalDict_fits hc h2) _

/-- C74: the same for a header written on its own. -/
theorem C74_header_refused {M : Machine} {d : DType} (hd : d.Wf) (hz : ¬ (NoNul d ∧ DistinctNames d)) {o : Order} {dims : List Nat}
    {s s' : Sink} {r : ShapeInfo × VersionProps} (h : (writeHeader M d o (.nd dims)).exec s = (.ok r, s')) :
    ∀ d' o' dims', ¬ NumpyReads (s'.data.drop s.pos) d' o' dims' := by
  obtain ⟨h1, -, -, h2, rfl⟩ := exec_writeHeader_ok h
  have hna := isArray_false.mp h1
  obtain ⟨rest, hdrop⟩ := Sink.put_drop s (headerBytes (dictText d o (.nd dims))) (headerBytes_ne_nil _)
  rw [hdrop]
  by_cases hz' : NoNul d
  · obtain ⟨txt, k, e1, e2, e3⟩ := finalDict_lit hna hz' o (.nd dims) 0
    intro d' o' dims' hr
    obtain ⟨rfl, -⟩ := numpyReads_unique e1 e2 (headerOf_headerDict hna hd o _) h2 hr
    exact hz ⟨hz', hr.2.2.choose_spec.choose_spec.2.2.2.2⟩
  · exact not_numpyReads_headerBytes (finalDict_nul hna hz' o (.nd dims) 0) h2 _

/-- Two fields with this name. -/
def twice (name : Text) : DType := .record (.cons name (.plain ⟨.little, .float, 8, none⟩) (.cons name (.plain ⟨.little, .float, 8, none⟩) .nil))

theorem oneField_wf (name : Text) : (oneField name).Wf :=
  ⟨⟨by constructor <;> simp [SizeAllowed, OrderMatters], by decide, by simp⟩, trivial⟩

theorem twice_wf (name : Text) : (twice name).Wf :=
  ⟨⟨by constructor <;> simp [SizeAllowed, OrderMatters], by decide, by simp⟩, oneField_wf name⟩

/-- C74 is violated: the header of a record with the field `a` twice, or a field with a NUL character in its name, is
written without an error, and NumPy does not read it. -/
theorem C74_violated : ∀ d, d = twice ['a'] ∨ d = oneField ['\x00'] → ∃ r s',
    (writeHeader ⟨false, 64, true⟩ d .c (.nd [3, 4])).exec ⟨[], 0, false⟩ = (.ok r, s') ∧ s'.data.length = 128 ∧
    ∀ d' o' dims', ¬ NumpyReads s'.data d' o' dims' := by
  have key : ∀ d, d.Wf → (∃ r hdr, (writeHeader ⟨false, 64, true⟩ d .c (.nd [3, 4])).exec ⟨[], 0, false⟩ = (.ok r, Sink.put ⟨[], 0, false⟩ hdr)) →
      ((writeHeader ⟨false, 64, true⟩ d .c (.nd [3, 4])).exec ⟨[], 0, false⟩).2.data.length = 128 → ¬ (NoNul d ∧ DistinctNames d) →
      ∃ r s', (writeHeader ⟨false, 64, true⟩ d .c (.nd [3, 4])).exec ⟨[], 0, false⟩ = (.ok r, s') ∧ s'.data.length = 128 ∧
        ∀ d' o' dims', ¬ NumpyReads s'.data d' o' dims' := by
    rintro d hd ⟨r, hdr, h⟩ hl hz
    exact ⟨r, _, h, by rwa [h] at hl, C74_header_refused hd hz h⟩
  have hh : (ShapeHint.nd [3, 4]).Fits := by unfold ShapeHint.Fits; decide
  rintro d (rfl | rfl)
  · refine key _ (twice_wf _) (C09_success_partial _ (twice ['a']) trivial .c _ hh (.inl (by decide +kernel)) _) (by decide +kernel) ?_
    simp [twice, DistinctNames, FieldsDistinct, fieldNames]
  · refine key _ (oneField_wf _) (C09_success_partial _ (oneField ['\x00']) trivial .c _ hh (.inl (by decide +kernel)) _) (by decide +kernel) ?_
    simp [oneField, NoNul, FieldsNoNul]

-- the hypotheses are met: a file with three numbers; a header with a name in quotes

/-- A header: the result of writing it to an empty stream. -/
def headerFor (name : Text) (s : Sink) : Res (ShapeInfo × VersionProps) × Sink := (writeHeader ⟨false, 64, true⟩ (oneField name) .c (.nd [3, 4])).exec s

theorem headerFor_ok (name : Text) (h : (match (headerFor name ⟨[], 0, false⟩).1 with | .ok _ => true | _ => false) = true) :
    ∃ (s s' : Sink) (r : ShapeInfo × VersionProps), headerFor name s = (.ok r, s') := by
  rcases hx : headerFor name ⟨[], 0, false⟩ with ⟨(r | e | _), s'⟩
  · exact ⟨_, s', r, hx⟩
  · rw [hx] at h; cases h
  · rw [hx] at h; cases h

/-- C74_header_partial: NumPy reads the header for a name with a quote, but (C74_header_refused) not for one with a NUL. -/
example : ∃ (s s' : Sink) (r : ShapeInfo × VersionProps), headerFor "it's".toList s = (.ok r, s') ∧
    NumpyReads (s'.data.drop s.pos) (oneField "it's".toList) .c [3, 4] := by
  have key : ∀ {name : Text} {s s' : Sink} {r : ShapeInfo × VersionProps}, NoNul (oneField name) → DistinctNames (oneField name) →
      headerFor name s = (.ok r, s') → NumpyReads (s'.data.drop s.pos) (oneField name) .c [3, 4] := by
    intro name s s' r h1 h2 h
    unfold headerFor at h
    exact C74_header_partial (oneField_wf _) h1 h2 h
  obtain ⟨s, s', r, h⟩ := headerFor_ok "it's".toList (by decide +kernel)
  exact ⟨s, s', r, h, key (by simp [oneField, NoNul, FieldsNoNul]) (by simp [oneField, DistinctNames, FieldsDistinct, fieldNames]) h⟩
example : ∃ (s s' : Sink) (r : ShapeInfo × VersionProps), headerFor ['a', '\x00'] s = (.ok r, s') ∧
    ∀ d' o' dims', ¬ NumpyReads (s'.data.drop s.pos) d' o' dims' := by
  obtain ⟨s, s', r, h⟩ := headerFor_ok ['a', '\x00'] (by decide +kernel)
  exact ⟨s, s', r, h, C74_header_refused (oneField_wf _) (by simp [oneField, NoNul, FieldsNoNul]) h⟩

/-- C74_refused: an array of one such record. -/
def nulSave (s : Sink) : Res Unit × Sink :=
  NpyWriter.save ⟨false, 64, true⟩ solid (.record (.cons ['a', '\x00'] f64 .nil)) (oneField ['a', '\x00']) .c .oneD [(1#64, ())] s

example : ∃ (s s' : Sink), nulSave s = (.ok (), s') ∧ ∀ d' o' dims', ¬ NumpyReads (s'.data.drop s.pos) d' o' dims' := by
  have h : (match (nulSave ⟨[], 0, true⟩).1 with | .ok () => true | _ => false) = true := by decide +kernel
  rcases hx : nulSave ⟨[], 0, true⟩ with ⟨(⟨⟩ | e | _), s'⟩
  · exact ⟨_, s', hx, C74_refused (size := 8) (oneField_wf _) rfl (by decide) (by simp [oneField, NoNul, FieldsNoNul]) (by decide)
      (fun _ => by decide +kernel) hx⟩
  · rw [hx] at h; cases h
  · rw [hx] at h; cases h

example (s : Sink) (h : s.pos = 2) (hk : s.seekable = true) : ∃ s', NpyWriter.save ⟨false, 64, true⟩ solid f64 (.plain ⟨.little, .float, 8, none⟩) .c .oneD
    [1#64, 2#64, 3#64] s = (.ok (), s') ∧ NumpyReads (s'.data.drop s.pos) (.plain ⟨.little, .float, 8, none⟩) .c [3] := by
  have hd : (DType.plain ⟨.little, .float, 8, none⟩).Wf := ⟨by constructor <;> simp [SizeAllowed, OrderMatters], by decide, by simp⟩
  have hl : dictBytes (.plain ⟨.little, .float, 8, none⟩) .c .oneD ≤ 100 := by decide +kernel
  obtain ⟨s', h'⟩ := C39_succeeds (M := ⟨false, 64, true⟩) (t := f64) (o := .c) (hint := .oneD) (s := s) (vs := [1#64, 2#64, 3#64]) hd rfl (by decide) trivial ⟨_, rfl⟩ trivial
    (by omega) nofun (by decide) trivial (fun v _ => nofun) (fun _ => ⟨hk, by omega⟩)
  exact ⟨s', h', C74_numpy_reads_partial (size := 8) hd rfl (by decide) trivial trivial (by decide) (fun _ => by omega) h'⟩

example : NoNul (oneField "it's é".toList) ∧ DistinctNames (oneField "it's é".toList) ∧
    ((writeHeader ⟨false, 64, true⟩ (oneField "it's é".toList) .c (.nd [3, 4])).exec ⟨[], 0, false⟩).2.data.take 8 = magicBytes ++ [3, 0] := by
  refine ⟨by simp [oneField, NoNul, FieldsNoNul], by simp [oneField, DistinctNames, FieldsDistinct, fieldNames], by decide +kernel⟩

end Npyz.Props
