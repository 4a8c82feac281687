import Verif.Spec.Pickle
import Verif.Props.Apart
import Verif.Props.Read
import Verif.Props.Writer
/-!
C132: arrays of Python objects.
-/
namespace Npyz.Props
set_option autoImplicit false
open Npyz.Spec

theorem pickled_gives_none {σ : Type} {f : NpyFile σ} (h : f.header.usesPickled = true) : GivesNoItems f := by
  intro V reader
  unfold NpyFile.dataWith NpyHeader.forbidPickle
  rw [if_pos h]
  rfl

theorem header_ok {α β : Type} {x : Res α × β} (h : (match x.1 with | .ok _ => true | _ => false) = true) : ∃ r s1, x = (.ok r, s1) := by
  rcases x with ⟨⟨⟩ | e | _, s⟩
  · exact ⟨_, _, rfl⟩
  · cases h
  · cases h

/-- C132: the header of an array of objects that `write_header_only` has written, at any place of any stream, followed by any bytes, is
opened on every machine: the dtype, the shape, the order, the strides and the number of elements are what was written, and
`uses_pickled_array` is true.  The stream that `into_inner` gives back stands at the first byte of the pickle, and behind the pickle is
what was there before.  No type can read items from the file. -/
theorem C132_passed {M M' : Machine} {py : PyParser} (hpy : py.ExtendsRef) {d : DType} (hw : d.Wf) (hobj : HasObject d)
    {dims : List Nat} (hdims : ∀ n ∈ dims, n < 2 ^ 64) (hprod : nonzeroProd dims < 2 ^ 64) {o : Order} {s s' : Sink}
    {r : ShapeInfo × VersionProps} (hexec : (writeHeader M d o (.nd dims)).exec s = (.ok r, s'))
    (hmem : dictBytes d o (.nd dims) + 76 ≤ M'.isizeMax) (pickle : Bytes) :
    ∃ f : NpyFile Src, NpyFile.new M' py disk ⟨(s'.put pickle).data, s.pos⟩ = (.ok f, f.src) ∧
      f.header.dtype = d ∧ f.header.shape = dims ∧ f.header.order = o ∧ f.header.strides = exactStrides o dims ∧
      f.header.nRecords = dims.prod ∧ f.header.itemSize = none ∧ f.header.usesPickled = true ∧
      f.intoInner = ⟨(s'.put pickle).data, s'.pos⟩ ∧ f.intoInner.rest = pickle ++ s.data.drop (s'.pos + pickle.length) ∧
      GivesNoItems f := by
  obtain ⟨ha, hc, _, hl, rfl⟩ := exec_writeHeader_ok hexec
  have hrun := run_final hpy (n := 0) (hint := .nd dims) ha hw (by omega) hdims hl hmem
  rw [show finalShape o 0 (.nd dims) = dims from rfl, fromParts_eq hprod (itemSizeOf_ok_iff.mpr (.inl ⟨hobj, rfl⟩))] at hrun
  have hne := headerBytes_ne_nil (finalDict d o (.nd dims) 0)
  have hput : (s.put (headerBytes (dictText d o (.nd dims)))).put pickle = s.put (headerBytes (finalDict d o (.nd dims) 0) ++ pickle) := Sink.put_put _ _ _
  rw [hput]
  have hd : (s.put (headerBytes (finalDict d o (.nd dims) 0) ++ pickle)).data.drop s.pos =
      headerBytes (finalDict d o (.nd dims) 0) ++ (pickle ++ s.data.drop (s.pos + (headerBytes (finalDict d o (.nd dims) 0)).length + pickle.length)) := by
    rw [Sink.put_data s (by simp [hne]), List.append_assoc,
      List.drop_append_of_le_length (by rw [Sink.before_length]; omega), List.drop_eq_nil_of_le (by rw [Sink.before_length]; omega)]
    simp [Nat.add_assoc]
  obtain ⟨k1, k2, -⟩ := open_of_run hrun hne hd
  have hp : (s.put (headerBytes (dictText d o (.nd dims)))).pos = s.pos + (headerBytes (finalDict d o (.nd dims) 0)).length := Sink.put_pos _ _
  refine ⟨_, k1, rfl, rfl, rfl, rfl, rfl, rfl, (usesPickled_iff d).mpr hobj, ?_, ?_, pickled_gives_none ((usesPickled_iff d).mpr hobj)⟩
  · rw [hp]; rfl
  · rw [hp]; exact k2

/-- A record with an object deep inside. -/
def objectsDType : DType :=
  .record (.cons "parent".toList (.record (.cons "child".toList (.plain ⟨.irrelevant, .object, 0, none⟩) .nil))
    (.cons "n".toList (.plain ⟨.little, .int, 4, none⟩) .nil))

theorem objectsDType_wf : objectsDType.Wf :=
  ⟨⟨wf_of_parse (s := "|O".toList) (t := ⟨.irrelevant, .object, 0, none⟩) (by decide), trivial⟩,
    wf_of_parse (s := "<i4".toList) (t := ⟨.little, .int, 4, none⟩) (by decide), trivial⟩

/-- C132_passed: a record, in Fortran order, in the middle of a file. -/
example : ∃ r s', (writeHeader ⟨false, 64, true⟩ objectsDType .fortran (.nd [2, 3])).exec ⟨[1, 2, 3], 2, false⟩ = (.ok r, s') ∧
    ∃ f : NpyFile Src, NpyFile.new ⟨false, 32, false⟩ Py.parse disk ⟨(s'.put [128, 3]).data, 2⟩ = (.ok f, f.src) ∧
      f.header.strides = [1, 2] ∧ f.intoInner.rest = [128, 3] := by
  obtain ⟨r, s1, h⟩ := header_ok (x := (writeHeader ⟨false, 64, true⟩ objectsDType .fortran (.nd [2, 3])).exec ⟨[1, 2, 3], 2, false⟩) (by decide +kernel)
  obtain ⟨f, h1, -, -, -, h2, -, -, -, h3, h4, -⟩ := C132_passed (M' := ⟨false, 32, false⟩) (py := Py.parse) (fun _ _ h => h) objectsDType_wf
    (.record (.head (.record (.head (.plain rfl))))) (by decide) (by decide) h (by decide +kernel) [128, 3]
  refine ⟨r, s1, h, f, h1, h2, ?_⟩
  rw [h4]
  obtain ⟨hdr, rfl, h64, h65, -⟩ := C08_aligned _ _ _ _ _ _ _ h
  rw [Sink.put_pos, List.drop_eq_nil_of_le (by simp; omega)]
  rfl

/-- C132: however a file with an object in its dtype has come about, and whatever its source does: it gives no items. -/
theorem C132_no_items {M : Machine} {σ : Type} {f : NpyFile σ} (ho : Opened M f.header) : GivesNoItems f ↔ HasObject f.header.dtype := by
  have hu : f.header.usesPickled = f.header.dtype.usesPickled := (opened ho).2.2.1
  constructor
  · intro h
    apply Classical.byContradiction
    intro hn
    have hf : f.header.usesPickled = false := by
      rw [hu, Bool.eq_false_iff]
      exact fun h => hn ((usesPickled_iff _).mp h)
    have := h Unit fun _ => .ok (pure ())
    unfold NpyFile.dataWith NpyHeader.forbidPickle at this
    rw [hf] at this
    cases this
  · intro h
    exact pickled_gives_none (by rw [hu]; exact (usesPickled_iff _).mpr h)

/-- C132_no_items: `objectFile` gives no items, `twoFloats` does. -/
example : (∃ f : NpyFile Src, Opened ⟨false, 64, true⟩ f.header ∧ GivesNoItems f) ∧ ∃ f : NpyFile Src, Opened ⟨false, 64, true⟩ f.header ∧ ¬ GivesNoItems f := by
  constructor
  · have h : (headerOf ⟨false, 64, true⟩ objectFile).map (fun h => h.dtype.usesPickled) = some true := by decide +kernel
    obtain ⟨hd, h1, h2⟩ := Option.map_eq_some_iff.mp h
    exact ⟨⟨hd, ⟨[], 0⟩⟩, headerOf_opened h1, (C132_no_items (headerOf_opened h1)).mpr ((usesPickled_iff _).mp h2)⟩
  · obtain ⟨f, r, h1, -, h2, -, -, -, h6⟩ := twoFloats_reader
    refine ⟨f, h1, fun h => ?_⟩
    have := (C132_no_items h1).mp h
    rw [h6] at this
    rcases this with h | _
    cases h

/-- C132, the part that holds for writing: `begin_nd`, `begin_1d` and `begin_2d` with the element types of the library (and arrays, structs
and pointers of them) never succeed with an object in the dtype. -/
theorem C132_library_partial {M : Machine} (hM : M.Wf) (t : Ty) {d : DType} (hobj : HasObject d) (o : Order) (hint : ShapeHint)
    (vs : List t.Val) (s : Sink) :
    (∀ w s', (NpyWriter.begin M t d o hint).exec s ≠ (.ok w, s')) ∧ (NpyWriter.save M solid t d o hint vs s).1 ≠ .ok () := by
  obtain ⟨e, he⟩ := (C24_no_type hM t d hobj).2
  have hb : ∀ w s', (NpyWriter.begin M t d o hint).exec s ≠ (.ok w, s') := by
    intro w s' h
    unfold NpyWriter.begin NpyWriter.beginWith at h
    obtain ⟨_, _, -, h⟩ := WProg.exec_bind_ok.mp h
    obtain ⟨_, _, -, h⟩ := WProg.exec_bind_ok.mp h
    obtain ⟨_, _, h, -⟩ := WProg.exec_bind_ok.mp h
    rw [he] at h
    cases h
  refine ⟨hb, ?_⟩
  unfold NpyWriter.save NpyWriter.saveWith
  rcases hx : solid.exec (NpyWriter.beginWith M (t.writer M) d o hint) s with ⟨w | e | _, s'⟩
  · exact absurd hx (hb w s')
  · simp
  · simp

/-- C132_library_partial: strings are not written as objects. -/
example (vs : List (List Char)) : (NpyWriter.save ⟨false, 64, true⟩ solid .string objectsDType .c .oneD vs ⟨[], 0, true⟩).1 ≠ .ok () :=
  (C132_library_partial (.inr rfl) .string (.record (.head (.record (.head (.plain rfl))))) .c .oneD vs _).2

/-- The dtype of arrays of objects. -/
def objectDType : DType := .plain ⟨.irrelevant, .object, 0, none⟩

/-- A user's element type for objects: the writer does not look at the dtype. -/
def carelessWriter (_ : DType) : DRes (UInt8 → WProg Unit) := .ok fun v => WProg.put [v]

/-- C132 is violated by `begin_nd` with element types of the user: if `writer` of the type accepts the dtype, and its items are appended
without an error, then an array with an object in its dtype is written item by item, `finish` succeeds, and no type can read an item from
the file. -/
theorem C132_written {V : Type} {M M' : Machine} {py : PyParser} (hpy : py.ExtendsRef) {writer : DType → DRes (V → WProg Unit)}
    {prog : V → WProg Unit} {d : DType} (hw : d.Wf) (hobj : HasObject d) (hwr : writer d = .ok prog) {vs : List V} {chunks : List Bytes}
    (ha : AllAppend prog vs chunks) (hc : vs.length < 2 ^ 64) {dims : List Nat} (hdims : ∀ n ∈ dims, n < 2 ^ 64)
    (hprod : nonzeroProd dims < 2 ^ 64) (hn : vs.length = dims.prod) {o : Order} {s s' : Sink} {r : ShapeInfo × VersionProps}
    (hexec : (writeHeader M d o (.nd dims)).exec s = (.ok r, s')) (hmem : dictBytes d o (.nd dims) + 76 ≤ M'.isizeMax) :
    ∃ s'' f, NpyWriter.saveWith M solid writer d o (.nd dims) vs s = (.ok (), s'') ∧
      NpyFile.new M' py disk ⟨s''.data, s.pos⟩ = (.ok f, f.src) ∧ f.header.dtype = d ∧ f.header.shape = dims ∧ GivesNoItems f := by
  obtain ⟨h1, h2⟩ := C89_write hwr ha hc hprod hexec
  obtain ⟨f, k1, k2, k3, -, -, -, -, -, -, -, k4⟩ := C132_passed hpy hw hobj hdims hprod hexec hmem chunks.flatten
  generalize NpyWriter.saveWith M solid writer d o (.nd dims) vs s = x at h1 h2 ⊢
  rcases x with ⟨x1, x2⟩
  obtain rfl : x2 = _ := h1
  exact ⟨_, f, Prod.ext (h2.mpr hn) rfl, k1, k2, k3, k4⟩

/-- C132_written: an array of one object, on a 32-bit machine. -/
example : ∃ s' f, NpyWriter.saveWith ⟨false, 32, true⟩ solid carelessWriter objectDType .fortran (.nd [1]) [7] ⟨[9], 1, false⟩ = (.ok (), s') ∧
    NpyFile.new ⟨false, 64, true⟩ Py.parse disk ⟨s'.data, 1⟩ = (.ok f, f.src) ∧ f.header.shape = [1] ∧ GivesNoItems f := by
  obtain ⟨r, s1, h⟩ := header_ok (x := (writeHeader ⟨false, 32, true⟩ objectDType .fortran (.nd [1])).exec ⟨[9], 1, false⟩) (by decide +kernel)
  obtain ⟨s', f, h1, h2, -, h3, h4⟩ := C132_written (M' := ⟨false, 64, true⟩) (d := objectDType) (py := Py.parse) (fun _ _ h => h)
    (wf_of_parse (s := "|O".toList) (by decide)) (.plain rfl) (writer := carelessWriter) rfl (vs := [7]) (chunks := [[7]])
    ⟨fun s => WProg.exec_put _ _, trivial⟩ (by decide) (by decide) (by decide) rfl h (by decide +kernel)
  exact ⟨s', f, h1, h2, h3, h4⟩

/-- C132 is violated: two items of an array of objects are written and reported as saved, and cannot be read by any type. -/
theorem C132_violated : ∃ (s' : Sink) (f : NpyFile Src),
    NpyWriter.saveWith ⟨false, 64, true⟩ solid carelessWriter objectDType .c (.nd [2]) [7, 8] ⟨[], 0, true⟩ = (.ok (), s') ∧
    NpyFile.new ⟨false, 64, true⟩ Py.parse disk ⟨s'.data, 0⟩ = (.ok f, f.src) ∧ f.header.dtype = objectDType ∧ f.header.shape = [2] ∧
    GivesNoItems f := by
  obtain ⟨r, s1, h⟩ := header_ok (x := (writeHeader ⟨false, 64, true⟩ objectDType .c (.nd [2])).exec ⟨[], 0, true⟩) (by decide +kernel)
  exact C132_written (d := objectDType) (fun _ _ h => h) (wf_of_parse (s := "|O".toList) (by decide)) (.plain rfl) (writer := carelessWriter) rfl
    (vs := [7, 8]) (chunks := [[7], [8]]) ⟨fun s => WProg.exec_put _ _, fun s => WProg.exec_put _ _, trivial⟩ (by decide) (by decide) (by decide) rfl h
    (by decide +kernel)

end Npyz.Props
