import Verif.Proofs.WriteHeader
/-!
Properties C07–C09: writing headers.
`writeHeader M d o hint` is the header part of `begin_nd`/`begin_1d`/`begin_2d` and
`write_header_only`; `exec s` runs it on an output stream `s` and yields the outcome and the new
stream; `s.put bs` is the stream `s` after writing `bs` at its position.
-/
namespace Npyz.Props
open Spec

/-- C07: a successfully written header is read back on any machine as the same dtype, shape and order,
leaving whatever follows unread, if the shape's products fit `u64`, the item size fits the reading
machine's `usize` and the header fits its memory. -/
theorem C07_round_trip (M M' : Machine) (py : PyParser) (hpy : py.ExtendsRef) (d : DType) (hw : d.Wf)
    (dims : List Nat) (hdims : ∀ n ∈ dims, n < 2 ^ 64) (hprod : nonzeroProd dims < 2 ^ 64)
    (hsize : HasObject d ∨ AllFit M'.usizeLim d) (o : Order) (s s' : Sink) (r : ShapeInfo × VersionProps)
    (hexec : (writeHeader M d o (.nd dims)).exec s = (.ok r, s')) :
    ∃ hdr, s' = s.put hdr ∧ (hdr.length ≤ M'.isizeMax → ∀ rest, ∃ h,
      (NpyHeader.fromReader M' py).run (hdr ++ rest) = (.ok h, rest) ∧
      h.dtype = d ∧ h.shape = dims ∧ h.order = o ∧ h.nRecords = dims.prod) := by
  obtain ⟨ha, hc, _, hl, rfl⟩ := exec_writeHeader_ok hexec
  refine ⟨_, rfl, fun hmem rest => ?_⟩
  have hn := isArray_false.mp ha
  have ht : dictPrefix d o ++ shapeText dims = dictText d o (.nd dims) := by
    simp only [createDict] at hc
    obtain ⟨n, _, h⟩ := Out.bind_eq_ok.mp hc
    exact (Prod.mk.inj (Out.ok.inj h)).1
  have hlit := lit_ndText hn o dims
  rw [ht] at hlit
  have hsz : ∃ sz, itemSizeOf M' d = .ok sz := by
    by_cases ho : HasObject d
    · exact ⟨none, itemSizeOf_ok_iff.mpr (.inl ⟨ho, rfl⟩)⟩
    · have hf := hsize.resolve_left ho
      cases he : exactBytes d with
      | none => exact absurd ((exactBytes_none_iff d).mp he) ho
      | some n => exact ⟨some n, itemSizeOf_ok_iff.mpr (.inr ⟨ho, hf, n, he, rfl⟩)⟩
  obtain ⟨sz, hsz⟩ := hsz
  rw [headerBytes_length] at hmem
  rw [run_headerBytes hpy hlit hl (by omega), interpretHeader_headerDict hn hw o hdims, fromParts_eq hprod hsz]
  exact ⟨_, rfl, rfl, rfl, rfl, rfl⟩

/-- C08: every header that is written has a total length divisible by 64, starts with the magic bytes
and a known version, its length field points exactly to its end, and it ends with a newline. -/
theorem C08_aligned (M : Machine) (d : DType) (o : Order) (hint : ShapeHint) (s s' : Sink) (r : ShapeInfo × VersionProps)
    (hexec : (writeHeader M d o hint).exec s = (.ok r, s')) :
    ∃ hdr, s' = s.put hdr ∧ hdr.length % 64 = 0 ∧ 64 ≤ hdr.length ∧ GoodPreamble hdr ∧ headerEnd hdr = hdr.length ∧
      hdr.getLast? = some 10 := by
  obtain ⟨ha, hc, _, hl, rfl⟩ := exec_writeHeader_ok hexec
  refine ⟨_, rfl, ?_⟩
  generalize dictText d o hint = dict at hl
  have h64 : (headerBytes dict).length % 64 = 0 := by
    rw [headerBytes_length]; exact padHeader_mod _ _
  have hpos : 0 < (headerBytes dict).length := by
    rw [headerBytes_length, bytesBeforeText_eq]; omega
  have hfit : (headerText dict).length < 256 ^ (usedProps (encodeUtf8 dict)).width := by
    have : 0 < 256 ^ (usedProps (encodeUtf8 dict)).width := Nat.pow_pos (by omega)
    simp only [VersionProps.maxLen] at hl
    omega
  refine ⟨h64, by omega, ?_, ?_, ?_⟩
  · refine goodPreamble_iff.mpr ⟨_, _, _,
      leBytes (usedProps (encodeUtf8 dict)).width (headerText dict).length ++ headerText dict, ?_, usedProps_version (encodeUtf8 dict)⟩
    simp [headerBytes, emitHeader]
  · have := headerEnd_eq (r := headerText dict) (usedProps_version (encodeUtf8 dict))
      (leBytes_length (usedProps (encodeUtf8 dict)).width (headerText dict).length)
    rw [headerBytes_length, bytesBeforeText_eq]
    unfold headerBytes emitHeader
    rw [this, leNat_leBytes hfit]; omega
  · simp only [headerBytes, emitHeader, headerText, padHeader, ← List.append_assoc, List.getLast?_concat]

/-- C08: between the length field and the newline stands the dictionary followed by blanks only. -/
theorem C08_text (M : Machine) (d : DType) (o : Order) (hint : ShapeHint) (s s' : Sink) (r : ShapeInfo × VersionProps)
    (hexec : (writeHeader M d o hint).exec s = (.ok r, s')) :
    ∃ pre n, s' = s.put (pre ++ encodeUtf8 (dictText d o hint ++ List.replicate n ' ') ++ [10]) ∧
      (pre.length = 10 ∨ pre.length = 12) ∧ n < 64 := by
  obtain ⟨ha, hc, _, hl, rfl⟩ := exec_writeHeader_ok hexec
  generalize dictText d o hint = dict at hl
  refine ⟨magic ++ [(getMinimalVersion (requiredProps (encodeUtf8 dict))).1, (getMinimalVersion (requiredProps (encodeUtf8 dict))).2]
    ++ leBytes (usedProps (encodeUtf8 dict)).width (headerText dict).length,
    63 - ((encodeUtf8 dict).length + (usedProps (encodeUtf8 dict)).bytesBeforeText) % 64, ?_, ?_, by omega⟩
  · congr 1
    rw [encodeUtf8_append, encodeUtf8_ascii (s := List.replicate _ ' ')]
    · simp [headerBytes, emitHeader, headerText, padHeader]
    · intro c hc
      rw [List.mem_replicate] at hc
      rw [hc.2]; decide
  · simp only [List.length_append, leBytes_length, magic, List.length_cons, List.length_nil, VersionProps.width]
    split <;> simp

/-- C09: the version of a written header: 3.0 exactly when the dtype description has characters
outside ASCII, otherwise 1.0 when the padded text fits a 16-bit length field and 2.0 when it does not. -/
theorem C09_version (M : Machine) (d : DType) (o : Order) (hint : ShapeHint) (s s' : Sink) (r : ShapeInfo × VersionProps)
    (hexec : (writeHeader M d o hint).exec s = (.ok r, s')) :
    ∃ hdr, s' = s.put hdr ∧ byteAt hdr 7 = 0 ∧
      (byteAt hdr 6 = 3 ↔ NonAscii d) ∧
      (byteAt hdr 6 = 1 ↔ ¬ NonAscii d ∧ dictBytes d o hint ≤ 65525) ∧
      (byteAt hdr 6 = 2 ↔ ¬ NonAscii d ∧ 65525 < dictBytes d o hint) := by
  obtain ⟨ha, hc, _, hl, rfl⟩ := exec_writeHeader_ok hexec
  refine ⟨_, rfl, ?_⟩
  rw [headerText_fits] at hl
  have h6 : byteAt (headerBytes (dictText d o hint)) 6 = (getMinimalVersion (requiredProps (encodeUtf8 (dictText d o hint)))).1.toNat := rfl
  have h7 : byteAt (headerBytes (dictText d o hint)) 7 = (getMinimalVersion (requiredProps (encodeUtf8 (dictText d o hint)))).2.toNat := rfl
  rw [h6, h7]
  have hcut : safeU16Cutoff = 4294966272 := rfl
  rcases usedProps_cases d o hint with ⟨h1, _, h2⟩ | ⟨h1, h3, _, h2⟩ | ⟨h1, h3, _, h2⟩
  · rw [h2]; simp [h1]
  · rw [h2]
    simp [h1]
    omega
  · rw [h2]
    simp only [h1, not_false_eq_true, true_and, false_or]
    have : ¬ safeU16Cutoff ≤ dictBytes d o hint := by omega
    simp only [h1, this, false_and, or_false, or_self] at hl
    simp [hl]

/-- C09, where it holds: writing succeeds for all headers of at most 65525 bytes of dictionary text,
and for longer ones below `2^32 - 12` bytes if they have characters outside ASCII or at least
`0xfffffc00` bytes.  Missing: ASCII headers between these sizes, which panic (`C09_long_ascii_panics`). -/
theorem C09_success_partial (M : Machine) (d : DType) (hd : d.NotArray) (o : Order) (hint : ShapeHint) (hh : hint.Fits)
    (hlen : dictBytes d o hint ≤ 65525 ∨
      ((NonAscii d ∨ 0xfffffc00 ≤ dictBytes d o hint) ∧ dictBytes d o hint ≤ 2 ^ 32 - 13)) (s : Sink) :
    ∃ r hdr, (writeHeader M d o hint).exec s = (.ok r, s.put hdr) := by
  obtain ⟨info, hc⟩ := createDict_fits (M := M) (d := d) (o := o) hh
  rw [exec_writeHeader (isArray_false.mpr hd) hc, if_pos ((headerText_fits d o hint).mpr hlen)]
  exact ⟨_, _, rfl⟩

/-- C09 fails for every ASCII header whose dictionary has more than 65525 and less than `0xfffffc00`
bytes: version 1.0 is chosen and its 16-bit length field panics, after the magic bytes and the
version have been written. -/
theorem C09_long_ascii_panics (M : Machine) (d : DType) (hd : d.NotArray) (o : Order) (hint : ShapeHint) (hh : hint.Fits)
    (ha : ¬ NonAscii d) (hlo : 65525 < dictBytes d o hint) (hhi : dictBytes d o hint < 0xfffffc00) (s : Sink) :
    (writeHeader M d o hint).exec s = (.panic, s.put (magicBytes ++ [1, 0])) := by
  obtain ⟨info, hc⟩ := createDict_fits (M := M) (d := d) (o := o) hh
  have hcut : safeU16Cutoff = 4294966272 := rfl
  rw [exec_writeHeader (isArray_false.mpr hd) hc, if_neg]
  · rcases usedProps_cases d o hint with ⟨h1, _, h2⟩ | ⟨h1, h3, _, h2⟩ | ⟨h1, h3, _, h2⟩
    · exact absurd h1 ha
    · omega
    · rw [h2]; rfl
  · rw [headerText_fits]
    rintro (h | ⟨h | h, _⟩)
    · omega
    · exact ha h
    · omega

/-- A record with one field whose name has `n` letters. -/
def longRecord (n : Nat) : DType :=
  .record (.cons (List.replicate n 'a') (.plain ⟨.little, .float, 8, none⟩) .nil)

theorem longRecord_descr (n : Nat) : (longRecord n).descr =
    txt "[('" ++ List.replicate n 'a' ++ txt "', '<f8'), ]" := by
  have e : pyQuote (List.replicate n 'a') = '\'' :: (List.replicate n 'a' ++ ['\'']) := by
    rw [pyQuote_eq, Py.esc_of_plain]
    intro c hc
    rw [List.mem_replicate] at hc
    rw [hc.2]; decide
  have e2 : plainDescr ⟨.little, .float, 8, none⟩ = txt "'<f8'" := by decide +kernel
  simp [longRecord, DType.descr, Fields.descr, bracket, e, e2, txt]

theorem longRecord_ascii (n : Nat) : ¬ NonAscii (longRecord n) := by
  rintro ⟨c, hc, h⟩
  rw [longRecord_descr] at hc
  simp only [List.mem_append, List.mem_replicate] at hc
  have h1 : ∀ c ∈ txt "[('", c.toNat < 128 := by decide +kernel
  have h2 : ∀ c ∈ txt "', '<f8'), ]", c.toNat < 128 := by decide +kernel
  rcases hc with (hc | ⟨_, rfl⟩) | hc
  · have := h1 c hc; omega
  · revert h; decide
  · have := h2 c hc; omega

theorem longRecord_bytes (n : Nat) : dictBytes (longRecord n) .c .oneD = n + 86 := by
  unfold dictBytes
  rw [encodeUtf8_ascii, List.length_map]
  · unfold dictText
    rw [longRecord_descr]
    simp only [List.length_append, List.length_replicate]
    rw [show (txt "{'descr': ").length = 10 by decide +kernel, show (txt "[('").length = 3 by decide +kernel,
      show (txt "', '<f8'), ]").length = 12 by decide +kernel, show (txt ", 'fortran_order': ").length = 19 by decide +kernel,
      show (boolText (Order.c == .fortran)).length = 5 by decide +kernel, show (txt ", 'shape': ").length = 11 by decide +kernel,
      show (shapeTuple .c .oneD).length = 23 by decide +kernel, show (txt ", }").length = 3 by decide +kernel]
    omega
  · intro c hc
    apply Nat.lt_of_not_le
    intro h
    exact longRecord_ascii n ((dictText_nonAscii _ .c .oneD).mp ⟨c, hc, h⟩)

theorem longRecord_wf (n : Nat) : (longRecord n).Wf :=
  ⟨wf_of_parse (s := "<f8".toList) (by decide), trivial⟩

/-- C09 is violated: writing the header of a one-dimensional array of records with one 65536-letter
field name panics although its text has far fewer than `2^32` bytes. -/
theorem C09_violated : ∃ (d : DType) (o : Order) (hint : ShapeHint), d.Wf ∧ d.NotArray ∧ dictBytes d o hint < 2 ^ 17 ∧
    ∀ (M : Machine) (s : Sink), (writeHeader M d o hint).exec s = (.panic, s.put (magicBytes ++ [1, 0])) :=
  ⟨longRecord 65536, .c, .oneD, longRecord_wf _, trivial, by rw [longRecord_bytes]; decide, fun M s =>
    C09_long_ascii_panics M (longRecord 65536) trivial .c .oneD trivial (longRecord_ascii _) (by rw [longRecord_bytes]; decide)
      (by rw [longRecord_bytes]; decide) s⟩

-- the hypotheses are met: a small header is written, a long one with a non-ASCII name too

/-- C09_long_ascii_panics. -/
example (s : Sink) : (writeHeader ⟨false, 64, true⟩ (longRecord 70000) .c .oneD).exec s = (.panic, s.put (magicBytes ++ [1, 0])) :=
  C09_long_ascii_panics _ (longRecord 70000) trivial .c .oneD trivial (longRecord_ascii _) (by rw [longRecord_bytes]; decide)
    (by rw [longRecord_bytes]; decide) s

/-- C07_round_trip, C08_aligned, C08_text, C09_version: a header for `[("aaa", '<f8')]`, shape (2, 3),
written to an empty stream on one machine and read on another. -/
example : ∃ r hdr, (writeHeader ⟨false, 64, true⟩ (longRecord 3) .fortran (.nd [2, 3])).exec ⟨[], 0, false⟩ = (.ok r, Sink.put ⟨[], 0, false⟩ hdr) ∧
    (∃ hdr', Sink.put ⟨[], 0, false⟩ hdr = Sink.put ⟨[], 0, false⟩ hdr' ∧ hdr'.length % 64 = 0 ∧ 64 ≤ hdr'.length ∧ GoodPreamble hdr' ∧
      headerEnd hdr' = hdr'.length ∧ hdr'.getLast? = some 10) ∧
    (∃ pre n, Sink.put ⟨[], 0, false⟩ hdr = Sink.put ⟨[], 0, false⟩
      (pre ++ encodeUtf8 (dictText (longRecord 3) .fortran (.nd [2, 3]) ++ List.replicate n ' ') ++ [10]) ∧
      (pre.length = 10 ∨ pre.length = 12) ∧ n < 64) ∧
    (∃ hdr', Sink.put ⟨[], 0, false⟩ hdr = Sink.put ⟨[], 0, false⟩ hdr' ∧ byteAt hdr' 6 = 1) ∧
    ∃ hdr', Sink.put ⟨[], 0, false⟩ hdr = Sink.put ⟨[], 0, false⟩ hdr' ∧ (hdr'.length ≤ Machine.isizeMax ⟨true, 32, false⟩ → ∀ rest, ∃ h,
      (NpyHeader.fromReader ⟨true, 32, false⟩ Py.parse).run (hdr' ++ rest) = (.ok h, rest) ∧ h.dtype = longRecord 3 ∧ h.shape = [2, 3] ∧
      h.order = .fortran ∧ h.nRecords = 6) := by
  have hb : dictBytes (longRecord 3) .fortran (.nd [2, 3]) ≤ 65525 := by decide +kernel
  obtain ⟨r, hdr, h⟩ := C09_success_partial ⟨false, 64, true⟩ (longRecord 3) trivial .fortran (.nd [2, 3]) (show nonzeroProd [2, 3] < 2 ^ 64 by decide)
    (.inl hb) ⟨[], 0, false⟩
  obtain ⟨hdr', h1, -, -, hv, -⟩ := C09_version _ _ _ _ _ _ _ h
  exact ⟨r, hdr, h, C08_aligned _ _ _ _ _ _ _ h, C08_text _ _ _ _ _ _ _ h, ⟨hdr', h1, hv.mpr ⟨longRecord_ascii 3, hb⟩⟩,
    C07_round_trip _ _ _ (fun _ _ h => h) _ (longRecord_wf 3) _ (by decide) (by decide) (.inr ⟨⟨fun n hn => by cases hn; decide, trivial⟩, fun k hk => by cases hk; decide⟩) _ _ _ _ h⟩

example (s : Sink) : ∃ r hdr, (writeHeader ⟨false, 64, true⟩ (longRecord 3) .c .oneD).exec s = (.ok r, s.put hdr) :=
  C09_success_partial _ (longRecord 3) trivial .c .oneD trivial (.inl (by rw [longRecord_bytes]; decide)) s

example : ((writeHeader ⟨false, 64, true⟩ (longRecord 3) .fortran (.nd [2, 0, 2 ^ 40])).exec ⟨[], 0, false⟩).2.data.length = 128 ∧
    nonzeroProd [2, 0, 2 ^ 40] < 2 ^ 64 := by decide +kernel

end Npyz.Props
