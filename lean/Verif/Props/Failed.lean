import Verif.Props.InPlace
import Verif.Proofs.Short
/-!
C111: an array that could not be saved cannot be read.

`Prompt t d` says which element types notice a value that cannot be stored before its item is complete; see `Verif/Spec/Prompt.lean`.
-/
namespace Npyz.Props
set_option autoImplicit false
open Npyz Spec Py

/-- The file that starts at offset `pos` of `data` cannot be opened, or its elements cannot be read, whatever they are read as. -/
def Rejected (M : Machine) (py : PyParser) (data : Bytes) (pos : Nat) : Prop :=
  Unreadable M py data pos ∨ ∃ f, (NpyFile.new M py disk ⟨data, pos⟩).1 = .ok f ∧ ∀ t : Ty, ∃ e, (f.intoVec M disk t).1 = .err e

variable {M M' : Machine} {py : PyParser} {t : Ty} {d : DType} {size : Nat} {o : Order} {hint : ShapeHint} {s : Sink}

/-- What the property assumes of the reader and of the stream: the header fits into memory, nothing follows the array, and the dictionary
is parsed as Python would. -/
structure Fresh (M' : Machine) (py : PyParser) (d : DType) (size : Nat) (o : Order) (hint : ShapeHint) (s : Sink) : Prop where
  parses : py.ExtendsRef
  strict : py.StrictAfter (dictPrefix d o)
  wf : d.Wf
  exact : exactBytes d = some size
  small : size ≤ M'.isizeMax
  fits : AllFit M'.usizeLim d
  dims : ∀ dims, hint = .nd dims → (∀ k ∈ dims, k < 2 ^ 64) ∧ nonzeroProd dims < 2 ^ 64
  record : ∀ r, hint = .twoD r → r < 2 ^ 64
  room : s.pos + dictBytes d o hint + 76 ≤ 2 ^ 64
  memory : dictBytes d o hint + 76 ≤ M'.isizeMax
  last : s.data.length ≤ s.pos

theorem finalShape_prod {n : Nat} (hfit : CountFits n hint) (hnd : ∀ dims, hint ≠ .nd dims) : (finalShape o n hint).prod = n := by
  cases hint with
  | nd dims => exact absurd rfl (hnd dims)
  | oneD => simp [finalShape]
  | twoD r =>
    have e := Nat.div_mul_cancel (show r ∣ n from hfit)
    cases o <;> simp [finalShape]
    · exact e
    · rw [Nat.mul_comm]; exact e

/-- A finished header with too few bytes behind it. -/
theorem short_rejected (hF : Fresh M' py d size o hint s) {n : Nat} (hc : n < 2 ^ 64) (hdims : ∀ k ∈ finalShape o n hint, k < 2 ^ 64)
    (hprod : nonzeroProd (finalShape o n hint) < 2 ^ 64) (hna : d.isArray = false)
    (hlen : (headerText (dictText d o hint)).length ≤ (usedProps (encodeUtf8 (dictText d o hint))).maxLen) {bs : Bytes}
    (hlt : bs.length < (finalShape o n hint).prod * size) :
    Rejected M' py (s.put (headerBytes (finalDict d o hint n) ++ bs)).data s.pos := by
  have hno : ¬ HasObject d := fun h => by have := (exactBytes_none_iff d).mpr h; rw [hF.exact] at this; cases this
  have hrun := run_final hF.parses hna hF.wf hc hdims hlen hF.memory
  rw [fromParts_eq hprod (itemSizeOf_ok_iff.mpr (.inr ⟨hno, hF.fits, size, hF.exact, rfl⟩))] at hrun
  have hne : headerBytes (finalDict d o hint n) ++ bs ≠ [] := by simp [headerBytes_ne_nil]
  have hl := hF.last
  have hdat : (s.put (headerBytes (finalDict d o hint n) ++ bs)).data = s.before ++ (headerBytes (finalDict d o hint n) ++ bs) := by
    rw [Sink.put_data s hne, List.drop_eq_nil_of_le (by omega), List.append_nil]
  have hdrop : (s.put (headerBytes (finalDict d o hint n) ++ bs)).data.drop s.pos = headerBytes (finalDict d o hint n) ++ bs := by
    rw [hdat, List.drop_left' s.before_length]
  have hnew := new_ok (hrun bs) hdrop (by rw [hdat]; simp [s.before_length])
  refine .inr ⟨_, by rw [hnew], fun t' => ?_⟩
  exact C21_truncated ⟨py, _, _, hrun []⟩ rfl hF.small (by rw [hdat]; simp [s.before_length])
    (by rw [hdat]; simp only [List.length_append, s.before_length]; omega)

/-- An unfinished header, whatever follows. -/
theorem placeholder_unreadable (hF : Fresh M' py d size o hint s) (hs : hint.seeks = true) (hna : d.isArray = false)
    (hfits : (headerText (dictText d o hint)).length ≤ (usedProps (encodeUtf8 (dictText d o hint))).maxLen) (bs : Bytes) :
    Unreadable M' py (s.put (headerBytes (dictText d o hint) ++ bs)).data s.pos := by
  have hl := headerBytes_le d o hint
  have hmem := hF.memory
  have hht : (headerText (dictText d o hint)).length ≤ M'.isizeMax := by
    rw [headerBytes_length] at hl; omega
  obtain ⟨rest, hdrop⟩ := Sink.put_drop s (headerBytes (dictText d o hint) ++ bs) (by simp [headerBytes_ne_nil])
  have hdt : dictText d o hint = dictPrefix d o ++ placeholder o hint := by rw [dictText_suffix hs, suffixText_filler]
  rw [hdt] at hfits hht
  obtain ⟨e, he⟩ := run_rejected (M := M') hF.strict (placeholder_chars o hint) (placeholder_rejected (isArray_false.mp hna) o hs)
    hfits hht (bs ++ rest)
  refine ⟨e, new_err ?_⟩
  rw [hdrop, List.append_assoc, hdt]
  exact he

/-- What finishing or dropping leaves, if there are fewer items than the header announces. -/
theorem finish_rejected {V : Type} (hF : Fresh M' py d size o hint s) {w : NpyWriter V}
    (hst : Begun M d o hint s.pos w) (hk : hint.seeks = true → s.seekable = true) (hc : w.numItems < 2 ^ 64) {bs : Bytes}
    (hnd : ∀ dims, hint = .nd dims → bs.length < dims.prod * size)
    (hlt : hint.seeks = true → CountFits w.numItems hint → bs.length < w.numItems * size) :
    Rejected M' py ((w.finish_ M).exec (s.put (headerBytes (dictText d o hint) ++ bs))).2.data s.pos := by
  have hph : hint.seeks = true → Rejected M' py (s.put (headerBytes (dictText d o hint) ++ bs)).data s.pos := fun hs =>
    .inl (placeholder_unreadable hF hs hst.isArray hst.hdrFits bs)
  have hshort : ∀ dims, hint = .nd dims → Rejected M' py (s.put (headerBytes (dictText d o hint) ++ bs)).data s.pos := by
    rintro dims rfl
    exact short_rejected (n := 0) hF (by decide) (hF.dims dims rfl).1 (hF.dims dims rfl).2 hst.isArray hst.hdrFits (hnd dims rfl)
  have hall : Rejected M' py (s.put (headerBytes (dictText d o hint) ++ bs)).data s.pos := by
    by_cases hs : hint.seeks = true
    · exact hph hs
    · cases hint with
      | nd dims => exact hshort dims rfl
      | oneD => exact absurd rfl hs
      | twoD r => exact absurd rfl hs
  rcases finish_cases hst hk (fun _ => hF.room) hc bs with ⟨-, hf⟩ | ⟨-, hf, -, h2⟩ | ⟨-, ⟨e, hf⟩, -⟩
  · rw [hf]; exact hall
  · rw [hf]
    by_cases hs : hint.seeks = true
    · have hfit : CountFits w.numItems hint := by
        cases hint with
        | nd dims => cases hs
        | oneD => trivial
        | twoD r => exact h2 r rfl
      obtain ⟨g1, g2⟩ := finalShape_fits (o := o) hfit hc hF.dims hF.record
      refine short_rejected hF hc g1 g2 hst.isArray hst.hdrFits ?_
      rw [finalShape_prod hfit (by rintro dims rfl; cases hs)]
      exact hlt hs hfit
    · cases hint with
      | nd dims => exact hshort dims rfl
      | oneD => exact absurd rfl hs
      | twoD r => exact absurd rfl hs
  · rw [hf]; exact hall

/-- C111: if saving values fails, because one of them cannot be stored or because their number does not fit the shape, what is left
cannot be opened or its elements cannot be read.  Missing: types that are not `Prompt`, items without bytes and shapes with fewer
elements than there are values; the property fails there (`C111_violated`). -/
theorem C111_save_partial (hF : Fresh M' py d size o hint s) (hm : size ≤ M.isizeMax) (hz : 0 < size) (hp : Prompt t d) {vs : List t.Val}
    (hc : vs.length < 2 ^ 64) (hle : ∀ dims, hint = .nd dims → vs.length ≤ dims.prod) {s1 : Sink} {w : NpyWriter t.Val}
    (hb : (NpyWriter.begin M t d o hint).exec s = (.ok w, s1)) {e : Err} {s' : Sink}
    (h : NpyWriter.save M solid t d o hint vs s = (.err e, s')) : Rejected M' py s'.data s.pos := by
  obtain ⟨hst, h0, hk, rfl⟩ := begin_ok hb
  have hb' : solid.exec (NpyWriter.beginWith M (t.writer M) d o hint) s = (.ok w, s.put (headerBytes (dictText d o hint))) := hb
  unfold NpyWriter.save NpyWriter.saveWith at h
  rw [hb'] at h
  simp only at h
  rcases extend_halts hF.wf hF.exact hm hp vs w hst.prog (by omega) (s.put (headerBytes (dictText d o hint))) with
    ⟨bs, h1, h2⟩ | ⟨e', k, bs, hk', h1, h2⟩
  · rw [h1, Sink.put_put, h0, Nat.zero_add] at h
    simp only at h
    have hfin := (finish_eq (M := M) { w with numItems := vs.length } hc (s.put (headerBytes (dictText d o hint) ++ bs))).1
    rw [hfin] at h
    have hs' : s' = (({ w with numItems := vs.length } : NpyWriter t.Val).finish_ M |>.exec (s.put (headerBytes (dictText d o hint) ++ bs))).2 := by
      rw [h]
    rcases finish_cases (hst.toBegun.count vs.length) hk (fun _ => hF.room) hc bs with
      ⟨-, hf⟩ | ⟨-, hf, -⟩ | ⟨-, -, ⟨dims, n, rfl, g1, g2⟩ | ⟨r, rfl, g1⟩⟩
    · rw [hf] at h; cases h
    · rw [hf] at h; cases h
    · rw [shapeProduct_exact (acc := 1) (by simpa using (hF.dims dims rfl).2), Out.ok.injEq, Nat.one_mul] at g1
      simp only at g2
      have hlt : vs.length < dims.prod := by have := hle dims rfl; omega
      rw [hs']
      refine finish_rejected hF (hst.toBegun.count vs.length) hk hc ?_ (fun hs => by cases hs)
      rintro dims' hd'
      cases hd'
      rw [h2]
      exact (Nat.mul_lt_mul_right hz).mpr hlt
    · rw [hs']
      exact finish_rejected hF (hst.toBegun.count vs.length) hk hc (by intro dims hd'; cases hd') (fun _ hfit => absurd hfit g1)
  · rw [h1, Sink.put_put, h0, Nat.zero_add] at h
    simp only at h
    have hkc : k < 2 ^ 64 := by omega
    have hdr := (finish_eq (M := M) { w with numItems := k } hkc (s.put (headerBytes (dictText d o hint) ++ bs))).2
    have hs' : s' = (({ w with numItems := k } : NpyWriter t.Val).drop M solid (s.put (headerBytes (dictText d o hint) ++ bs))).2 := by
      rcases hx : (({ w with numItems := k } : NpyWriter t.Val).drop M solid (s.put (headerBytes (dictText d o hint) ++ bs))) with ⟨(_ | _ | _), s3⟩ <;>
        rw [hx] at h <;> cases h <;> rfl
    rw [hs', hdr]
    refine finish_rejected hF (hst.toBegun.count k) hk hkc ?_ (fun _ _ => h2)
    intro dims hd'
    exact Nat.lt_of_lt_of_le h2 (Nat.mul_le_mul_right _ (Nat.le_trans hk' (hle dims hd')))

/-- C111: the same if the caller carries on after errors: if one of the pushes failed, what dropping the writer leaves cannot be read,
and what `finish` leaves cannot be read either, though `finish` may succeed. -/
theorem C111_push_partial (hF : Fresh M' py d size o hint s) (hm : size ≤ M.isizeMax) (hp : Prompt t d) {vs : List t.Val}
    (hc : vs.length < 2 ^ 64) (hle : ∀ dims, hint = .nd dims → vs.length ≤ dims.prod) {s1 s2 : Sink} {w w' : NpyWriter t.Val}
    (hb : (NpyWriter.begin M t d o hint).exec s = (.ok w, s1)) {rs : List (Res Unit)} (hpu : w.pushAll M solid vs s1 = (rs, w', s2))
    (hbad : ∃ r ∈ rs, r ≠ .ok ()) :
    Rejected M' py (w'.drop M solid s2).2.data s.pos ∧ Rejected M' py (w'.finish M solid s2).2.data s.pos := by
  obtain ⟨hst, h0, hk, rfl⟩ := begin_ok hb
  obtain ⟨bs, h1, h2, h3⟩ := pushAll_halts hF.wf hF.exact hm hp vs w hst.prog (by omega) (s.put (headerBytes (dictText d o hint)))
  obtain ⟨-, -, k1, k2, -⟩ := pushAll_solid hF.wf hF.exact hm vs w hst.prog (by omega) (s.put (headerBytes (dictText d o hint)))
  rw [hpu] at k1 k2
  rw [hpu, Sink.put_put] at h1
  simp only [Prod.mk.injEq] at h1
  obtain ⟨rfl, rfl⟩ := h1
  have hlt : bs.length < vs.length * size := by
    refine h3 ?_
    obtain ⟨r, hr, hne⟩ := hbad
    obtain ⟨i, hi, rfl⟩ := List.getElem_of_mem hr
    have hi' : i < vs.length := by rw [← k1]; exact hi
    refine ⟨vs[i], List.getElem_mem _, ?_⟩
    cases he : encode t d vs[i] with
    | none => rfl
    | some b =>
      have := (k2 i hi').mpr (by rw [he]; rfl)
      rw [List.getElem?_eq_getElem hi] at this
      exact absurd (Option.some.inj this) hne
  rw [h0, Nat.zero_add]
  have hfe := finish_eq (M := M) { w with numItems := vs.length } hc (s.put (headerBytes (dictText d o hint) ++ bs))
  rw [hfe.1, hfe.2]
  have := finish_rejected hF (hst.toBegun.count vs.length) hk hc (bs := bs)
    (fun dims hd' => Nat.lt_of_lt_of_le hlt (Nat.mul_le_mul_right _ (hle dims hd'))) (fun _ _ => hlt)
  exact ⟨this, this⟩

/-- The first `n` characters of a string. -/
def firstChars (n : Nat) (l : Ty.string.Val) : Ty.string.Val := List.take n (l : Text)

/-- C111, what happens to strings that are too long for a `<Un` dtype: saving them in one dimension fails, and leaves exactly the file that
saving the strings before it and its first `n` characters leaves.  (So it can be read, by C40.) -/
theorem C111_long_string {ts : TypeStr} (hd : (DType.plain ts).Wf) (hu : ts.typeChar = .unicodeStr)
    (hn : exactBytes (.plain ts) = some size) (hm : size ≤ M.isizeMax) {s1 : Sink} {w : NpyWriter Ty.string.Val}
    (hb : (NpyWriter.begin M .string (.plain ts) o .oneD).exec s = (.ok w, s1)) (hroom : s.pos + dictBytes (.plain ts) o .oneD + 76 ≤ 2 ^ 64)
    {vs rest : List Ty.string.Val} (hc : vs.length + 1 < 2 ^ 64) (hvs : ∀ v ∈ vs, (v : Text).length ≤ ts.size) {l : Ty.string.Val} (hl : ts.size < (l : Text).length) :
    ∃ e s', NpyWriter.save M solid .string (.plain ts) o .oneD (vs ++ l :: rest) s = (.err e, s') ∧
      NpyWriter.save M solid .string (.plain ts) o .oneD (vs ++ [firstChars ts.size l]) s = (.ok (), s') := by
  obtain ⟨hst, h0, hk, rfl⟩ := begin_ok hb
  have ho := ordered_unicode hd hu
  have henc : ∀ v : Text, v.length ≤ ts.size → ∃ b, encode .string (.plain ts) v = some b := by
    intro v hv
    show ∃ b, encodeText ts v = some b
    unfold encodeText encodeChars padUnits
    rw [if_pos hu, if_pos (by simpa using hv)]
    exact ⟨_, rfl⟩
  have hall : ∀ us : List Ty.string.Val, (∀ v ∈ us, (v : Text).length ≤ ts.size) → ∃ b, encodeAll (encode .string (.plain ts)) us = some b := by
    intro us hus
    induction us with
    | nil => exact ⟨[], rfl⟩
    | cons u us ih =>
      obtain ⟨b1, h1⟩ := henc u (hus u (by simp))
      obtain ⟨b2, h2⟩ := ih (fun v hv => hus v (by simp [hv]))
      exact ⟨b1 ++ b2, by simp [encodeAll, h1, h2, both]⟩
  obtain ⟨data, hdata⟩ := hall vs hvs
  have htake : ∀ (l : Text), ts.size < l.length → (l.take ts.size).length = ts.size := by
    intro l hl
    rw [List.length_take]; omega
  let b := ((List.take ts.size (l : Text)).map (·.toNat)).flatMap (wordBytes ts.endianness 4)
  have hlast : encode .string (.plain ts) (firstChars ts.size l) = some b := by
    show encodeText ts (List.take ts.size (l : Text)) = some b
    unfold encodeText encodeChars
    rw [if_pos hu, padUnits_full (List.length_map (as := List.take ts.size (l : Text)) _ |>.trans (htake l hl))]
  have hdata2 : encodeAll (encode .string (.plain ts)) (vs ++ [firstChars ts.size l]) = some (data ++ b) :=
    encodeAll_snoc hlast vs hdata
  have hprog : (w.prog l).Emits b (.err (.invalidData "string has too many code units")) := by
    have hw := hst.prog
    simp only [Ty.writer, Out.bind_eq_ok, writeFormat_ok] at hw
    obtain ⟨f, ⟨s', hs', -, hf⟩, hw⟩ := hw
    cases hs'
    rcases hf with ⟨hf, -⟩ | ⟨-, rfl⟩
    · rw [hf] at hu; cases hu
    · rw [← Out.ok.inj hw]
      exact writeStrLoop_long ho ts.size l 0 (Nat.zero_le _) (by omega)
  have hb' : solid.exec (NpyWriter.beginWith M (Ty.string.writer M) (.plain ts) o .oneD) s =
      (.ok w, s.put (headerBytes (dictText (.plain ts) o .oneD))) := hb
  have hx := extend_cut (M := M) (t := .string) hd hn hm rest vs w hst.prog hprog (by rw [h0]; omega) (s.put (headerBytes (dictText (.plain ts) o .oneD))) hdata
  have hy := extend_solid (M := M) (t := .string) hd hn hm (vs ++ [firstChars ts.size l]) w hst.prog (by simp [h0]; omega)
    (s.put (headerBytes (dictText (.plain ts) o .oneD))) hdata2
  rw [List.length_append, List.length_singleton, ← Nat.add_assoc] at hy
  rw [Sink.put_put, h0, Nat.zero_add] at hx hy
  have hfe := finish_eq (M := M) { w with numItems := vs.length + 1 } hc (s.put (headerBytes (dictText (.plain ts) o .oneD) ++ (data ++ b)))
  rcases finish_cases (hst.toBegun.count (vs.length + 1)) hk (fun _ => hroom) hc (data ++ b) with
    ⟨h1, -⟩ | ⟨-, hf, -⟩ | ⟨-, -, ⟨dims, n, h1, -⟩ | ⟨r', h1, h2⟩⟩
  · cases h1
  · refine ⟨.invalidData "string has too many code units", s.put (headerBytes (finalDict (.plain ts) o .oneD (vs.length + 1)) ++ (data ++ b)), ?_, ?_⟩
    · unfold NpyWriter.save NpyWriter.saveWith
      rw [hb']
      simp only
      rw [hx]
      simp only
      unfold NpyWriter.drop
      simp only [solid]
      rw [hf]
    · unfold NpyWriter.save NpyWriter.saveWith
      rw [hb']
      simp only
      rw [hy]
      simp only
      rw [hfe.1, hf]
  · cases h1
  · cases h1

/-- Save values into a new file; if that fails: the values which are read back, as `α`. -/
def afterFailure {α : Type} (t : Ty) (as : t.Val → α) (d : DType) (hint : ShapeHint) (vs : List t.Val) : Option (List α) :=
  match NpyWriter.save box solid t d .c hint vs ⟨[], 0, true⟩ with
  | (.err _, s') => match (NpyFile.new box Py.parse disk ⟨s'.data, 0⟩).1 with
    | .ok f => match (f.intoVec box disk t).1 with
      | .ok ws => some (ws.map as)
      | _ => none
    | _ => none
  | _ => none

/-- `<U3`, `|S0` and `|S3`. -/
def threeUnits : DType := .plain ⟨.little, .unicodeStr, 3, none⟩
def zeroBytes : DType := .plain ⟨.irrelevant, .byteStr, 0, none⟩
def threeBytes : DType := .plain ⟨.irrelevant, .byteStr, 3, none⟩

/-- C111 is violated.  Saving the strings `ab` and `toolong` as strings of three characters fails, but leaves an array with the strings
`ab` and `too`.  Saving three numbers into an array of shape `(2,)` fails, but leaves an array with the first two of them.  Saving a string
as a string without characters fails, but leaves an array with the empty string. -/
theorem C111_violated :
    afterFailure .string (fun (v : Text) => v) threeUnits .oneD ["ab".toList, "toolong".toList] = some ["ab".toList, "too".toList] ∧
    afterFailure f64 (fun (v : BitVec 64) => v) floats8 (.nd [2]) [4#64, 5#64, 6#64] = some [4#64, 5#64] ∧
    afterFailure .string (fun (v : Text) => v) zeroBytes .oneD ["a".toList] = some [[]] := by
  decide +kernel

/-- The hypotheses of `C111_save_partial` and `C111_push_partial` are met by the same strings, stored as three bytes each: saving them
fails. -/
example : Fresh box Py.parse threeBytes 3 .c .oneD ⟨[], 0, true⟩ ∧ Prompt .string threeBytes ∧
    (match (NpyWriter.begin box .string threeBytes .c .oneD).exec ⟨[], 0, true⟩ with
      | (.ok _, _) => true
      | _ => false) = true ∧
    (match NpyWriter.save box solid .string threeBytes .c .oneD ["ab".toList, "toolong".toList] ⟨[], 0, true⟩ with
      | (.err _, _) => true
      | _ => false) = true := by
  refine ⟨⟨fun _ _ h => h, fun _ _ h => h, wf_of_parse (s := "|S3".toList) (by decide), rfl, by decide, ?_, ?_, ?_, ?_, ?_, by decide⟩,
    ⟨by decide, by decide⟩, by decide +kernel, by decide +kernel⟩
  · intro n hn; cases hn; decide
  · intro _ h; cases h
  · intro _ h; cases h
  · decide +kernel
  · decide +kernel

/-- The hypotheses of `C111_long_string`: the strings of `C111_violated`. -/
example : threeUnits.Wf ∧ exactBytes threeUnits = some 12 ∧ 12 ≤ box.isizeMax ∧
    (match (NpyWriter.begin box .string threeUnits .c .oneD).exec ⟨[], 0, true⟩ with
      | (.ok _, _) => true
      | _ => false) = true ∧ dictBytes threeUnits .c .oneD + 76 ≤ 2 ^ 64 ∧ 3 < "toolong".toList.length :=
  ⟨wf_of_parse (s := "<U3".toList) (by decide), rfl, by decide, by decide +kernel, by decide +kernel, by decide⟩

/-- The same for a shape with more elements than there are values. -/
example : Fresh box Py.parse floats8 8 .c (.nd [2, 2]) ⟨[], 0, false⟩ ∧ Prompt f64 floats8 ∧
    (match (NpyWriter.begin box f64 floats8 .c (.nd [2, 2])).exec ⟨[], 0, false⟩ with
      | (.ok _, _) => true
      | _ => false) = true ∧
    (match NpyWriter.save box solid f64 floats8 .c (.nd [2, 2]) [4#64, 5#64, 6#64] ⟨[], 0, false⟩ with
      | (.err _, _) => true
      | _ => false) = true := by
  refine ⟨⟨fun _ _ h => h, fun _ _ h => h, wf_of_parse (s := "<f8".toList) (by decide), rfl, by decide, ?_, ?_, ?_, ?_, ?_, by decide⟩,
    trivial, by decide +kernel, by decide +kernel⟩
  · intro n hn; cases hn; decide
  · intro _ h; cases h; exact ⟨by decide, by decide⟩
  · intro _ h; cases h
  · decide +kernel
  · decide +kernel

end Npyz.Props
