import Verif.Proofs.Save
import Verif.Props.WriteHeader
/-! Starting and finishing: lemmas for the whole-file properties. -/
namespace Npyz
open Spec Py

/-! ### Starting -/

theorem begin_header {M : Machine} {t : Ty} {d : DType} {o : Order} {hint : ShapeHint} {s : Sink}
    (hd : d.NotArray) (hh : hint.Fits) (hlen : dictBytes d o hint ≤ 65525 ∨
      ((NonAscii d ∨ 0xfffffc00 ≤ dictBytes d o hint) ∧ dictBytes d o hint ≤ 2 ^ 32 - 13)) (hk : hint.seeks = true → s.seekable = true) :
    ∃ (st : Option Nat) (r : ShapeInfo × VersionProps), (NpyWriter.begin M t d o hint).exec s = (WProg.lift (dtypeToIo (t.writer M d)) >>= fun prog =>
      (pure ⟨st, r.1, 0, prog, r.2⟩ : WProg (NpyWriter t.Val))).exec (s.put (headerBytes (dictText d o hint))) := by
  obtain ⟨info, hc⟩ := createDict_fits (M := M) (d := d) (o := o) hh
  have hx := exec_writeHeader (s := s) (isArray_false.mpr hd) hc
  rw [if_pos ((headerText_fits d o hint).mpr hlen)] at hx
  have h1 : ∃ st, (startPosition hint).exec s = (.ok st, s) := by
    rw [exec_startPosition]
    by_cases hs : hint.seeks = true
    · rw [if_pos hs, if_pos (hk hs)]; exact ⟨_, rfl⟩
    · rw [if_neg hs]; exact ⟨_, rfl⟩
  obtain ⟨st, h1⟩ := h1
  unfold NpyWriter.begin NpyWriter.beginWith
  exact ⟨st, _, by rw [WProg.exec_bind_of_ok h1, WProg.exec_bind_of_ok hx]⟩

theorem begin_succeeds {M : Machine} {t : Ty} {d : DType} {o : Order} {hint : ShapeHint} {s : Sink} {prog : t.Val → WProg Unit}
    (hw : t.writer M d = .ok prog) (hd : d.NotArray) (hh : hint.Fits) (hlen : dictBytes d o hint ≤ 65525 ∨
      ((NonAscii d ∨ 0xfffffc00 ≤ dictBytes d o hint) ∧ dictBytes d o hint ≤ 2 ^ 32 - 13)) (hk : hint.seeks = true → s.seekable = true) :
    ∃ w, (NpyWriter.begin M t d o hint).exec s = (.ok w, s.put (headerBytes (dictText d o hint))) := by
  obtain ⟨st, r, h⟩ := begin_header (M := M) (t := t) hd hh hlen hk
  rw [h, hw]
  exact ⟨_, rfl⟩

theorem begin_refused {M : Machine} {t : Ty} {d : DType} {o : Order} {hint : ShapeHint} {s : Sink} {e : DTypeErr}
    (hw : t.writer M d = .err e) (hd : d.NotArray) (hh : hint.Fits) (hlen : dictBytes d o hint ≤ 65525 ∨
      ((NonAscii d ∨ 0xfffffc00 ≤ dictBytes d o hint) ∧ dictBytes d o hint ≤ 2 ^ 32 - 13)) (hk : hint.seeks = true → s.seekable = true) :
    (NpyWriter.begin M t d o hint).exec s = (.err (.invalidData "dtype"), s.put (headerBytes (dictText d o hint))) := by
  obtain ⟨st, r, h⟩ := begin_header (M := M) (t := t) hd hh hlen hk
  rw [h, hw]
  rfl

/-! ### Bytes -/

/-- The bytes before the position of a stream (zeros where nothing was). -/
def Sink.before (s : Sink) : Bytes := (s.data ++ List.replicate (s.pos - s.data.length) 0).take s.pos

theorem Sink.before_length (s : Sink) : s.before.length = s.pos := length_overwrite_head s.data s.pos

theorem Sink.put_data (s : Sink) {b : Bytes} (hb : b ≠ []) : (s.put b).data = s.before ++ b ++ s.data.drop (s.pos + b.length) := by
  rw [Sink.put_data_of_ne hb]; rfl

theorem Sink.before_get (s : Sink) {i : Nat} (h1 : i < s.pos) (h2 : i < s.data.length) : s.before[i]? = s.data[i]? := by
  unfold Sink.before
  rw [List.getElem?_take_of_lt h1, List.getElem?_append_left h2]

theorem get_outside {P X Y Q : Bytes} (h : X.length = Y.length) {i : Nat} (hi : ¬ (P.length ≤ i ∧ i < P.length + X.length)) :
    (P ++ X ++ Q)[i]? = (P ++ Y ++ Q)[i]? := by
  by_cases h1 : i < P.length
  · rw [List.append_assoc, List.append_assoc, List.getElem?_append_left h1, List.getElem?_append_left h1]
  · have h2 : P.length + X.length ≤ i := by omega
    rw [List.getElem?_append_right (by simp; omega), List.getElem?_append_right (by simp; omega)]
    simp [h]

theorem headerEnd_headerBytes {dict : Text} (hlen : (headerText dict).length ≤ (usedProps (encodeUtf8 dict)).maxLen) (rest : Bytes) :
    headerEnd (headerBytes dict ++ rest) = (headerBytes dict).length := by
  have hfit : (headerText dict).length < 256 ^ (usedProps (encodeUtf8 dict)).width := by
    have : 0 < 256 ^ (usedProps (encodeUtf8 dict)).width := Nat.pow_pos (by omega)
    simp only [VersionProps.maxLen] at hlen
    omega
  have := headerEnd_eq (r := headerText dict ++ rest) (usedProps_version (encodeUtf8 dict))
    (leBytes_length (usedProps (encodeUtf8 dict)).width (headerText dict).length)
  rw [leNat_leBytes hfit] at this
  rw [headerBytes_length, bytesBeforeText_eq]
  simp only [headerBytes, emitHeader, List.append_assoc] at this ⊢
  omega

theorem finalDict_fits {d : DType} {o : Order} {hint : ShapeHint} {n : Nat} (hn : n < 2 ^ 64)
    (hlen : (headerText (dictText d o hint)).length ≤ (usedProps (encodeUtf8 (dictText d o hint))).maxLen) :
    (headerText (finalDict d o hint n)).length ≤ (usedProps (encodeUtf8 (finalDict d o hint n))).maxLen := by
  unfold finalDict
  by_cases hs : hint.seeks = true
  · rw [if_pos hs]
    have hax := Nat.lt_of_le_of_lt (axisOf_le n hint) hn
    have hl := finishedSuffix_length (o := o) hs hax
    unfold finishedText
    rw [headerText_congr (finishedSuffix_ascii o hint _) (placeholder_ascii o hint) hl,
      usedProps_congr (finishedSuffix_ascii o hint _) (placeholder_ascii o hint) hl]
    rw [dictText_suffix hs, suffixText_filler] at hlen
    exact hlen
  · rw [if_neg hs]; exact hlen

/-- Finishing changes only the placeholder. -/
theorem finish_bytes {M : Machine} {t : Ty} {d : DType} {o : Order} {hint : ShapeHint} {w : NpyWriter t.Val} {s : Sink}
    (hs : hint.seeks = true) (hst : Started M d o hint s.pos w) (hk : s.seekable = true)
    (hlt : s.pos + dictBytes d o hint + 76 ≤ 2 ^ 64) (hn : w.numItems < 2 ^ 64) (data : Bytes) {r : Res Unit} {s3 : Sink}
    (h : (w.finish_ M).exec (s.put (headerBytes (dictText d o hint) ++ data)) = (r, s3)) :
    s3.pos = s.pos + (headerBytes (dictText d o hint)).length + data.length ∧
    s3.data.length = (s.put (headerBytes (dictText d o hint) ++ data)).data.length ∧
    ∃ lo hi, s.pos ≤ lo ∧ lo ≤ hi ∧ hi ≤ s.pos + (headerBytes (dictText d o hint)).length ∧
      ((s.put (headerBytes (dictText d o hint) ++ data)).data.drop lo).take (hi - lo) = encodeUtf8 (placeholder o hint) ∧
      ∀ i, ¬ (lo ≤ i ∧ i < hi) → s3.data[i]? = (s.put (headerBytes (dictText d o hint) ++ data)).data[i]? := by
  have hax := Nat.lt_of_le_of_lt (axisOf_le w.numItems hint) hn
  have hfl := finishedSuffix_length (o := o) hs hax
  obtain ⟨A, C, hA, e1, e2⟩ := headerBytes_split (p := dictPrefix d o) (placeholder_ascii o hint)
    (finishedSuffix_ascii o hint (axisOf w.numItems hint)) hfl.symm
  have hd : dictText d o hint = dictPrefix d o ++ placeholder o hint := by rw [dictText_suffix hs, suffixText_filler]
  have hfd : finalDict d o hint w.numItems = dictPrefix d o ++ finishedSuffix o hint (axisOf w.numItems hint) := by
    unfold finalDict; rw [if_pos hs]; rfl
  have hel : (encodeUtf8 (placeholder o hint)).length = (encodeUtf8 (finishedSuffix o hint (axisOf w.numItems hint))).length := by
    rw [encodeUtf8_length_ascii (placeholder_ascii o hint), encodeUtf8_length_ascii (finishedSuffix_ascii o hint _), hfl]
  have hne := placeholder_ne_nil (o := o) hs
  have hne1 : encodeUtf8 (placeholder o hint) ≠ [] := by
    intro h'
    have := congrArg List.length h'
    rw [encodeUtf8_length_ascii (placeholder_ascii o hint)] at this
    exact hne (List.length_eq_zero_iff.mp this)
  have hlen1 : (headerBytes (dictText d o hint)).length = A.length + (encodeUtf8 (placeholder o hint)).length + C.length := by
    rw [hd, e1]; simp; omega
  have hput : (s.put (headerBytes (dictText d o hint) ++ data)).data = s.before ++ A ++ encodeUtf8 (placeholder o hint) ++
      (C ++ data ++ s.data.drop (s.pos + (headerBytes (dictText d o hint) ++ data).length)) := by
    rw [Sink.put_data _ (by simp [headerBytes_ne_nil]), hd, e1]; simp
  have hput2 : (s.put (headerBytes (finalDict d o hint w.numItems) ++ data)).data = s.before ++ A ++
      encodeUtf8 (finishedSuffix o hint (axisOf w.numItems hint)) ++
      (C ++ data ++ s.data.drop (s.pos + (headerBytes (dictText d o hint) ++ data).length)) := by
    rw [Sink.put_data _ (by simp [headerBytes_ne_nil]), List.length_append, finalDict_length hn, hfd, e2, ← List.length_append]; simp
  have hcase : s3 = s.put (headerBytes (dictText d o hint) ++ data) ∨ s3 = s.put (headerBytes (finalDict d o hint w.numItems) ++ data) := by
    rcases finish_cases hst.toBegun (fun _ => hk) (fun _ => hlt) hn data with ⟨-, hf⟩ | ⟨-, hf, -⟩ | ⟨-, ⟨e, hf⟩, -⟩
    · rw [hf] at h; cases h; exact .inl rfl
    · rw [hf] at h; cases h; exact .inr rfl
    · rw [hf] at h; cases h; exact .inl rfl
  have hbl := s.before_length
  refine ⟨?_, ?_, s.pos + A.length, s.pos + A.length + (encodeUtf8 (placeholder o hint)).length, by omega, by omega, by omega, ?_, ?_⟩
  · rcases hcase with rfl | rfl
    · simp; omega
    · simp [finalDict_length hn]; omega
  · rcases hcase with rfl | rfl
    · rfl
    · rw [hput, hput2]; simp only [List.length_append, hel]
  · rw [hput, List.append_assoc (s.before ++ A), List.drop_left' (by simp [hbl]), Nat.add_sub_cancel_left, List.take_left' rfl]
  · intro i hi
    rcases hcase with rfl | rfl
    · rfl
    · rw [hput, hput2]
      exact (get_outside hel (by rw [List.length_append, hbl]; exact hi)).symm

theorem new_of_run {M : Machine} {py : PyParser} {data : Bytes} {pos : Nat} {hdr rest : Bytes} {h : NpyHeader}
    (hrun : (NpyHeader.fromReader M py).run (hdr ++ rest) = (.ok h, rest)) (hdrop : data.drop pos = hdr ++ rest) :
    ∃ f, (NpyFile.new M py disk ⟨data, pos⟩).1 = .ok f ∧ f.header = h := by
  refine ⟨⟨h, Src.leave ⟨data, pos⟩ rest⟩, ?_, rfl⟩
  unfold NpyFile.new
  have : disk.exec (NpyHeader.fromReader M py) ⟨data, pos⟩ = (.ok h, Src.leave ⟨data, pos⟩ rest) := by
    simp only [disk, Src.rest, hdrop, hrun]
  rw [this]

/-- The header of a finished file, whatever follows. -/
theorem final_opens {M' : Machine} {py : PyParser} (hpy : py.ExtendsRef) {d : DType} {size : Nat} (hd : d.Wf)
    (hn : exactBytes d = some size) (hf : AllFit M'.usizeLim d) {o : Order} {hint : ShapeHint} {n : Nat} (hc : n < 2 ^ 64)
    (hfit : CountFits n hint)
    (hdims : ∀ dims, hint = .nd dims → (∀ k ∈ dims, k < 2 ^ 64) ∧ nonzeroProd dims < 2 ^ 64) (hr : ∀ r, hint = .twoD r → r < 2 ^ 64)
    (hmem : dictBytes d o hint + 76 ≤ M'.isizeMax) (hna : d.isArray = false)
    (hlen : (headerText (dictText d o hint)).length ≤ (usedProps (encodeUtf8 (dictText d o hint))).maxLen) (items : Bytes) (s : Sink) :
    ∃ f, (NpyFile.new M' py disk ⟨(s.put (headerBytes (finalDict d o hint n) ++ items)).data, s.pos⟩).1 = .ok f ∧
      f.header.dtype = d ∧ f.header.shape = finalShape o n hint ∧ f.header.order = o := by
  have hno : ¬ HasObject d := fun h => by have := (exactBytes_none_iff d).mpr h; rw [hn] at this; cases this
  obtain ⟨f1, f2⟩ := finalShape_fits (o := o) hfit hc hdims hr
  have hrun := run_final hpy hna hd hc f1 hlen hmem
  rw [fromParts_eq f2 (itemSizeOf_ok_iff.mpr (.inr ⟨hno, hf, size, hn, rfl⟩))] at hrun
  obtain ⟨rest, hdrop⟩ := Sink.put_drop s (headerBytes (finalDict d o hint n) ++ items) (by simp [headerBytes_ne_nil])
  rw [List.append_assoc] at hdrop
  obtain ⟨f, h1, h2⟩ := new_of_run (hrun (items ++ rest)) hdrop
  exact ⟨f, h1, by rw [h2], by rw [h2], by rw [h2]⟩

/-! ### Counting -/

theorem successes_all {rs : List (Res Unit)} (h : ∀ r ∈ rs, r = .ok ()) : successes rs = rs.length := by
  unfold successes
  rw [List.countP_eq_length]
  intro r hr
  rw [h r hr]

theorem successes_le (rs : List (Res Unit)) : successes rs ≤ rs.length := List.countP_le_length

end Npyz
