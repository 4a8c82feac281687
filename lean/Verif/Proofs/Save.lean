import Verif.Proofs.WriterRead
/-! Complete writing sessions. -/
namespace Npyz
open Spec Py

/-- The dictionary text of a finished file. -/
def finalDict (d : DType) (o : Order) (hint : ShapeHint) (n : Nat) : Text :=
  if hint.seeks = true then finishedText d o hint (axisOf n hint) else dictText d o hint

theorem headerBytes_le (d : DType) (o : Order) (hint : ShapeHint) : (headerBytes (dictText d o hint)).length ≤ dictBytes d o hint + 76 := by
  rw [headerBytes_length, headerText_length, bytesBeforeText_eq]
  have : (usedProps (encodeUtf8 (dictText d o hint))).width ≤ 4 := by
    unfold VersionProps.width; split <;> decide
  unfold dictBytes
  omega

theorem axisOf_le (n : Nat) (hint : ShapeHint) : axisOf n hint ≤ n := by
  cases hint with
  | nd => exact Nat.le_refl _
  | oneD => exact Nat.le_refl _
  | twoD r => exact Nat.div_le_self _ _

theorem finalDict_length {d : DType} {o : Order} {hint : ShapeHint} {n : Nat} (hn : n < 2 ^ 64) :
    (headerBytes (finalDict d o hint n)).length = (headerBytes (dictText d o hint)).length := by
  unfold finalDict
  by_cases hs : hint.seeks = true
  · rw [if_pos hs, finished_length hs (Nat.lt_of_le_of_lt (axisOf_le n hint) hn)]
  · rw [if_neg hs]

theorem Started.count {M : Machine} {t : Ty} {d : DType} {o : Order} {hint : ShapeHint} {p : Nat} {w : NpyWriter t.Val}
    (h : Started M d o hint p w) (n : Nat) : Started M d o hint p { w with numItems := n } :=
  ⟨⟨h.isArray, h.hdrFits, h.info, h.props, h.startPos⟩, h.prog⟩

theorem Begun.count {M : Machine} {V : Type} {d : DType} {o : Order} {hint : ShapeHint} {p : Nat} {w : NpyWriter V}
    (h : Begun M d o hint p w) (n : Nat) : Begun M d o hint p { w with numItems := n } :=
  ⟨h.isArray, h.hdrFits, h.info, h.props, h.startPos⟩

/-- How finishing ends, and what it leaves. -/
theorem finish_cases {M : Machine} {V : Type} {d : DType} {o : Order} {hint : ShapeHint} {w : NpyWriter V} {s : Sink}
    (hst : Begun M d o hint s.pos w) (hk : hint.seeks = true → s.seekable = true)
    (hlt : hint.seeks = true → s.pos + dictBytes d o hint + 76 ≤ 2 ^ 64) (hn : w.numItems < 2 ^ 64) (data : Bytes) :
    (hint = .twoD 0 ∧ (w.finish_ M).exec (s.put (headerBytes (dictText d o hint) ++ data)) =
        (.panic, s.put (headerBytes (dictText d o hint) ++ data))) ∨
    (hint ≠ .twoD 0 ∧ (w.finish_ M).exec (s.put (headerBytes (dictText d o hint) ++ data)) =
        (.ok (), s.put (headerBytes (finalDict d o hint w.numItems) ++ data)) ∧
      (∀ dims, hint = .nd dims → shapeProduct M 1 dims = .ok w.numItems) ∧ (∀ r, hint = .twoD r → r ∣ w.numItems)) ∨
    (hint ≠ .twoD 0 ∧ (∃ e, (w.finish_ M).exec (s.put (headerBytes (dictText d o hint) ++ data)) =
        (.err e, s.put (headerBytes (dictText d o hint) ++ data))) ∧
      ((∃ dims n, hint = .nd dims ∧ shapeProduct M 1 dims = .ok n ∧ n ≠ w.numItems) ∨ (∃ r, hint = .twoD r ∧ ¬ r ∣ w.numItems))) := by
  have hl := headerBytes_le d o hint
  cases hint with
  | nd dims =>
    obtain ⟨n, h1, h2⟩ := hst.info
    by_cases he : n = w.numItems
    · refine .inr (.inl ⟨by simp, ?_, fun dims' hd => ?_, by simp⟩)
      · rw [exec_finish_nd h2, if_pos he]; rfl
      · cases hd; rw [h1, he]
    · refine .inr (.inr ⟨by simp, ⟨.invalidData "wrong number of items", ?_⟩, .inl ⟨dims, n, rfl, h1, he⟩⟩)
      · rw [exec_finish_nd h2, if_neg he]
  | oneD =>
    refine .inr (.inl ⟨by simp, ?_, by simp, by simp⟩)
    exact exec_finish_ok rfl (hk rfl) hst (by have := hlt rfl; omega) hn (by simp) trivial data
  | twoD r =>
    by_cases hr : r = 0
    · subst hr
      exact .inl ⟨rfl, exec_finish_zero hst.info _⟩
    · have hz : ShapeHint.twoD r ≠ .twoD 0 := by simpa using hr
      by_cases hd : r ∣ w.numItems
      · refine .inr (.inl ⟨hz, ?_, by simp, fun r' hr' => by cases hr'; exact hd⟩)
        exact exec_finish_ok rfl (hk rfl) hst (by have := hlt rfl; omega) hn hz hd data
      · exact .inr (.inr ⟨hz, ⟨_, exec_finish_count hst.info hr hd _⟩, .inr ⟨r, rfl, hd⟩⟩)

/-- A session of `extend`. -/
theorem save_eq {M : Machine} {t : Ty} {d : DType} {o : Order} {hint : ShapeHint} {s s1 : Sink} {size : Nat} {w : NpyWriter t.Val} (hd : d.Wf)
    (hn : exactBytes d = some size) (hm : size ≤ M.isizeMax) {vs : List t.Val} (hc : vs.length < 2 ^ 64)
    (hb : (NpyWriter.begin M t d o hint).exec s = (.ok w, s1)) {items : Bytes} (he : encodeAll (encode t d) vs = some items) :
    NpyWriter.save M solid t d o hint vs s = (({ w with numItems := vs.length } : NpyWriter t.Val).finish_ M).exec
      (s.put (headerBytes (dictText d o hint) ++ items)) := by
  obtain ⟨hst, h0, hk, rfl⟩ := begin_ok hb
  have hx := extend_solid hd hn hm vs w hst.prog (by omega) (s.put (headerBytes (dictText d o hint))) he
  unfold NpyWriter.save NpyWriter.saveWith
  have hb' : solid.exec (NpyWriter.begin M t d o hint) s = (.ok w, s.put (headerBytes (dictText d o hint))) := hb
  simp only [hb', hx]
  rw [(finish_eq _ (by simp only; omega) _).1, Sink.put_put]
  simp only [h0, Nat.zero_add]

theorem encode_length {M : Machine} {t : Ty} {d : DType} {size : Nat} (hd : d.Wf) (hn : exactBytes d = some size) (hm : size ≤ M.isizeMax)
    {prog : t.Val → WProg Unit} (hw : t.writer M d = .ok prog) (v : t.Val) (b : Bytes) (h : encode t d v = some b) : b.length = size := by
  obtain ⟨bs, r, -, ⟨h1, -, h2⟩ | ⟨h1, -⟩⟩ := push_solid (w := ⟨none, .known 0, 0, prog, ⟨.u16, .ascii⟩⟩) hw hd hn hm (by show 0 + 1 < 2 ^ 64; decide) v ⟨[], 0, true⟩
  · rw [h] at h1; cases h1; exact h2
  · rw [h] at h1; cases h1

theorem save_ok {M : Machine} {t : Ty} {d : DType} {o : Order} {hint : ShapeHint} {s s' : Sink} {size : Nat} (hd : d.Wf)
    (hn : exactBytes d = some size) (hm : size ≤ M.isizeMax) {vs : List t.Val} (hc : vs.length < 2 ^ 64)
    (hlt : hint.seeks = true → s.pos + dictBytes d o hint + 76 ≤ 2 ^ 64) (h : NpyWriter.save M solid t d o hint vs s = (.ok (), s')) :
    ∃ items, encodeAll (encode t d) vs = some items ∧ s' = s.put (headerBytes (finalDict d o hint vs.length) ++ items) ∧
      d.isArray = false ∧ (headerText (dictText d o hint)).length ≤ (usedProps (encodeUtf8 (dictText d o hint))).maxLen ∧
      (∀ dims, hint = .nd dims → shapeProduct M 1 dims = .ok vs.length) ∧ (∀ r, hint = .twoD r → r ≠ 0 ∧ r ∣ vs.length) ∧ ∃ prog, t.writer M d = .ok prog := by
  have h' := h
  unfold NpyWriter.save NpyWriter.saveWith at h'
  rcases hb : (NpyWriter.begin M t d o hint).exec s with ⟨(w | e | _), s1⟩
  · have hb' : solid.exec (NpyWriter.begin M t d o hint) s = (.ok w, s1) := hb
    obtain ⟨hst, h0, hk, hs1⟩ := begin_ok hb
    rw [hb'] at h'
    simp only at h'
    have hx : ∃ items, encodeAll (encode t d) vs = some items := by
      apply extend_solid_ok hd hn hm vs w hst.prog (by omega) s1
      rcases he : w.extend M solid vs s1 with ⟨(⟨⟩ | e | _), w', s2⟩
      · rfl
      · rw [he] at h'
        simp only at h'
        rcases hdr : w'.drop M solid s2 with ⟨(⟨⟩ | e | _), s3⟩ <;> rw [hdr] at h' <;> cases h'
      · rw [he] at h'; cases h'
    obtain ⟨items, he⟩ := hx
    rw [save_eq hd hn hm hc hb he] at h
    refine ⟨items, he, ?_⟩
    rcases finish_cases (hst.toBegun.count vs.length) hk hlt hc items with ⟨-, hf⟩ | ⟨hz, hf, h1, h2⟩ | ⟨-, ⟨e, hf⟩, -⟩
    · rw [h] at hf; cases hf
    · rw [h] at hf
      cases hf
      refine ⟨rfl, hst.isArray, hst.hdrFits, h1, fun r hr => ⟨?_, h2 r hr⟩, _, hst.prog⟩
      rintro rfl
      exact hz hr
    · rw [h] at hf; cases hf
  · have hb' : solid.exec (NpyWriter.begin M t d o hint) s = (.err e, s1) := hb
    rw [hb'] at h'; cases h'
  · have hb' : solid.exec (NpyWriter.begin M t d o hint) s = (.panic, s1) := hb
    rw [hb'] at h'; cases h'

/-- The header of a finished file. -/
theorem run_final {M : Machine} {py : PyParser} (hpy : py.ExtendsRef) {d : DType} (hna : d.isArray = false) (hw : d.Wf) {o : Order}
    {hint : ShapeHint} {n : Nat} (hn : n < 2 ^ 64) (hdims : ∀ k ∈ finalShape o n hint, k < 2 ^ 64)
    (hlen : (headerText (dictText d o hint)).length ≤ (usedProps (encodeUtf8 (dictText d o hint))).maxLen)
    (ha : dictBytes d o hint + 76 ≤ M.isizeMax) (rest : Bytes) :
    (NpyHeader.fromReader M py).run (headerBytes (finalDict d o hint n) ++ rest) =
      (NpyHeader.fromParts M d (finalShape o n hint) o, rest) := by
  have hl := headerBytes_le d o hint
  have hna := isArray_false.mp hna
  unfold finalDict
  by_cases hs : hint.seeks = true
  · rw [if_pos hs]
    exact run_finished hpy hna hw hs (Nat.lt_of_le_of_lt (axisOf_le n hint) hn) hdims hlen (by omega) rest
  · rw [if_neg hs]
    cases hint with
    | nd dims =>
      have ht : dictPrefix d o ++ shapeText dims = dictText d o (.nd dims) := by
        have : createDict ⟨false, 64, false⟩ d o (.nd dims) = .ok (dictPrefix d o ++ shapeText dims,
            .known (1 * dims.prod % 2 ^ 64)) := by
          obtain ⟨k, hk⟩ := shapeProduct_release (M := ⟨false, 64, false⟩) rfl dims 1
          have := shapeProduct_ok (by decide) hk
          simp only [createDict, hk, Out.bind_ok, this]
        exact createDict_text this
      have hlit := lit_ndText hna o dims
      rw [ht] at hlit
      rw [headerBytes_length] at hl
      rw [run_headerBytes hpy hlit hlen (by omega), interpretHeader_headerDict (dims := dims) hna hw o hdims]
      rfl
    | oneD => exact absurd rfl hs
    | twoD r => exact absurd rfl hs

/-- The product of the final shape. -/
theorem finalShape_prod {o : Order} {n : Nat} {hint : ShapeHint} (h : CountFits n hint) : (finalShape o n hint).prod = n := by
  cases hint with
  | nd dims => exact h.symm
  | oneD => simp [finalShape]
  | twoD r =>
    have h : r ∣ n := h
    cases o
    · simp [finalShape, Nat.div_mul_cancel h]
    · simp [finalShape, Nat.mul_div_cancel' h]

/-- The final shape is within the limits of `u64`. -/
theorem finalShape_fits {o : Order} {n : Nat} {hint : ShapeHint} (h : CountFits n hint) (hn : n < 2 ^ 64)
    (hd : ∀ dims, hint = .nd dims → (∀ k ∈ dims, k < 2 ^ 64) ∧ nonzeroProd dims < 2 ^ 64) (hr : ∀ r, hint = .twoD r → r < 2 ^ 64) :
    (∀ k ∈ finalShape o n hint, k < 2 ^ 64) ∧ nonzeroProd (finalShape o n hint) < 2 ^ 64 := by
  cases hint with
  | nd dims => exact hd dims rfl
  | oneD =>
    refine ⟨by simp [finalShape]; exact hn, ?_⟩
    show nonzeroProd [n] < 2 ^ 64
    rw [nonzeroProd_cons]
    show (if n = 0 then 1 else n) * 1 < 2 ^ 64
    split <;> omega
  | twoD r =>
    have h : r ∣ n := h
    have hr := hr r rfl
    have hle : n / r ≤ n := Nat.div_le_self _ _
    have key : (if n / r = 0 then 1 else n / r) * (if r = 0 then 1 else r) < 2 ^ 64 := by
      have e := Nat.div_mul_cancel h
      by_cases h0 : n / r = 0
      · rw [if_pos h0]; split <;> omega
      · rw [if_neg h0]
        by_cases h1 : r = 0
        · rw [if_pos h1]; omega
        · rw [if_neg h1, e]; exact hn
    cases o
    · refine ⟨by simp [finalShape]; omega, ?_⟩
      show nonzeroProd [n / r, r] < 2 ^ 64
      rw [nonzeroProd_cons, nonzeroProd_cons]
      show _ * (_ * 1) < 2 ^ 64
      rw [Nat.mul_one]; exact key
    · refine ⟨by simp [finalShape]; omega, ?_⟩
      show nonzeroProd [r, n / r] < 2 ^ 64
      rw [nonzeroProd_cons, nonzeroProd_cons]
      show _ * (_ * 1) < 2 ^ 64
      rw [Nat.mul_one, Nat.mul_comm]; exact key

/-- Reading back a finished file. -/
theorem final_readsOn {M' : Machine} (hM' : M'.Wf) {py : PyParser} (hpy : py.ExtendsRef) {t : Ty} {d : DType} {size : Nat} (hd : d.Wf)
    {p : RProg t.Val} (hp : t.reader M' d = .ok p) (hn : exactBytes d = some size) (hm : size ≤ M'.isizeMax) (hf : AllFit M'.usizeLim d)
    {o : Order} {hint : ShapeHint} {vs : List t.Val} (hc : vs.length < 2 ^ 64) (hfit : CountFits vs.length hint)
    (hdims : ∀ dims, hint = .nd dims → (∀ k ∈ dims, k < 2 ^ 64) ∧ nonzeroProd dims < 2 ^ 64) (hr : ∀ r, hint = .twoD r → r < 2 ^ 64)
    (hmem : dictBytes d o hint + 76 ≤ M'.isizeMax) (hna : d.isArray = false)
    (hlen : (headerText (dictText d o hint)).length ≤ (usedProps (encodeUtf8 (dictText d o hint))).maxLen)
    {items : Bytes} (he : encodeAll (encode t d) vs = some items) {data rest : Bytes} {pos : Nat}
    (hdrop : data.drop pos = headerBytes (finalDict d o hint vs.length) ++ items ++ rest) :
    ReadsOn M' py t ⟨data, pos⟩ d (finalShape o vs.length hint) o (vs.map (readBack t d))
      ⟨data, pos + (headerBytes (finalDict d o hint vs.length) ++ items).length⟩ := by
  have hno : ¬ HasObject d := fun h => by have := (exactBytes_none_iff d).mpr h; rw [hn] at this; cases this
  obtain ⟨f1, f2⟩ := finalShape_fits (o := o) hfit hc hdims hr
  have hrun := run_final hpy hna hd hc f1 hlen hmem
  rw [fromParts_eq f2 (itemSizeOf_ok_iff.mpr (.inr ⟨hno, hf, size, hn, rfl⟩))] at hrun
  have hne := headerBytes_ne_nil (finalDict d o hint vs.length)
  have hpk : d.usesPickled = false := by
    cases h : d.usesPickled with
    | false => rfl
    | true => exact absurd ((usesPickled_iff d).mp h) hno
  exact readsOn_of (h := ⟨d, finalShape o vs.length hint, exactStrides o (finalShape o vs.length hint), o,
    (finalShape o vs.length hint).prod, some size, d.usesPickled⟩) hM' hp hn hm hrun rfl (finalShape_prod hfit) rfl hpk he hne hdrop

/-- Reading back a finished file. -/
theorem final_reads {M' : Machine} (hM' : M'.Wf) {py : PyParser} (hpy : py.ExtendsRef) {t : Ty} {d : DType} {size : Nat} (hd : d.Wf)
    {p : RProg t.Val} (hp : t.reader M' d = .ok p) (hn : exactBytes d = some size) (hm : size ≤ M'.isizeMax) (hf : AllFit M'.usizeLim d)
    {o : Order} {hint : ShapeHint} {vs : List t.Val} (hc : vs.length < 2 ^ 64) (hfit : CountFits vs.length hint)
    (hdims : ∀ dims, hint = .nd dims → (∀ k ∈ dims, k < 2 ^ 64) ∧ nonzeroProd dims < 2 ^ 64) (hr : ∀ r, hint = .twoD r → r < 2 ^ 64)
    (hmem : dictBytes d o hint + 76 ≤ M'.isizeMax) (hna : d.isArray = false)
    (hlen : (headerText (dictText d o hint)).length ≤ (usedProps (encodeUtf8 (dictText d o hint))).maxLen)
    {items : Bytes} (he : encodeAll (encode t d) vs = some items) (s : Sink) :
    ReadsBack M' py t (s.put (headerBytes (finalDict d o hint vs.length) ++ items)).data s.pos d (finalShape o vs.length hint) o
      (vs.map (readBack t d)) := by
  obtain ⟨rest, hdrop⟩ := Sink.put_drop s (headerBytes (finalDict d o hint vs.length) ++ items)
    (by simp [headerBytes_ne_nil (finalDict d o hint vs.length)])
  exact readsOn_back (final_readsOn hM' hpy hd hp hn hm hf hc hfit hdims hr hmem hna hlen he hdrop)

end Npyz
