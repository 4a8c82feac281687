import Verif.Proofs.Write
import Verif.Spec.WriteHeader
namespace Npyz
open Spec

theorem txt_append (a b : String) : txt a ++ txt b = txt (a ++ b) := by simp [txt]

theorem filler_eq : filler = txt "********************" := by decide +kernel

theorem createDict_text {M : Machine} {d : DType} {o : Order} {hint : ShapeHint} {dict : Text} {info : ShapeInfo}
    (h : createDict M d o hint = .ok (dict, info)) : dict = dictText d o hint := by
  have e1 : txt ", 'shape': (" = txt ", 'shape': " ++ txt "(" := by decide +kernel
  have e2 : txt "), }" = txt ")" ++ txt ", }" := by decide +kernel
  have e3 : txt ",), }" = txt ",)" ++ txt ", }" := by decide +kernel
  have e4 : txt "(********************,)" = txt "(" ++ (filler ++ txt ",)") := by decide +kernel
  have e5 : txt "(********************, " = txt "(" ++ (filler ++ txt ", ") := by decide +kernel
  have e6 : txt ", ********************)" = txt ", " ++ (filler ++ txt ")") := by decide +kernel
  have e7 : ∀ x : Text, x ++ List.replicate (20 - filler.length) ' ' = x := by intro x; simp [filler]
  have eo : orderText o = boolText (o == .fortran) := by cases o <;> rfl
  unfold dictText
  rw [← eo]
  cases hint with
  | nd dims =>
    simp only [createDict] at h
    obtain ⟨n, _, h⟩ := Out.bind_eq_ok.mp h
    obtain rfl := (Prod.mk.inj (Out.ok.inj h)).1
    simp only [dictPrefix, shapeTuple, shapeText, e1, e2, List.append_assoc]
  | oneD =>
    simp only [createDict] at h
    obtain ⟨n, h1, h⟩ := Out.bind_eq_ok.mp h
    obtain rfl := (Prod.mk.inj (Out.ok.inj h)).1
    obtain rfl := Out.ok.inj h1
    rw [e7]
    simp only [dictPrefix, shapeTuple, e1, e3, e4, List.append_assoc]
  | twoD r =>
    simp only [createDict] at h
    obtain ⟨n, h1, h⟩ := Out.bind_eq_ok.mp h
    obtain rfl := (Prod.mk.inj (Out.ok.inj h)).1
    obtain rfl := Out.ok.inj h1
    rw [e7]
    cases o
    · simp only [dictPrefix, shapeTuple, axes2d, e1, e2, e5, List.append_assoc]
    · simp only [dictPrefix, shapeTuple, axes2d, e1, e2, e6, List.append_assoc]

theorem createDict_fits {M : Machine} {d : DType} {o : Order} {hint : ShapeHint} (h : hint.Fits) :
    ∃ info, createDict M d o hint = .ok (dictText d o hint, info) := by
  have : ∃ dict info, createDict M d o hint = .ok (dict, info) := by
    cases hint with
    | nd dims =>
      have h : nonzeroProd dims < 2 ^ 64 := h
      refine ⟨dictPrefix d o ++ shapeText dims, .known (1 * dims.prod), ?_⟩
      simp only [createDict]
      rw [shapeProduct_exact (acc := 1) (by simpa using h)]
      rfl
    | oneD => exact ⟨_, _, rfl⟩
    | twoD r => exact ⟨_, _, rfl⟩
  obtain ⟨dict, info, h⟩ := this
  exact ⟨info, by rw [h, createDict_text h]⟩

theorem exec_writeHeader_ok {M : Machine} {d : DType} {o : Order} {hint : ShapeHint} {s s' : Sink} {r : ShapeInfo × VersionProps}
    (h : (writeHeader M d o hint).exec s = (.ok r, s')) :
    d.isArray = false ∧ createDict M d o hint = .ok (dictText d o hint, r.1) ∧
    r.2 = usedProps (encodeUtf8 (dictText d o hint)) ∧
    (headerText (dictText d o hint)).length ≤ (usedProps (encodeUtf8 (dictText d o hint))).maxLen ∧
    s' = s.put (headerBytes (dictText d o hint)) := by
  have ha : d.isArray = false := by
    cases hb : d.isArray with
    | false => rfl
    | true =>
      unfold writeHeader at h
      rw [hb, assert, if_neg (by decide), WProg.exec_bind_of_panic (WProg.exec_lift _ _)] at h
      cases h
  have hc : ∃ dict info, createDict M d o hint = .ok (dict, info) := by
    cases hd : createDict M d o hint with
    | ok x => exact ⟨x.1, x.2, rfl⟩
    | err e =>
      unfold writeHeader at h
      rw [hd, assert, if_pos ha, WProg.exec_bind_of_ok (WProg.exec_lift _ _), WProg.exec_bind_of_err (WProg.exec_lift _ _)] at h
      cases h
    | panic =>
      unfold writeHeader at h
      rw [hd, assert, if_pos ha, WProg.exec_bind_of_ok (WProg.exec_lift _ _), WProg.exec_bind_of_panic (WProg.exec_lift _ _)] at h
      cases h
  obtain ⟨dict, info, hd⟩ := hc
  obtain rfl := createDict_text hd
  rw [exec_writeHeader ha hd] at h
  split at h
  · rename_i hl
    obtain ⟨h1, h2⟩ := Prod.mk.inj h
    obtain rfl := Out.ok.inj h1
    exact ⟨ha, hd, rfl, hl, h2.symm⟩
  · cases (Prod.mk.inj h).1

theorem isArray_false {d : DType} : d.isArray = false ↔ d.NotArray := by
  cases d <;> simp [DType.isArray, DType.NotArray]

theorem mem_utf8EncodeChar_high {c : Char} : (∃ b ∈ String.utf8EncodeChar c, 128 ≤ b.toNat) ↔ 128 ≤ c.toNat := by
  have hlt := char_toNat_lt c
  rw [utf8EncodeChar_def]
  split
  · simp only [List.mem_singleton, exists_eq_left]
    rw [toNat_ofNat_lt (by omega)]
  · constructor
    · intro _; omega
    · intro _
      split
      · exact ⟨_, List.mem_cons_self, by rw [toNat_ofNat_lt (by omega)]; omega⟩
      · split
        · exact ⟨_, List.mem_cons_self, by rw [toNat_ofNat_lt (by omega)]; omega⟩
        · exact ⟨_, List.mem_cons_self, by rw [toNat_ofNat_lt (by omega)]; omega⟩

theorem encodeUtf8_any_high (t : Text) :
    (encodeUtf8 t).any (fun b => decide (b.toNat ≥ 128)) = true ↔ ∃ c ∈ t, 128 ≤ c.toNat := by
  simp only [List.any_eq_true, decide_eq_true_eq, encodeUtf8, List.mem_flatMap]
  constructor
  · rintro ⟨b, ⟨c, hc, hb⟩, h⟩
    exact ⟨c, hc, mem_utf8EncodeChar_high.mp ⟨b, hb, h⟩⟩
  · rintro ⟨c, hc, h⟩
    obtain ⟨b, hb, h⟩ := mem_utf8EncodeChar_high.mpr h
    exact ⟨b, ⟨c, hc, hb⟩, h⟩

theorem digit_lt_128 {c : Char} (h : c.isDigit = true) : c.toNat < 128 := by
  simp only [Char.isDigit, Bool.and_eq_true, decide_eq_true_eq] at h
  have := h.2
  have : c.val.toNat ≤ 57 := this
  show c.val.toNat < 128
  omega

theorem toDigits_lt_128 (n : Nat) : ∀ c ∈ Nat.toDigits 10 n, c.toNat < 128 :=
  fun _ hc => digit_lt_128 (Nat.isDigit_of_mem_toDigits (by decide) (by decide) hc)

theorem shapeTuple_ascii (o : Order) (hint : ShapeHint) : ∀ c ∈ shapeTuple o hint, c.toNat < 128 := by
  have h1 : ∀ c ∈ txt "(", c.toNat < 128 := by decide +kernel
  have h2 : ∀ c ∈ txt ")", c.toNat < 128 := by decide +kernel
  have h3 : ∀ c ∈ txt ", ", c.toNat < 128 := by decide +kernel
  have h4 : ∀ c ∈ txt "(********************, ", c.toNat < 128 := by decide +kernel
  have h5 : ∀ c ∈ txt ", ********************)", c.toNat < 128 := by decide +kernel
  have h6 : ∀ c ∈ txt "(********************,)", c.toNat < 128 := by decide +kernel
  cases hint with
  | nd dims =>
    intro c hc
    simp only [shapeTuple, List.mem_append, List.mem_flatMap] at hc
    rcases hc with (hc | ⟨n, _, hc | hc⟩) | hc
    · exact h1 c hc
    · exact toDigits_lt_128 n c hc
    · exact h3 c hc
    · exact h2 c hc
  | oneD => exact h6
  | twoD n =>
    intro c hc
    cases o with
    | c =>
      simp only [shapeTuple, List.mem_append] at hc
      rcases hc with (hc | hc) | hc
      · exact h4 c hc
      · exact toDigits_lt_128 n c hc
      · exact h2 c hc
    | fortran =>
      simp only [shapeTuple, List.mem_append] at hc
      rcases hc with (hc | hc) | hc
      · exact h1 c hc
      · exact toDigits_lt_128 n c hc
      · exact h5 c hc

theorem dictText_nonAscii (d : DType) (o : Order) (hint : ShapeHint) :
    (∃ c ∈ dictText d o hint, 128 ≤ c.toNat) ↔ NonAscii d := by
  constructor
  · rintro ⟨c, hc, h⟩
    simp only [dictText, List.mem_append] at hc
    have h1 : ∀ c ∈ txt "{'descr': ", c.toNat < 128 := by decide +kernel
    have h2 : ∀ c ∈ txt ", 'fortran_order': ", c.toNat < 128 := by decide +kernel
    have h3 : ∀ o : Order, ∀ c ∈ boolText (o == .fortran), c.toNat < 128 := by
      intro o; cases o <;> decide +kernel
    have h4 : ∀ c ∈ txt ", 'shape': ", c.toNat < 128 := by decide +kernel
    have h5 : ∀ c ∈ txt ", }", c.toNat < 128 := by decide +kernel
    rcases hc with (((((hc | hc) | hc) | hc) | hc) | hc) | hc
    · have := h1 c hc; omega
    · exact ⟨c, hc, h⟩
    · have := h2 c hc; omega
    · have := h3 o c hc; omega
    · have := h4 c hc; omega
    · have := shapeTuple_ascii o hint c hc; omega
    · have := h5 c hc; omega
  · rintro ⟨c, hc, h⟩
    exact ⟨c, by simp [dictText, hc], h⟩

/-- Which version is used. -/
theorem usedProps_cases (d : DType) (o : Order) (hint : ShapeHint) :
    (NonAscii d ∧ usedProps (encodeUtf8 (dictText d o hint)) = ⟨.u32, .utf8⟩ ∧
      getMinimalVersion (requiredProps (encodeUtf8 (dictText d o hint))) = (3, 0)) ∨
    (¬ NonAscii d ∧ safeU16Cutoff ≤ dictBytes d o hint ∧ usedProps (encodeUtf8 (dictText d o hint)) = ⟨.u32, .ascii⟩ ∧
      getMinimalVersion (requiredProps (encodeUtf8 (dictText d o hint))) = (2, 0)) ∨
    (¬ NonAscii d ∧ dictBytes d o hint < safeU16Cutoff ∧ usedProps (encodeUtf8 (dictText d o hint)) = ⟨.u16, .ascii⟩ ∧
      getMinimalVersion (requiredProps (encodeUtf8 (dictText d o hint))) = (1, 0)) := by
  have key := (encodeUtf8_any_high (dictText d o hint)).trans (dictText_nonAscii d o hint)
  unfold usedProps getMinimalVersion requiredProps dictBytes
  generalize encodeUtf8 (dictText d o hint) = e at key
  cases ha : e.any (fun b => decide (b.toNat ≥ 128)) with
  | true => exact .inl ⟨key.mp ha, by simp [ha], by simp [ha]⟩
  | false =>
    have hn : ¬ NonAscii d := fun h => by rw [key.mpr h] at ha; cases ha
    by_cases hc : safeU16Cutoff ≤ e.length
    · exact .inr (.inl ⟨hn, hc, by simp [ha, hc], by simp [ha, hc]⟩)
    · exact .inr (.inr ⟨hn, by omega, by simp [ha, hc], by simp [ha, hc]⟩)

theorem headerText_length (dict : Text) : (headerText dict).length = (encodeUtf8 dict).length
    + (63 - ((encodeUtf8 dict).length + (usedProps (encodeUtf8 dict)).bytesBeforeText) % 64) + 1 := by
  simp [headerText, padHeader]; omega

/-- When the padded text fits the length field. -/
theorem headerText_fits (d : DType) (o : Order) (hint : ShapeHint) :
    (headerText (dictText d o hint)).length ≤ (usedProps (encodeUtf8 (dictText d o hint))).maxLen ↔
      dictBytes d o hint ≤ 65525 ∨ ((NonAscii d ∨ safeU16Cutoff ≤ dictBytes d o hint) ∧ dictBytes d o hint ≤ 2 ^ 32 - 13) := by
  rw [headerText_length]
  rcases usedProps_cases d o hint with ⟨h1, h2, _⟩ | ⟨h1, h3, h2, _⟩ | ⟨h1, h3, h2, _⟩
  · rw [h2]
    simp only [VersionProps.maxLen, VersionProps.width, bytesBeforeText_eq, dictBytes, h1, true_or, true_and]
    omega
  · rw [h2]
    simp only [h3, or_true, true_and]
    simp only [VersionProps.maxLen, VersionProps.width, bytesBeforeText_eq, dictBytes]
    omega
  · rw [h2]
    simp only [h1, show ¬ safeU16Cutoff ≤ dictBytes d o hint by omega, or_self, false_and, or_false]
    simp only [VersionProps.maxLen, VersionProps.width, bytesBeforeText_eq, dictBytes]
    omega

theorem headerBytes_length (dict : Text) : (headerBytes dict).length =
    (headerText dict).length + (usedProps (encodeUtf8 dict)).bytesBeforeText := length_emitHeader _ _ _

end Npyz
