import Verif.Proofs.WriteHeader
import Verif.Proofs.CodecDefault
import Verif.Spec.Writer
/-! The file writer. -/
namespace Npyz
open Spec Py

/-! ### Streams -/

theorem overwrite_length {data b : Bytes} {pos : Nat} (h : pos + b.length ≤ data.length) :
    (overwrite data pos b).length = data.length := by
  simp [overwrite]; omega

theorem Sink.put_data_of_ne {s : Sink} {b : Bytes} (h : b ≠ []) : (s.put b).data = overwrite s.data s.pos b := by
  unfold Sink.put; rw [if_neg h]

/-- Overwriting a piece of what was just written. -/
theorem overwrite_put (s : Sink) (A B B' C : Bytes) (h : B'.length = B.length) (hne : B ≠ []) :
    overwrite (s.put (A ++ B ++ C)).data (s.pos + A.length) B' = (s.put (A ++ B' ++ C)).data := by
  have hB' : B' ≠ [] := by rintro rfl; exact hne (List.length_eq_zero_iff.mp (by simpa using h.symm))
  rw [Sink.put_data_of_ne (by simp [hne]), Sink.put_data_of_ne (by simp [hB'])]
  unfold overwrite
  have hl := length_overwrite_head s.data s.pos
  generalize (s.data ++ List.replicate (s.pos - s.data.length) 0).take s.pos = hd at hl
  have h1 : (hd ++ (A ++ B ++ C) ++ s.data.drop (s.pos + (A ++ B ++ C).length)).length ≥ s.pos + A.length := by simp; omega
  rw [Nat.sub_eq_zero_of_le h1, List.replicate_zero, List.append_nil]
  have e1 : hd ++ (A ++ B ++ C) ++ s.data.drop (s.pos + (A ++ B ++ C).length)
      = (hd ++ A) ++ (B ++ (C ++ s.data.drop (s.pos + (A ++ B ++ C).length))) := by simp
  rw [e1, List.take_left' (by simp [hl]), ← List.drop_drop, List.drop_left' (by simp [hl]), List.drop_left' h.symm]
  simp [h]

theorem Sink.put_congr {s : Sink} {a b : Bytes} (hl : a.length = b.length) (h : (s.put a).data = (s.put b).data) :
    s.put a = s.put b := by
  have h1 : (s.put a).pos = (s.put b).pos := by simp [hl]
  have h2 : (s.put a).seekable = (s.put b).seekable := by simp
  generalize s.put a = x at *
  generalize s.put b = y at *
  cases x; cases y
  simp only at h h1 h2
  rw [h, h1, h2]

theorem Sink.put_drop (s : Sink) (b : Bytes) (hb : b ≠ []) : ∃ rest, (s.put b).data.drop s.pos = b ++ rest := by
  rw [Sink.put_data_of_ne hb]
  unfold overwrite
  have hl := length_overwrite_head s.data s.pos
  exact ⟨s.data.drop (s.pos + b.length), by rw [List.append_assoc, List.drop_left' hl]⟩

/-! ### Adding -/

theorem addU64_ok {M : Machine} {a b : Nat} (h : a + b < 2 ^ 64) : M.addU64 a b = .ok (a + b) := by
  unfold Machine.addU64
  rw [if_pos (by simpa [u64Lim] using h)]

theorem addU64_np (M : Machine) (a b : Nat) : (∃ c, M.addU64 a b = .ok c) ∨ M.addU64 a b = .panic := by
  unfold Machine.addU64
  split
  · exact .inl ⟨_, rfl⟩
  · split
    · exact .inr rfl
    · exact .inl ⟨_, rfl⟩

/-! ### Shape texts -/

theorem toDigits_length_le {n : Nat} (h : n < 2 ^ 64) : (Nat.toDigits 10 n).length ≤ 20 :=
  (Nat.length_toDigits_le_iff (by decide) (by decide)).mpr (Nat.lt_trans h (by decide))

theorem fillerPadding_ok {n : Nat} (h : n ≤ 20) : fillerPadding n = .ok (List.replicate (20 - n) ' ') := if_pos h

/-- The shape text from the axis on, without padding. -/
def suffixText (o : Order) (hint : ShapeHint) (axis : Text) : Text :=
  match hint with
  | .nd _ => []
  | .oneD => axis ++ txt ",), }"
  | .twoD r => axes2d o r axis ++ txt "), }"

/-- The unknown axis. -/
def axisOf (n : Nat) : ShapeHint → Nat
  | .twoD r => n / r
  | _ => n

theorem suffixText_filler {o : Order} {hint : ShapeHint} : suffixText o hint filler = placeholder o hint := by
  have e3 : filler ++ txt ",), }" = txt "********************,), }" := by decide +kernel
  have e5 : filler ++ txt ", " = txt "********************, " := by decide +kernel
  have e6 : txt ", " ++ (filler ++ txt "), }") = txt ", ********************), }" := by decide +kernel
  cases hint with
  | nd dims => rfl
  | oneD => exact e3
  | twoD r =>
    cases o
    · show filler ++ txt ", " ++ Nat.toDigits 10 r ++ txt "), }" = _
      rw [e5]; rfl
    · show Nat.toDigits 10 r ++ txt ", " ++ filler ++ txt "), }" = _
      rw [List.append_assoc, List.append_assoc, e6]; rfl

theorem dictText_suffix {d : DType} {o : Order} {hint : ShapeHint} (hs : hint.seeks = true) :
    dictText d o hint = dictPrefix d o ++ suffixText o hint filler := by
  have hpad : ∀ x : Text, x ++ List.replicate (20 - filler.length) ' ' = x := by intro x; simp [filler]
  cases hint with
  | nd dims => cases hs
  | oneD =>
    have h : createDict ⟨false, 64, true⟩ d o .oneD = .ok (dictPrefix d o ++ suffixText o .oneD filler, .auto1 (encodeUtf8 (dictPrefix d o)).length) := by
      simp only [createDict, shapeSuffix1d, fillerPadding_ok (show filler.length ≤ 20 by simp [filler]), Out.bind_ok, hpad, suffixText]
    exact (createDict_text h).symm
  | twoD r =>
    have h : createDict ⟨false, 64, true⟩ d o (.twoD r) = .ok (dictPrefix d o ++ suffixText o (.twoD r) filler, .auto2 (encodeUtf8 (dictPrefix d o)).length r o) := by
      simp only [createDict, shapeSuffix2d, fillerPadding_ok (show filler.length ≤ 20 by simp [filler]), Out.bind_ok, hpad, suffixText]
    exact (createDict_text h).symm

theorem suffixText_length (o : Order) (hint : ShapeHint) (a b : Text) (hs : hint.seeks = true) :
    (suffixText o hint a).length + b.length = (suffixText o hint b).length + a.length := by
  cases hint with
  | nd => cases hs
  | oneD => simp [suffixText]; omega
  | twoD r => cases o <;> simp [suffixText, axes2d] <;> omega

theorem suffixText_ascii (o : Order) (hint : ShapeHint) {a : Text} (ha : ∀ c ∈ a, c.toNat < 128) :
    ∀ c ∈ suffixText o hint a, c.toNat < 128 := by
  have h2 : ∀ c ∈ txt "), }", c.toNat < 128 := by decide +kernel
  have h3 : ∀ c ∈ txt ", ", c.toNat < 128 := by decide +kernel
  have h6 : ∀ c ∈ txt ",), }", c.toNat < 128 := by decide +kernel
  intro c hc
  cases hint with
  | nd => cases hc
  | oneD =>
    simp only [suffixText, List.mem_append] at hc
    rcases hc with hc | hc
    · exact ha c hc
    · exact h6 c hc
  | twoD r =>
    have hr := toDigits_lt_128 r
    cases o <;> simp only [suffixText, axes2d, List.mem_append] at hc
    · rcases hc with ((hc | hc) | hc) | hc
      · exact ha c hc
      · exact h3 c hc
      · exact hr c hc
      · exact h2 c hc
    · rcases hc with ((hc | hc) | hc) | hc
      · exact hr c hc
      · exact h3 c hc
      · exact ha c hc
      · exact h2 c hc

/-- The text after finishing. -/
def finishedSuffix (o : Order) (hint : ShapeHint) (m : Nat) : Text :=
  suffixText o hint (Nat.toDigits 10 m) ++ List.replicate (20 - (Nat.toDigits 10 m).length) ' '

def finishedText (d : DType) (o : Order) (hint : ShapeHint) (m : Nat) : Text := dictPrefix d o ++ finishedSuffix o hint m

theorem finishedSuffix_ascii (o : Order) (hint : ShapeHint) (m : Nat) : ∀ c ∈ finishedSuffix o hint m, c.toNat < 128 := by
  intro c hc
  simp only [finishedSuffix, List.mem_append, List.mem_replicate] at hc
  rcases hc with hc | ⟨-, rfl⟩
  · exact suffixText_ascii o hint (toDigits_lt_128 m) c hc
  · decide

theorem filler_ascii : ∀ c ∈ filler, c.toNat < 128 := by decide +kernel

theorem placeholder_ascii (o : Order) (hint : ShapeHint) : ∀ c ∈ placeholder o hint, c.toNat < 128 := by
  rw [← suffixText_filler]
  exact suffixText_ascii o hint filler_ascii

theorem finishedSuffix_length {o : Order} {hint : ShapeHint} {m : Nat} (hs : hint.seeks = true) (hm : m < 2 ^ 64) :
    (finishedSuffix o hint m).length = (placeholder o hint).length := by
  rw [← suffixText_filler]
  have h1 := suffixText_length o hint (Nat.toDigits 10 m) filler hs
  have h2 := toDigits_length_le hm
  have h3 : filler.length = 20 := by simp [filler]
  simp only [finishedSuffix, List.length_append, List.length_replicate]
  omega

theorem lit_suffix {d : DType} (hn : d.NotArray) (o : Order) {hint : ShapeHint} (hs : hint.seeks = true) (n : Nat) :
    Lit (dictPrefix d o ++ suffixText o hint (Nat.toDigits 10 (axisOf n hint)))
      (.dict (headerDict d o ((finalShape o n hint).map fun n : Nat => PyVal.int n))) := by
  cases hint with
  | nd => cases hs
  | oneD =>
    have := lit_header hn o (items_cons 0 (.inl rfl) (lit_nat n) (items_nil ')' (by decide)))
    simpa [txt, suffixText, axisOf, finalShape] using this
  | twoD r =>
    cases o
    · have := lit_header hn .c (items_cons_cons_last 1 (.inl rfl) (lit_nat (n / r)) (lit_nat r))
      simpa [txt, suffixText, axisOf, finalShape, axes2d] using this
    · have := lit_header hn .fortran (items_cons_cons_last 1 (.inl rfl) (lit_nat r) (lit_nat (n / r)))
      simpa [txt, suffixText, axisOf, finalShape, axes2d] using this

/-! ### Headers whose last part is replaced -/

theorem encodeUtf8_length_ascii {x : Text} (hx : ∀ c ∈ x, c.toNat < 128) : (encodeUtf8 x).length = x.length := by
  rw [encodeUtf8_ascii hx]; simp

theorem encodeUtf8_any_ascii {p x : Text} (hx : ∀ c ∈ x, c.toNat < 128) :
    (encodeUtf8 (p ++ x)).any (fun b => decide (b.toNat ≥ 128)) = (encodeUtf8 p).any (fun b => decide (b.toNat ≥ 128)) := by
  rw [encodeUtf8_append, List.any_append]
  have : (encodeUtf8 x).any (fun b => decide (b.toNat ≥ 128)) = false := by
    cases h : (encodeUtf8 x).any (fun b => decide (b.toNat ≥ 128)) with
    | false => rfl
    | true =>
      obtain ⟨c, hc, h⟩ := (encodeUtf8_any_high x).mp h
      have := hx c hc
      omega
  rw [this, Bool.or_false]

theorem requiredProps_congr {p x y : Text} (hx : ∀ c ∈ x, c.toNat < 128) (hy : ∀ c ∈ y, c.toNat < 128) (hl : x.length = y.length) :
    requiredProps (encodeUtf8 (p ++ x)) = requiredProps (encodeUtf8 (p ++ y)) := by
  unfold requiredProps
  rw [encodeUtf8_any_ascii hx, encodeUtf8_any_ascii hy]
  have : (encodeUtf8 (p ++ x)).length = (encodeUtf8 (p ++ y)).length := by
    simp [encodeUtf8_length_ascii hx, encodeUtf8_length_ascii hy, hl]
  rw [this]

theorem usedProps_congr {p x y : Text} (hx : ∀ c ∈ x, c.toNat < 128) (hy : ∀ c ∈ y, c.toNat < 128) (hl : x.length = y.length) :
    usedProps (encodeUtf8 (p ++ x)) = usedProps (encodeUtf8 (p ++ y)) := by
  unfold usedProps
  rw [requiredProps_congr hx hy hl]

theorem headerText_congr {p x y : Text} (hx : ∀ c ∈ x, c.toNat < 128) (hy : ∀ c ∈ y, c.toNat < 128) (hl : x.length = y.length) :
    (headerText (p ++ x)).length = (headerText (p ++ y)).length := by
  rw [headerText_length, headerText_length, usedProps_congr hx hy hl]
  have : (encodeUtf8 (p ++ x)).length = (encodeUtf8 (p ++ y)).length := by
    simp [encodeUtf8_length_ascii hx, encodeUtf8_length_ascii hy, hl]
  rw [this]

/-- Headers of texts with a common prefix differ only in the rest of the text. -/
theorem headerBytes_split {p x y : Text} (hx : ∀ c ∈ x, c.toNat < 128) (hy : ∀ c ∈ y, c.toNat < 128) (hl : x.length = y.length) :
    ∃ A C, A.length = (usedProps (encodeUtf8 (p ++ x))).bytesBeforeText + (encodeUtf8 p).length ∧
      headerBytes (p ++ x) = A ++ encodeUtf8 x ++ C ∧ headerBytes (p ++ y) = A ++ encodeUtf8 y ++ C := by
  refine ⟨magic ++ [(getMinimalVersion (requiredProps (encodeUtf8 (p ++ x)))).1, (getMinimalVersion (requiredProps (encodeUtf8 (p ++ x)))).2]
    ++ leBytes (usedProps (encodeUtf8 (p ++ x))).width (headerText (p ++ x)).length ++ encodeUtf8 p,
    List.replicate (64 - 1 - ((encodeUtf8 (p ++ x)).length + (usedProps (encodeUtf8 (p ++ x))).bytesBeforeText) % 64) 32 ++ [10], ?_, ?_, ?_⟩
  · simp [magic, leBytes_length, bytesBeforeText_eq]; omega
  · simp [headerBytes, emitHeader, headerText, padHeader]
  · have hlen : (encodeUtf8 (p ++ x)).length = (encodeUtf8 (p ++ y)).length := by
      simp [encodeUtf8_length_ascii hx, encodeUtf8_length_ascii hy, hl]
    rw [requiredProps_congr hx hy hl, usedProps_congr hx hy hl, headerText_congr hx hy hl, hlen]
    simp [headerBytes, emitHeader, headerText, padHeader]

/-- Reading any header of the crate's form. -/
theorem run_headerBytes_any {M : Machine} {py : PyParser} {dict : Text}
    (hlen : (headerText dict).length ≤ (usedProps (encodeUtf8 dict)).maxLen)
    (ha : (headerText dict).length ≤ M.isizeMax) :
    ∃ n, ∀ rest, (NpyHeader.fromReader M py).run (headerBytes dict ++ rest) =
      (parseResult (py (dict ++ List.replicate n ' ')) >>= interpretHeader M, rest) := by
  have hfit : (headerText dict).length < 256 ^ (usedProps (encodeUtf8 dict)).width := by
    have : 0 < 256 ^ (usedProps (encodeUtf8 dict)).width := Nat.pow_pos (by omega)
    simp only [VersionProps.maxLen] at hlen
    omega
  obtain ⟨n, hn⟩ := headerText_eq dict
  refine ⟨n, fun rest => ?_⟩
  unfold headerBytes emitHeader
  rw [fromReader_run (usedProps_version _) (leBytes_length _ _) (leNat_leBytes hfit) (if_pos ha), finishHeader, hn,
    parseHeaderText_append]

/-- A header that is cut off cannot be read. -/
theorem run_headerBytes_cut {M : Machine} {py : PyParser} {dict : Text}
    (hlen : (headerText dict).length ≤ (usedProps (encodeUtf8 dict)).maxLen)
    (ha : (headerText dict).length ≤ M.isizeMax) {n : Nat} (hn : n < (headerBytes dict).length) :
    ∃ e, ((NpyHeader.fromReader M py).run ((headerBytes dict).take n)).1 = .err e := by
  have hfit : (headerText dict).length < 256 ^ (usedProps (encodeUtf8 dict)).width := by
    have : 0 < 256 ^ (usedProps (encodeUtf8 dict)).width := Nat.pow_pos (by omega)
    simp only [VersionProps.maxLen] at hlen
    omega
  have hB : (headerBytes dict).length = 8 + (usedProps (encodeUtf8 dict)).width + (headerText dict).length := by
    simp [headerBytes, emitHeader, magic, leBytes_length]; omega
  have hH : headerBytes dict = magic ++ [(getMinimalVersion (requiredProps (encodeUtf8 dict))).1, (getMinimalVersion (requiredProps (encodeUtf8 dict))).2]
    ++ leBytes (usedProps (encodeUtf8 dict)).width (headerText dict).length ++ headerText dict := rfl
  -- the version and length field of a long enough prefix
  have hver : ∀ maj min r, (headerBytes dict).take n = magic ++ [maj, min] ++ r →
      getVersionProps maj min = .ok (usedProps (encodeUtf8 dict)) ∧
      r = (leBytes (usedProps (encodeUtf8 dict)).width (headerText dict).length ++ headerText dict).take (n - 8) := by
    intro maj min r h
    have hn8 : 8 ≤ n := by
      have := congrArg List.length h
      rw [List.length_take] at this
      simp [magic] at this; omega
    rw [hH, List.append_assoc, List.take_append, List.take_of_length_le (by simp [magic]; omega)] at h
    have := List.append_inj h (by simp [magic])
    have h1 := List.append_inj this.1 rfl
    simp only [List.cons.injEq, and_true] at h1
    refine ⟨?_, ?_⟩
    · rw [← h1.2.1, ← h1.2.2]; exact usedProps_version _
    · rw [← this.2]; simp [magic]
  have hwid : 0 < (usedProps (encodeUtf8 dict)).width := by
    unfold VersionProps.width; split <;> decide
  have hszb : ∀ szb r : Bytes, szb.length = (usedProps (encodeUtf8 dict)).width →
      szb ++ r = (leBytes (usedProps (encodeUtf8 dict)).width (headerText dict).length ++ headerText dict).take (n - 8) →
      leNat szb = (headerText dict).length ∧ r.length < (headerText dict).length := by
    intro szb r hw h
    have hl := congrArg List.length h
    simp [leBytes_length] at hl
    have h2 := congrArg (List.take (usedProps (encodeUtf8 dict)).width) h
    rw [List.take_left' hw, List.take_take, Nat.min_eq_left (by omega), List.take_left' (leBytes_length _ _)] at h2
    exact ⟨by rw [h2, leNat_leBytes hfit], by omega⟩
  rcases fromReader_cases M py ((headerBytes dict).take n) with ⟨_, h⟩ | ⟨maj, min, r, hb, e, -, h⟩ | ⟨maj, min, p, r, hb, hp, hlt, h⟩ |
    ⟨maj, min, p, szb, r, hb, hp, hw, hal, h⟩ | ⟨maj, min, p, szb, r, hb, hp, hw, hal, hlt, h⟩ | ⟨maj, min, p, szb, text, rest, hb, hp, hw, hs, hal, h⟩
  · exact ⟨_, h⟩
  · exact ⟨_, h⟩
  · exact ⟨_, h⟩
  · exfalso
    obtain ⟨h1, h2⟩ := hver maj min (szb ++ r) (by rw [hb]; simp)
    rw [h1] at hp; cases hp
    obtain ⟨h3, h4⟩ := hszb szb r hw h2
    rw [h3, show M.allocBytes (headerText dict).length = .ok () from if_pos ha] at hal
    cases hal
  · exact ⟨_, h⟩
  · exfalso
    obtain ⟨h1, h2⟩ := hver maj min (szb ++ (text ++ rest)) (by rw [hb]; simp)
    rw [h1] at hp; cases hp
    obtain ⟨h3, h4⟩ := hszb szb _ hw h2
    simp at h4; omega

/-! ### Starting -/

/-- What is remembered about the shape. -/
def InfoFor (M : Machine) (d : DType) (o : Order) (hint : ShapeHint) (info : ShapeInfo) : Prop :=
  match hint with
  | .nd dims => ∃ n, shapeProduct M 1 dims = .ok n ∧ info = .known n
  | .oneD => info = .auto1 (encodeUtf8 (dictPrefix d o)).length
  | .twoD r => info = .auto2 (encodeUtf8 (dictPrefix d o)).length r o

theorem createDict_info {M : Machine} {d : DType} {o : Order} {hint : ShapeHint} {dict : Text} {info : ShapeInfo}
    (h : createDict M d o hint = .ok (dict, info)) : InfoFor M d o hint info := by
  cases hint with
  | nd dims =>
    simp only [createDict, Out.bind_eq_ok] at h
    obtain ⟨n, hn, h⟩ := h
    cases h
    exact ⟨n, hn, rfl⟩
  | oneD =>
    simp only [createDict, Out.bind_eq_ok] at h
    obtain ⟨n, hn, h⟩ := h
    cases h; rfl
  | twoD r =>
    simp only [createDict, Out.bind_eq_ok] at h
    obtain ⟨n, hn, h⟩ := h
    cases h; rfl

/-- The state of a writer for a file that starts at `start`. -/
structure Begun (M : Machine) {V : Type} (d : DType) (o : Order) (hint : ShapeHint) (start : Nat) (w : NpyWriter V) : Prop where
  isArray : d.isArray = false
  hdrFits : (headerText (dictText d o hint)).length ≤ (usedProps (encodeUtf8 (dictText d o hint))).maxLen
  info : InfoFor M d o hint w.info
  props : w.props = usedProps (encodeUtf8 (dictText d o hint))
  startPos : hint.seeks = true → w.startPos = some start

/-- The state of a writer of an element type of the library. -/
structure Started (M : Machine) {t : Ty} (d : DType) (o : Order) (hint : ShapeHint) (start : Nat) (w : NpyWriter t.Val) : Prop
    extends Begun M d o hint start w where
  prog : t.writer M d = .ok w.prog

theorem exec_startPosition {hint : ShapeHint} (s : Sink) : (startPosition hint).exec s =
    if hint.seeks = true then (if s.seekable = true then (.ok (some s.pos), s) else (.panic, s)) else (.ok none, s) := by
  unfold startPosition
  by_cases h : hint.seeks = true
  · rw [if_pos h, if_pos h]
    by_cases hs : s.seekable = true
    · rw [if_pos hs]
      show (WProg.tell _).exec s = _
      rw [WProg.exec, if_pos hs]; rfl
    · rw [if_neg hs]
      show (WProg.tell _).exec s = _
      rw [WProg.exec, if_neg hs]
  · rw [if_neg h, if_neg h]; rfl

theorem beginWith_ok {M : Machine} {V : Type} {writer : DType → DRes (V → WProg Unit)} {d : DType} {o : Order} {hint : ShapeHint}
    {s s' : Sink} {w : NpyWriter V} (h : (NpyWriter.beginWith M writer d o hint).exec s = (.ok w, s')) :
    (Begun M d o hint s.pos w ∧ writer d = .ok w.prog) ∧ w.numItems = 0 ∧ (hint.seeks = true → s.seekable = true) ∧
      s' = s.put (headerBytes (dictText d o hint)) := by
  unfold NpyWriter.beginWith at h
  obtain ⟨st, s1, h1, h⟩ := WProg.exec_bind_ok.mp h
  obtain ⟨r, s2, h2, h⟩ := WProg.exec_bind_ok.mp h
  obtain ⟨p, s3, h3, h⟩ := WProg.exec_bind_ok.mp h
  rw [exec_startPosition] at h1
  have hst : s1 = s ∧ (hint.seeks = true → s.seekable = true ∧ st = some s.pos) := by
    by_cases hh : hint.seeks = true
    · rw [if_pos hh] at h1
      by_cases hk : s.seekable = true
      · rw [if_pos hk] at h1
        cases h1
        exact ⟨rfl, fun _ => ⟨hk, rfl⟩⟩
      · rw [if_neg hk] at h1; cases h1
    · rw [if_neg hh] at h1
      cases h1
      exact ⟨rfl, fun h => absurd h hh⟩
  obtain ⟨rfl, hst⟩ := hst
  obtain ⟨ha, hc, hpr, hl, rfl⟩ := exec_writeHeader_ok h2
  rw [WProg.exec_lift] at h3
  obtain ⟨h3, rfl⟩ := Prod.mk.inj h3
  rw [WProg.exec_pure] at h
  obtain ⟨h, rfl⟩ := Prod.mk.inj h
  cases h
  refine ⟨⟨⟨ha, hl, createDict_info hc, hpr, fun hh => (hst hh).2⟩, ?_⟩, rfl, fun hh => (hst hh).1, rfl⟩
  cases hw : writer d with
  | ok w => rw [hw] at h3; cases h3; rfl
  | err e => rw [hw] at h3; cases h3
  | panic => rw [hw] at h3; cases h3

theorem begin_ok {M : Machine} {t : Ty} {d : DType} {o : Order} {hint : ShapeHint} {s s' : Sink} {w : NpyWriter t.Val}
    (h : (NpyWriter.begin M t d o hint).exec s = (.ok w, s')) :
    Started M d o hint s.pos w ∧ w.numItems = 0 ∧ (hint.seeks = true → s.seekable = true) ∧
      s' = s.put (headerBytes (dictText d o hint)) := by
  obtain ⟨⟨h1, h2⟩, h3⟩ := beginWith_ok h
  exact ⟨⟨h1, h2⟩, h3⟩

/-! ### Pushing -/

theorem counted_ok {M : Machine} {V : Type} {w : NpyWriter V} (h : w.numItems + 1 < 2 ^ 64) :
    w.counted M = .ok { w with numItems := w.numItems + 1 } := by
  unfold NpyWriter.counted
  rw [addU64_ok h]; rfl

/-- What `write_one` does for each value: it writes the bytes `enc v` of one item and succeeds, or (when there
are none) writes something and fails. -/
def WritesAll {V : Type} (prog : V → WProg Unit) (size : Nat) (enc : V → Option Bytes) : Prop :=
  ∀ v, match enc v with
    | some bs => bs.length = size ∧ (prog v).Emits bs (.ok ())
    | none => ∃ bs e, (prog v).Emits bs (.err e)

/-- The element types of the library. -/
theorem writer_writesAll {M : Machine} {t : Ty} {d : DType} {n : Nat} {prog : t.Val → WProg Unit} (hw : t.writer M d = .ok prog) (hd : d.Wf)
    (hn : exactBytes d = some n) (hm : n ≤ M.isizeMax) : WritesAll prog n (encode t d) := by
  intro v
  have h := writer_writes t hw hd hn hm v
  cases he : encode t d v with
  | none =>
    rw [he] at h
    obtain ⟨b, why, -, hx⟩ := h
    exact ⟨b, _, hx⟩
  | some b => rw [he] at h; exact h

/-- One push: what is written, and whether it succeeds. -/
theorem pushW {M : Machine} {V : Type} {size : Nat} {enc : V → Option Bytes} {w : NpyWriter V} (hw : WritesAll w.prog size enc)
    (hc : w.numItems + 1 < 2 ^ 64) (v : V) (s : Sink) :
    ∃ bs r, w.push M solid v s = (r, { w with numItems := w.numItems + 1 }, s.put bs) ∧
      ((enc v = some bs ∧ r = .ok () ∧ bs.length = size) ∨ (enc v = none ∧ ∃ e, r = .err e)) := by
  unfold NpyWriter.push
  rw [counted_ok hc]
  have hwr := hw v
  simp only [solid]
  cases he : enc v with
  | none =>
    rw [he] at hwr
    obtain ⟨b, e, hx⟩ := hwr
    rw [hx.exec]
    exact ⟨b, _, rfl, .inr ⟨rfl, e, rfl⟩⟩
  | some b =>
    rw [he] at hwr
    obtain ⟨hl, hx⟩ := hwr
    rw [hx.exec]
    exact ⟨b, _, rfl, .inl ⟨rfl, rfl, hl⟩⟩

theorem pushAllW {M : Machine} {V : Type} {size : Nat} {enc : V → Option Bytes}
    (vs : List V) (w : NpyWriter V) (hw : WritesAll w.prog size enc) (hc : w.numItems + vs.length < 2 ^ 64) (s : Sink) :
    ∃ bs, (w.pushAll M solid vs s).2 = ({ w with numItems := w.numItems + vs.length }, s.put bs) ∧
      (w.pushAll M solid vs s).1.length = vs.length ∧
      (∀ i (h : i < vs.length), (w.pushAll M solid vs s).1[i]? = some (.ok ()) ↔ (enc vs[i]).isSome = true) ∧
      (∀ i : Nat, (w.pushAll M solid vs s).1[i]? ≠ some Out.panic) ∧
      (∀ data, encodeAll enc vs = some data → bs = data) := by
  induction vs generalizing w s with
  | nil =>
    refine ⟨[], by simp [NpyWriter.pushAll, Sink.put_nil], rfl, by simp, by simp [NpyWriter.pushAll], ?_⟩
    intro data h; cases h; rfl
  | cons v vs ih =>
    have hc' : w.numItems + (vs.length + 1) < 2 ^ 64 := hc
    obtain ⟨b, r, hp, hr⟩ := pushW (M := M) hw (by omega) v s
    obtain ⟨bs, h1, h2, h3, h4, h5⟩ := ih { w with numItems := w.numItems + 1 } hw (by simp only; omega) (s.put b)
    simp only [NpyWriter.pushAll, hp]
    refine ⟨b ++ bs, ?_, ?_, ?_, ?_, ?_⟩
    · rw [h1, Sink.put_put]
      simp only [List.length_cons]
      congr 2
      omega
    · simp [h2]
    · intro i hi
      cases i with
      | zero =>
        simp only [List.getElem?_cons_zero, List.getElem_cons_zero, Option.some.injEq]
        rcases hr with ⟨he, rfl, -⟩ | ⟨he, why, rfl⟩
        · simp [he]
        · simp [he]
      | succ i => simpa using h3 i (by simpa using hi)
    · intro i
      cases i with
      | zero =>
        simp only [List.getElem?_cons_zero, ne_eq, Option.some.injEq]
        rcases hr with ⟨he, rfl, -⟩ | ⟨he, why, rfl⟩ <;> simp
      | succ i => simpa using h4 i
    · intro data h
      simp only [encodeAll] at h
      cases he : enc v with
      | none => rw [he] at h; cases h
      | some b' =>
        cases hes : encodeAll enc vs with
        | none => rw [he, hes] at h; cases h
        | some bs' =>
          rw [he, hes] at h
          cases h
          rcases hr with ⟨he', -, -⟩ | ⟨he', -⟩
          · rw [he] at he'; cases he'
            rw [h5 bs' hes]
          · rw [he] at he'; cases he'

theorem extendW {M : Machine} {V : Type} {size : Nat} {enc : V → Option Bytes}
    (vs : List V) (w : NpyWriter V) (hw : WritesAll w.prog size enc) (hc : w.numItems + vs.length < 2 ^ 64) (s : Sink) {data : Bytes}
    (he : encodeAll enc vs = some data) :
    w.extend M solid vs s = (.ok (), { w with numItems := w.numItems + vs.length }, s.put data) := by
  induction vs generalizing w s data with
  | nil => cases he; simp [NpyWriter.extend, Sink.put_nil]
  | cons v vs ih =>
    have hc' : w.numItems + (vs.length + 1) < 2 ^ 64 := hc
    obtain ⟨b, r, hp, hr⟩ := pushW (M := M) hw (by omega) v s
    simp only [encodeAll] at he
    cases hev : enc v with
    | none => rw [hev] at he; cases he
    | some b' =>
      cases hes : encodeAll enc vs with
      | none => rw [hev, hes] at he; cases he
      | some bs' =>
        rw [hev, hes] at he
        cases he
        rcases hr with ⟨he', rfl, -⟩ | ⟨he', -⟩
        · rw [hev] at he'; cases he'
          unfold NpyWriter.extend
          rw [hp]
          simp only
          rw [ih { w with numItems := w.numItems + 1 } hw (by simp only; omega) _ hes, Sink.put_put]
          simp only [List.length_cons]
          congr 3
          omega
        · rw [hev] at he'; cases he'

/-- One push: what is written, and whether it succeeds. -/
theorem push_solid {M : Machine} {t : Ty} {d : DType} {n : Nat} {w : NpyWriter t.Val} (hw : t.writer M d = .ok w.prog) (hd : d.Wf)
    (hn : exactBytes d = some n) (hm : n ≤ M.isizeMax) (hc : w.numItems + 1 < 2 ^ 64) (v : t.Val) (s : Sink) :
    ∃ bs r, w.push M solid v s = (r, { w with numItems := w.numItems + 1 }, s.put bs) ∧
      ((encode t d v = some bs ∧ r = .ok () ∧ bs.length = n) ∨ (encode t d v = none ∧ ∃ why, r = .err (.invalidData why))) := by
  unfold NpyWriter.push
  rw [counted_ok hc]
  have hwr := writer_writes t hw hd hn hm v
  simp only [solid]
  cases he : encode t d v with
  | none =>
    rw [he] at hwr
    obtain ⟨b, why, -, hx⟩ := hwr
    rw [hx.exec]
    exact ⟨b, _, rfl, .inr ⟨rfl, why, rfl⟩⟩
  | some b =>
    rw [he] at hwr
    obtain ⟨hl, hx⟩ := hwr
    rw [hx.exec]
    exact ⟨b, _, rfl, .inl ⟨rfl, rfl, hl⟩⟩

theorem pushAll_solid {M : Machine} {t : Ty} {d : DType} {n : Nat} (hd : d.Wf) (hn : exactBytes d = some n) (hm : n ≤ M.isizeMax)
    (vs : List t.Val) (w : NpyWriter t.Val) (hw : t.writer M d = .ok w.prog) (hc : w.numItems + vs.length < 2 ^ 64) (s : Sink) :
    ∃ bs, (w.pushAll M solid vs s).2 = ({ w with numItems := w.numItems + vs.length }, s.put bs) ∧
      (w.pushAll M solid vs s).1.length = vs.length ∧
      (∀ i (h : i < vs.length), (w.pushAll M solid vs s).1[i]? = some (.ok ()) ↔ (encode t d vs[i]).isSome = true) ∧
      (∀ i : Nat, (w.pushAll M solid vs s).1[i]? ≠ some Out.panic) ∧
      (∀ data, encodeAll (encode t d) vs = some data → bs = data) :=
  pushAllW vs w (writer_writesAll hw hd hn hm) hc s

theorem extend_solid {M : Machine} {t : Ty} {d : DType} {n : Nat} (hd : d.Wf) (hn : exactBytes d = some n) (hm : n ≤ M.isizeMax)
    (vs : List t.Val) (w : NpyWriter t.Val) (hw : t.writer M d = .ok w.prog) (hc : w.numItems + vs.length < 2 ^ 64) (s : Sink) {data : Bytes}
    (he : encodeAll (encode t d) vs = some data) :
    w.extend M solid vs s = (.ok (), { w with numItems := w.numItems + vs.length }, s.put data) :=
  extendW vs w (writer_writesAll hw hd hn hm) hc s he

/-! ### Finishing -/

theorem exec_rewrite {M : Machine} {V : Type} {w : NpyWriter V} {p offset : Nat} {text : Text} {s : Sink} (hk : s.seekable = true)
    (hp : w.startPos = some p) (hlt : p + w.props.bytesBeforeText + offset < 2 ^ 64) (hne : encodeUtf8 text ≠ []) :
    (w.rewrite M offset (.ok text)).exec s =
      (.ok (), { s with data := overwrite s.data (p + w.props.bytesBeforeText + offset) (encodeUtf8 text) }) := by
  unfold NpyWriter.rewrite NpyWriter.unwrapStart
  rw [hp]
  rw [WProg.exec_bind_of_ok (WProg.exec_lift _ _), addU64_ok (by omega), WProg.exec_bind_of_ok (WProg.exec_lift _ _), addU64_ok hlt,
    WProg.exec_bind_of_ok (WProg.exec_lift _ _)]
  have h1 : WProg.position.exec s = (.ok s.pos, s) := by
    unfold WProg.position; rw [WProg.exec, if_pos hk]; rfl
  have h2 : ∀ (q : Nat) (s : Sink), s.seekable = true → (WProg.seekTo q).exec s = (.ok (), { s with pos := q }) := by
    intro q s hk
    unfold WProg.seekTo; rw [WProg.exec, if_pos hk]; rfl
  rw [WProg.exec_bind_of_ok h1, WProg.exec_bind_of_ok (h2 _ _ hk), WProg.exec_bind_of_ok (WProg.exec_lift _ _),
    WProg.exec_bind_of_ok (WProg.exec_put _ _), h2 _ _ (by simp [hk])]
  unfold Sink.put
  rw [if_neg hne]

theorem exec_flush {p : WProg Unit} {s : Sink} {r : Res Unit} {s' : Sink} (h : p.exec s = (r, s')) :
    (p >>= fun _ => WProg.flushAll).exec s = (r, s') := by
  rcases r with ⟨⟩ | e | _
  · rw [WProg.exec_bind_of_ok h]; rfl
  · rw [WProg.exec_bind_of_err h]
  · rw [WProg.exec_bind_of_panic h]

theorem headerBytes_ne_nil (dict : Text) : headerBytes dict ≠ [] := by
  intro h
  have := congrArg List.length h
  rw [headerBytes_length, bytesBeforeText_eq] at this
  simp at this

theorem placeholder_ne_nil {o : Order} {hint : ShapeHint} (hs : hint.seeks = true) : placeholder o hint ≠ [] := by
  intro h
  have := suffixText_length o hint filler [] hs
  rw [suffixText_filler, h] at this
  simp [filler] at this

/-- The finished header has the length of the one with the placeholder. -/
theorem finished_length {d : DType} {o : Order} {hint : ShapeHint} {m : Nat} (hs : hint.seeks = true) (hm : m < 2 ^ 64) :
    (headerBytes (finishedText d o hint m)).length = (headerBytes (dictText d o hint)).length := by
  rw [dictText_suffix hs, suffixText_filler]
  obtain ⟨A, C, -, h1, h2⟩ := headerBytes_split (p := dictPrefix d o) (finishedSuffix_ascii o hint m) (placeholder_ascii o hint)
    (finishedSuffix_length hs hm)
  unfold finishedText
  rw [h1, h2]
  simp [encodeUtf8_length_ascii (finishedSuffix_ascii o hint m), encodeUtf8_length_ascii (placeholder_ascii o hint),
    finishedSuffix_length (o := o) hs hm]

/-- `rewrite` completes the header, whatever follows it. -/
theorem exec_rewrite_header {M : Machine} {V : Type} {d : DType} {o : Order} {hint : ShapeHint} {w : NpyWriter V} {s : Sink} {m : Nat}
    (hs : hint.seeks = true) (hk : s.seekable = true) (hst : Begun M d o hint s.pos w)
    (hlt : s.pos + (headerBytes (dictText d o hint)).length ≤ 2 ^ 64) (hm : m < 2 ^ 64) (data : Bytes) :
    (w.rewrite M (encodeUtf8 (dictPrefix d o)).length (.ok (finishedSuffix o hint m))).exec (s.put (headerBytes (dictText d o hint) ++ data)) =
      (.ok (), s.put (headerBytes (finishedText d o hint m) ++ data)) := by
  have hfl := finished_length (d := d) (o := o) (m := m) hs hm
  obtain ⟨A, C, hA, h1, h2⟩ := headerBytes_split (p := dictPrefix d o) (placeholder_ascii o hint) (finishedSuffix_ascii o hint m)
    (finishedSuffix_length hs hm).symm
  have hd : dictText d o hint = dictPrefix d o ++ placeholder o hint := by rw [dictText_suffix hs, suffixText_filler]
  have hel : (encodeUtf8 (finishedSuffix o hint m)).length = (encodeUtf8 (placeholder o hint)).length := by
    rw [encodeUtf8_length_ascii (finishedSuffix_ascii o hint m), encodeUtf8_length_ascii (placeholder_ascii o hint),
      finishedSuffix_length hs hm]
  have hpne : encodeUtf8 (placeholder o hint) ≠ [] := by
    intro h
    have := congrArg List.length h
    rw [encodeUtf8_length_ascii (placeholder_ascii o hint)] at this
    exact placeholder_ne_nil hs (List.length_eq_zero_iff.mp this)
  have hfne : encodeUtf8 (finishedSuffix o hint m) ≠ [] := by
    intro h
    rw [h] at hel
    exact hpne (List.length_eq_zero_iff.mp hel.symm)
  have hH : (headerBytes (dictText d o hint)).length = A.length + (encodeUtf8 (placeholder o hint)).length + C.length := by
    rw [hd, h1]; simp; omega
  have hpos : 0 < (encodeUtf8 (placeholder o hint)).length := List.length_pos_iff.mpr hpne
  have hpr : w.props.bytesBeforeText + (encodeUtf8 (dictPrefix d o)).length = A.length := by
    rw [hst.props, hA, hd]
  rw [exec_rewrite (by simp [hk]) (hst.startPos hs) (by omega) hfne, Nat.add_assoc, hpr]
  have e := overwrite_put s A (encodeUtf8 (placeholder o hint)) (encodeUtf8 (finishedSuffix o hint m)) (C ++ data) hel hpne
  have e1 : headerBytes (dictText d o hint) ++ data = A ++ encodeUtf8 (placeholder o hint) ++ (C ++ data) := by rw [hd, h1]; simp
  have e2 : headerBytes (finishedText d o hint m) ++ data = A ++ encodeUtf8 (finishedSuffix o hint m) ++ (C ++ data) := by
    unfold finishedText; rw [h2]; simp
  rw [e1, e2, e]
  congr 1
  have : (s.put (A ++ encodeUtf8 (placeholder o hint) ++ (C ++ data))).pos = (s.put (A ++ encodeUtf8 (finishedSuffix o hint m) ++ (C ++ data))).pos := by
    simp [hel]
  rw [this]
  generalize hx : s.put (A ++ encodeUtf8 (finishedSuffix o hint m) ++ (C ++ data)) = x
  have hk2 : (s.put (A ++ encodeUtf8 (placeholder o hint) ++ (C ++ data))).seekable = x.seekable := by rw [← hx]; simp
  rw [hk2]

/-- `finish_` on a `begin_1d`/`begin_2d` file, when the count is right. -/
theorem exec_finish_ok {M : Machine} {V : Type} {d : DType} {o : Order} {hint : ShapeHint} {w : NpyWriter V} {s : Sink}
    (hs : hint.seeks = true) (hk : s.seekable = true) (hst : Begun M d o hint s.pos w)
    (hlt : s.pos + (headerBytes (dictText d o hint)).length ≤ 2 ^ 64) (hn : w.numItems < 2 ^ 64) (hz : hint ≠ .twoD 0)
    (hc : CountFits w.numItems hint) (data : Bytes) :
    (w.finish_ M).exec (s.put (headerBytes (dictText d o hint) ++ data)) =
      (.ok (), s.put (headerBytes (finishedText d o hint (axisOf w.numItems hint)) ++ data)) := by
  have hax : axisOf w.numItems hint < 2 ^ 64 := by
    cases hint with
    | nd => exact hn
    | oneD => exact hn
    | twoD r => exact Nat.lt_of_le_of_lt (Nat.div_le_self _ _) hn
  have hrw := exec_rewrite_header hs hk hst hlt hax data
  have hle := toDigits_length_le hax
  have hi := hst.info
  unfold NpyWriter.finish_
  apply exec_flush
  unfold NpyWriter.patch
  cases hint with
  | nd => cases hs
  | oneD =>
    have hi : w.info = _ := hi
    rw [hi]
    simp only [shapeSuffix1d]
    rw [show fillerPadding (Nat.toDigits 10 w.numItems).length = _ from fillerPadding_ok hle]
    exact hrw
  | twoD r =>
    have hi : w.info = _ := hi
    have hr : r ≠ 0 := fun h => hz (by rw [h])
    have hdvd : r ∣ w.numItems := hc
    rw [hi]
    simp only [shapeSuffix2d]
    rw [show NpyWriter.rows w.numItems r = .ok (w.numItems / r) by
      unfold NpyWriter.rows
      rw [if_neg hr, if_neg (by simp [Nat.mod_eq_zero_of_dvd hdvd])]]
    rw [WProg.exec_bind_of_ok (WProg.exec_lift _ _)]
    rw [show fillerPadding (Nat.toDigits 10 (w.numItems / r)).length = _ from fillerPadding_ok hle]
    exact hrw

/-- `finish_` on a `begin_2d` file with a wrong count changes nothing. -/
theorem exec_finish_count {M : Machine} {V : Type} {d : DType} {o : Order} {r : Nat} {w : NpyWriter V} (hi : InfoFor M d o (.twoD r) w.info)
    (hr : r ≠ 0) (hc : ¬ r ∣ w.numItems) (s : Sink) :
    (w.finish_ M).exec s = (.err (.invalidData "items not divisible"), s) := by
  have hi : w.info = _ := hi
  unfold NpyWriter.finish_
  apply exec_flush
  unfold NpyWriter.patch
  rw [hi]
  simp only
  apply WProg.exec_bind_of_err
  rw [WProg.exec_lift]
  unfold NpyWriter.rows
  rw [if_neg hr, if_pos fun h => hc (Nat.dvd_of_mod_eq_zero h)]

/-- `finish_` on a `begin_2d(0)` file panics. -/
theorem exec_finish_zero {M : Machine} {V : Type} {d : DType} {o : Order} {w : NpyWriter V} (hi : InfoFor M d o (.twoD 0) w.info) (s : Sink) :
    (w.finish_ M).exec s = (.panic, s) := by
  have hi : w.info = _ := hi
  unfold NpyWriter.finish_
  apply exec_flush
  unfold NpyWriter.patch
  rw [hi]
  simp only
  exact WProg.exec_bind_of_panic rfl

/-- `finish_` on a `begin_nd` file changes nothing. -/
theorem exec_finish_nd {M : Machine} {V : Type} {w : NpyWriter V} {n : Nat} (hi : w.info = .known n) (s : Sink) :
    (w.finish_ M).exec s = (if n = w.numItems then .ok () else .err (.invalidData "wrong number of items"), s) := by
  unfold NpyWriter.finish_
  apply exec_flush
  unfold NpyWriter.patch
  rw [hi]
  simp only
  rw [WProg.exec_lift]
  by_cases h : n = w.numItems
  · rw [if_neg (by simpa using h), if_pos h]
  · rw [if_pos h, if_neg h]

end Npyz
