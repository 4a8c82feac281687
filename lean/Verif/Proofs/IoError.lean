import Verif.Proofs.Shaky
import Verif.Proofs.Torn2
/-! What sessions that meet an I/O error leave behind. -/
namespace Npyz
open Spec Py

/-- A program that only writes, on a stream that may fail. -/
theorem WProg.Emits.shaky {α : Type} {p : WProg α} {bs : Bytes} {r : Res α} (h : p.Emits bs r) (s : Sink) (evs : List RProg.Ev) :
    (∃ evs', p.runSched s evs = (r, s.put bs, evs')) ∨
    (∃ c m evs', m < bs.length ∧ p.runSched s evs = (.err (.source c), s.put (bs.take m), evs')) := by
  induction h generalizing s evs with
  | ret r => exact .inl ⟨evs, by rw [Sink.put_nil]; rfl⟩
  | @write b k bs r h ih =>
    simp only [WProg.runSched]
    rcases WProg.writeLoop_cases evs b s with ⟨evs', h1, -⟩ | ⟨n, c, evs', h1, -, h3, -⟩
    · rw [h1]
      rcases ih (s.put b) evs' with ⟨ev2, h⟩ | ⟨c, m, ev2, h4, h⟩
      · refine .inl ⟨ev2, ?_⟩
        show k.runSched (s.put b) evs' = _
        rw [h, Sink.put_put]
      · refine .inr ⟨c, b.length + m, ev2, by simp; omega, ?_⟩
        show k.runSched (s.put b) evs' = _
        rw [h, Sink.put_put, List.take_length_add_append]
    · rw [h3]
      refine .inr ⟨c, n, evs', by simp; omega, ?_⟩
      rw [List.take_append_of_le_length (by omega)]

namespace NpyWriter

/-- Starting a writer on a stream that may fail. -/
theorem begin_shaky {M : Machine} {V : Type} {wr : DType → DRes (V → WProg Unit)} {d : DType} {o : Order} {hint : ShapeHint} {s s1 : Sink} {w : NpyWriter V}
    (hb : (NpyWriter.beginWith M wr d o hint).exec s = (.ok w, s1)) (evs : List RProg.Ev) :
    (∃ evs', shaky.exec (NpyWriter.beginWith M wr d o hint) (s, evs) = (.ok w, (s1, evs'))) ∨
    (∃ c m evs', m < (headerBytes (dictText d o hint)).length ∧
      shaky.exec (NpyWriter.beginWith M wr d o hint) (s, evs) = (.err (.source c), (s.put ((headerBytes (dictText d o hint)).take m), evs'))) := by
  obtain ⟨-, -, hk, hs1⟩ := beginWith_ok hb
  have key : ∀ st, (beginRest M wr d o hint st).exec s = (.ok w, s1) → (beginRest M wr d o hint st).Emits (headerBytes (dictText d o hint)) (.ok w) := by
    intro st h
    obtain ⟨x, r, hx⟩ := beginRest_straight M wr d o hint st
    have he := hx.exec s
    rw [h, hs1] at he
    obtain rfl := (Prod.mk.inj he).1
    rwa [← Sink.put_inj (Prod.mk.inj he).2] at hx
  show (∃ evs', (NpyWriter.beginWith M wr d o hint).runSched s evs = _) ∨ (∃ c m evs', _ ∧ (NpyWriter.beginWith M wr d o hint).runSched s evs = _)
  by_cases hh : hint.seeks = true
  · rw [begin_seeks hh, WProg.exec, if_pos (hk hh)] at hb
    rw [begin_seeks hh]
    simp only [WProg.runSched, if_pos (hk hh)]
    rcases WProg.opEvent_cases evs with ⟨evs', h1, -⟩ | ⟨c, evs', -, h1, -⟩
    · rw [h1, hs1]
      exact (key _ hb).shaky s evs'
    · rw [h1]
      refine .inr ⟨c, 0, evs', List.length_pos_iff.mpr (headerBytes_ne_nil _), ?_⟩
      rw [List.take_zero, Sink.put_nil]
  · cases hint with
    | nd dims => rw [hs1]; exact (key _ hb).shaky s evs
    | oneD => exact absurd rfl hh
    | twoD r => exact absurd rfl hh

/-- Extending on a stream that may fail: everything is written, or the writer has counted one item more
than have been written completely. -/
theorem extend_shaky_cut {M : Machine} {V : Type} {size : Nat} {enc : V → Option Bytes}
    (vs : List V) (w : NpyWriter V) (hw : WritesAll w.prog size enc) (hc : w.numItems + vs.length < 2 ^ 64) (s : Sink) {items : Bytes}
    (he : encodeAll enc vs = some items) (evs : List RProg.Ev) :
    (∃ evs', w.extend M shaky vs (s, evs) = (.ok (), { w with numItems := w.numItems + vs.length }, (s.put items, evs'))) ∨
    (∃ c k m evs', k < vs.length ∧ m < (k + 1) * size ∧
      w.extend M shaky vs (s, evs) = (.err (.source c), { w with numItems := w.numItems + (k + 1) }, (s.put (items.take m), evs'))) := by
  induction vs generalizing w s items evs with
  | nil => cases he; exact .inl ⟨evs, by simp [NpyWriter.extend, Sink.put_nil]⟩
  | cons v vs ih =>
    have hc' : w.numItems + (vs.length + 1) < 2 ^ 64 := hc
    obtain ⟨b, bs, h1, h2, rfl⟩ := encodeAll_cons he
    have hwr := hw v
    rw [h1] at hwr
    obtain ⟨hbl, hem⟩ := hwr
    have hco : w.counted M = .ok { w with numItems := w.numItems + 1 } := by
      unfold counted; rw [addU64_ok (by omega)]; rfl
    unfold NpyWriter.extend NpyWriter.push
    rw [hco]
    simp only [Npyz.shaky]
    rcases hem.shaky s evs with ⟨ev1, h3⟩ | ⟨c, m, ev1, h3, h4⟩
    · simp only [h3]
      rcases ih { w with numItems := w.numItems + 1 } hw (by simp only; omega) (s.put b) h2 ev1 with ⟨ev2, h⟩ | ⟨c, k, m, ev2, h5, h6, h⟩
      · refine .inl ⟨ev2, ?_⟩
        have h' := h
        simp only [Npyz.shaky] at h'
        rw [h', Sink.put_put, List.length_cons]
        simp only [Nat.add_assoc, Nat.add_comm 1]
      · refine .inr ⟨c, k + 1, b.length + m, ev2, by simp; omega, by rw [Nat.add_mul (k + 1) 1]; omega, ?_⟩
        have h' := h
        simp only [Npyz.shaky] at h'
        rw [h', Sink.put_put, List.take_length_add_append]
        simp only [Nat.add_assoc, Nat.add_comm 1]
    · simp only [h4]
      refine .inr ⟨c, 0, m, ev1, by simp, by omega, ?_⟩
      rw [List.take_append_of_le_length (by omega)]

end NpyWriter

/-! ### Finishing -/

theorem take_over {F P : List α} (hl : F.length = P.length) (n j : Nat) :
    F.take j ++ (F.take n ++ P.drop n).drop j = F.take (max n j) ++ P.drop (max n j) := by
  by_cases hjn : j ≤ n
  · rw [Nat.max_eq_left hjn]
    by_cases hn : n ≤ F.length
    · have h1 : F.take j = (F.take n).take j := by rw [List.take_take, Nat.min_eq_left hjn]
      rw [List.drop_append_of_le_length (by simp; omega), ← List.append_assoc, h1, List.take_append_drop]
    · rw [List.drop_eq_nil_of_le (by omega : P.length ≤ n), List.append_nil, List.take_of_length_le (by omega : F.length ≤ n),
        List.take_append_drop]
  · rw [Nat.max_eq_right (by omega)]
    congr 1
    by_cases hn : n ≤ F.length
    · rw [List.drop_append, List.drop_eq_nil_of_le (by simp; omega), List.nil_append, List.drop_drop, List.length_take, Nat.min_eq_left hn]
      congr 1; omega
    · rw [List.drop_eq_nil_of_le (by omega : P.length ≤ n), List.drop_eq_nil_of_le (by omega : P.length ≤ j)]
      simp; omega

/-- A file of which the header was completed up to some byte. -/
def tornFileBytes (d : DType) (o : Order) (hint : ShapeHint) (m n : Nat) (tail : Bytes) : Bytes :=
  headerBytes (dictPrefix d o ++ tornSuffix o hint m n) ++ tail

/-- Writing part of the completed shape over part of the completed shape. -/
theorem torn_over {d : DType} {o : Order} {hint : ShapeHint} {m : Nat} (hs : hint.seeks = true) (hm : m < 2 ^ 64) (s : Sink) (tail : Bytes) (n j : Nat) :
    overwrite (s.put (tornFileBytes d o hint m n tail)).data
      (s.pos + (usedProps (encodeUtf8 (dictText d o hint))).bytesBeforeText + (encodeUtf8 (dictPrefix d o)).length)
      ((encodeUtf8 (finishedSuffix o hint m)).take j) = (s.put (tornFileBytes d o hint m (max n j) tail)).data := by
  have hd : dictText d o hint = dictPrefix d o ++ placeholder o hint := by rw [dictText_suffix hs, suffixText_filler]
  have hfl := finishedSuffix_length (o := o) hs hm
  have hL1 := encodeUtf8_length_ascii (placeholder_ascii o hint)
  have hL2 := encodeUtf8_length_ascii (finishedSuffix_ascii o hint m)
  have htorn : ∀ n, encodeUtf8 (tornSuffix o hint m n) = (encodeUtf8 (finishedSuffix o hint m)).take n ++ (encodeUtf8 (placeholder o hint)).drop n := by
    intro n
    rw [encodeUtf8_ascii (tornSuffix_ascii o hint m n), encodeUtf8_ascii (finishedSuffix_ascii o hint m), encodeUtf8_ascii (placeholder_ascii o hint)]
    simp [tornSuffix, List.map_take, List.map_drop]
  obtain ⟨A, C, hA, h1, h2⟩ := headerBytes_split (p := dictPrefix d o) (tornSuffix_ascii o hint m n) (tornSuffix_ascii o hint m (max n j))
    (by rw [← tornSuffix_length hs hm, ← tornSuffix_length hs hm])
  have hq : s.pos + (usedProps (encodeUtf8 (dictText d o hint))).bytesBeforeText + (encodeUtf8 (dictPrefix d o)).length = s.pos + A.length := by
    rw [hA, hd, usedProps_congr (placeholder_ascii o hint) (tornSuffix_ascii o hint m n) (tornSuffix_length hs hm n)]; omega
  unfold tornFileBytes
  rw [hq, h1, h2]
  have hT : (encodeUtf8 (tornSuffix o hint m n)).length = (encodeUtf8 (finishedSuffix o hint m)).length := by
    rw [encodeUtf8_length_ascii (tornSuffix_ascii o hint m n), ← tornSuffix_length hs hm, hL2]; omega
  have hmax : encodeUtf8 (tornSuffix o hint m (max n j)) = (encodeUtf8 (finishedSuffix o hint m)).take j ++ (encodeUtf8 (tornSuffix o hint m n)).drop j := by
    rw [htorn, htorn, take_over (by rw [hL2, hL1]; omega)]
  rw [hmax]
  have hne : A ++ encodeUtf8 (tornSuffix o hint m n) ++ C ≠ [] := by rw [← h1]; exact headerBytes_ne_nil _
  generalize encodeUtf8 (tornSuffix o hint m n) = T at hT hne
  generalize encodeUtf8 (finishedSuffix o hint m) = F at hT
  by_cases h0 : T.take j = []
  · have h3 : F.take j = [] := by
      apply List.length_eq_zero_iff.mp
      have := congrArg List.length h0
      simp only [List.length_take, List.length_nil] at this ⊢
      omega
    have h4 : T.drop j = T := by
      have := List.take_append_drop j T
      rw [h0] at this; simpa using this
    rw [h3, h4, overwrite_nil, List.nil_append]
    have hz : A ++ T ++ C ++ tail ≠ [] := fun h => hne (List.append_eq_nil_iff.mp h).1
    rw [Sink.put_data _ hz]
    simp [s.before_length]
  · have e : A ++ T ++ C ++ tail = A ++ T.take j ++ (T.drop j ++ C ++ tail) := by
      conv => lhs; rw [← List.take_append_drop j T]
      simp only [List.append_assoc]
    rw [e, overwrite_put s A _ (F.take j) _ (by rw [List.length_take, List.length_take, hT]) h0]
    simp only [List.append_assoc]

/-- The unfinished file. -/
theorem tornFileBytes_zero {d : DType} {o : Order} {hint : ShapeHint} (hs : hint.seeks = true) (m : Nat) (tail : Bytes) :
    tornFileBytes d o hint m 0 tail = headerBytes (dictText d o hint) ++ tail := by
  have hd : dictText d o hint = dictPrefix d o ++ placeholder o hint := by rw [dictText_suffix hs, suffixText_filler]
  simp [tornFileBytes, tornSuffix, hd]

/-- The program of `finish_`, interrupted or not, started anywhere. -/
theorem rewrite_data {q : Nat} {b : Bytes} {s : Sink} (hk : s.seekable = true) (hq : q ≤ s.data.length) :
    (∀ n, ((WProg.tell fun e => .seek q (.write b (.seek e (.flush (.ret (.ok ())))))).crash n s).data = overwrite s.data q (b.take n)) ∧
    ((WProg.tell fun e => .seek q (.write b (.seek e (.flush (.ret (.ok ())))))).exec s).2.data = overwrite s.data q (b.take b.length) := by
  have hput : ∀ x : Bytes, (Sink.put { s with pos := q } x).data = overwrite s.data q x := by
    intro x
    by_cases hx : x = []
    · subst hx; rw [Sink.put_nil, overwrite_nil hq]
    · rw [Sink.put_data_of_ne hx]
  constructor
  · intro n
    rw [WProg.crash, if_pos hk, WProg.crash, if_pos hk, WProg.crash]
    by_cases hlt : n < b.length
    · rw [if_pos hlt]; exact hput _
    · rw [if_neg hlt, WProg.crash, if_pos (by simp [hk]), WProg.crash, WProg.crash, List.take_of_length_le (by omega)]
      exact hput _
  · rw [WProg.exec, if_pos hk, WProg.exec, if_pos hk, WProg.exec, WProg.exec, if_pos (by simp [hk]), List.take_length]
    exact hput _

/-- What finishing does to the file on a stream that may fail. -/
theorem finish_shaky_torn {M : Machine} {V : Type} {d : DType} {o : Order} {hint : ShapeHint} {w : NpyWriter V} {s : Sink}
    (hs : hint.seeks = true) (hst : Begun M d o hint s.pos w)
    (hlt : s.pos + (headerBytes (dictText d o hint)).length ≤ 2 ^ 64) (hn : w.numItems < 2 ^ 64) (hz : hint ≠ .twoD 0)
    (hc : CountFits w.numItems hint) (tail : Bytes) (n : Nat) {s' : Sink} (hk : s'.seekable = true)
    (hs' : s'.data = (s.put (tornFileBytes d o hint (axisOf w.numItems hint) n tail)).data) (evs : List RProg.Ev) :
    ∃ n', (shaky.exec (w.finish_ M) (s', evs)).2.1.data = (s.put (tornFileBytes d o hint (axisOf w.numItems hint) n' tail)).data ∧
      (shaky.exec (w.finish_ M) (s', evs)).2.1.seekable = true := by
  have hax : axisOf w.numItems hint < 2 ^ 64 := Nat.lt_of_le_of_lt (axisOf_le _ _) hn
  have hq : s.pos + (usedProps (encodeUtf8 (dictText d o hint))).bytesBeforeText + (encodeUtf8 (dictPrefix d o)).length ≤ s'.data.length := by
    have hd : dictText d o hint = dictPrefix d o ++ placeholder o hint := by rw [dictText_suffix hs, suffixText_filler]
    obtain ⟨A, C, hA, h1, -⟩ := headerBytes_split (p := dictPrefix d o) (tornSuffix_ascii o hint (axisOf w.numItems hint) n) (tornSuffix_ascii o hint (axisOf w.numItems hint) n) rfl
    rw [hs', Sink.put_data _ (by simp [tornFileBytes, headerBytes_ne_nil]), hd,
      usedProps_congr (placeholder_ascii o hint) (tornSuffix_ascii o hint (axisOf w.numItems hint) n) (tornSuffix_length hs hax n), tornFileBytes, h1]
    simp only [List.length_append, s.before_length]; omega
  obtain ⟨hcr, hex⟩ := rewrite_data (b := encodeUtf8 (finishedSuffix o hint (axisOf w.numItems hint))) hk hq
  have hp := finish_prog hs hst hlt hn hz hc
  rw [← hp] at hcr hex
  have hsk : ((w.finish_ M).exec s').2.seekable = true := by rw [WProg.exec_seekable]; exact hk
  rcases shaky_full (w.finish_ M) s' evs with ⟨ev, h1, -⟩ | ⟨c, j, s2, ev, -, h1, h2, h3, -⟩
  · rw [h1]
    refine ⟨max n (encodeUtf8 (finishedSuffix o hint (axisOf w.numItems hint))).length, ?_, hsk⟩
    show ((w.finish_ M).exec s').2.data = _
    rw [hex, hs', torn_over hs hax]
  · rw [h1]
    refine ⟨max n j, ?_, by rw [h3]; exact hk⟩
    show s2.data = _
    rw [h2, hcr, hs', torn_over hs hax]

/-- The same for a number of items that does not fit, and for `begin_nd`. -/
theorem finish_shaky_same {M : Machine} {V : Type} {d : DType} {o : Order} {hint : ShapeHint} {w : NpyWriter V} {p : Nat}
    (hst : Begun M d o hint p w) (hc : hint.seeks = true → hint ≠ .twoD 0 ∧ ¬ CountFits w.numItems hint) (s : Sink) (evs : List RProg.Ev) :
    (shaky.exec (w.finish_ M) (s, evs)).2.1.data = s.data ∧ (shaky.exec (w.finish_ M) (s, evs)).2.1.seekable = s.seekable := by
  have hform : (∃ r, w.finish_ M = .ret r) ∨ w.finish_ M = .flush (.ret (.ok ())) := by
    have hi := hst.info
    unfold NpyWriter.finish_ NpyWriter.patch
    cases hint with
    | nd dims =>
      obtain ⟨n, -, hi⟩ := hi
      rw [hi]
      simp only
      by_cases h : n ≠ w.numItems
      · rw [if_pos h]; exact .inl ⟨.err (.invalidData "wrong number of items"), rfl⟩
      · rw [if_neg h]; exact .inr rfl
    | oneD => exact absurd trivial (hc rfl).2
    | twoD r =>
      have hi : w.info = _ := hi
      rw [hi]
      obtain ⟨h0, h1⟩ := hc rfl
      have h1 : ¬ r ∣ w.numItems := h1
      have hrows : NpyWriter.rows w.numItems r = .err (.invalidData "items not divisible") := by
        unfold NpyWriter.rows
        rw [if_neg (by rintro rfl; exact h0 rfl), if_pos (fun h => h1 (Nat.dvd_of_mod_eq_zero h))]
      simp only [hrows]
      exact .inl ⟨.err (.invalidData "items not divisible"), rfl⟩
  rcases hform with ⟨r, h⟩ | h
  · rw [h]; exact ⟨rfl, rfl⟩
  · rw [h]
    rcases WProg.opEvent_cases evs with ⟨ev, h1, -⟩ | ⟨c, ev, -, h1, -⟩
    · simp only [shaky, WProg.runSched, h1]; exact ⟨trivial, trivial⟩
    · simp only [shaky, WProg.runSched, h1]; exact ⟨trivial, trivial⟩

theorem NpyWriter.drop_state {M : Machine} {V σ : Type} (T : Target σ) (w : NpyWriter V) (s : σ) :
    (w.drop M T s).2 = (T.exec (w.finish_ M) s).2 := by
  unfold NpyWriter.drop
  rcases T.exec (w.finish_ M) s with ⟨(_ | _ | _), s'⟩ <;> rfl

theorem NpyWriter.finish_state {M : Machine} {V σ : Type} (T : Target σ) (w : NpyWriter V) (s : σ) :
    (w.finish M T s).2 = (T.exec (w.finish_ M) (T.exec (w.finish_ M) s).2).2 := by
  have h := NpyWriter.drop_state (M := M) T w (T.exec (w.finish_ M) s).2
  unfold NpyWriter.finish
  rw [← h]
  rcases w.drop M T (T.exec (w.finish_ M) s).2 with ⟨(_ | _ | _), s'⟩ <;> rfl

/-- What a session leaves on a stream that may fail: part of the header; or the unfinished file with some
of the items; or the file with all items, or too few for the count, with a header completed up to some byte. -/
theorem saveWith_shaky_leaves {M : Machine} {V : Type} {wr : DType → DRes (V → WProg Unit)} {d : DType} {size : Nat} {enc : V → Option Bytes}
    (hw : ∀ prog, wr d = .ok prog → WritesAll prog size enc) {o : Order} {hint : ShapeHint} (hz : hint ≠ .twoD 0) {vs : List V} (hc : vs.length < 2 ^ 64)
    (hcf : CountFits vs.length hint) {items : Bytes} (he : encodeAll enc vs = some items) {s s1 : Sink} {w : NpyWriter V}
    (hlt : s.pos + (headerBytes (dictText d o hint)).length ≤ 2 ^ 64)
    (hb : (NpyWriter.beginWith M wr d o hint).exec s = (.ok w, s1)) (evs : List RProg.Ev) :
    (∃ m, m < (headerBytes (dictText d o hint)).length ∧
      (NpyWriter.saveWith M shaky wr d o hint vs (s, evs)).2.1.data = (s.put ((headerBytes (dictText d o hint)).take m)).data) ∨
    (∃ k m, k < vs.length ∧ m < (k + 1) * size ∧ (hint.seeks = true → ¬ CountFits (k + 1) hint) ∧
      (NpyWriter.saveWith M shaky wr d o hint vs (s, evs)).2.1.data = (s.put (headerBytes (dictText d o hint) ++ items.take m)).data) ∨
    (∃ k m n, k < vs.length ∧ m < (k + 1) * size ∧ hint.seeks = true ∧ CountFits (k + 1) hint ∧
      (NpyWriter.saveWith M shaky wr d o hint vs (s, evs)).2.1.data = (s.put (tornFileBytes d o hint (axisOf (k + 1) hint) n (items.take m))).data) ∨
    (hint.seeks = false ∧
      (NpyWriter.saveWith M shaky wr d o hint vs (s, evs)).2.1.data = (s.put (headerBytes (dictText d o hint) ++ items)).data) ∨
    (∃ n, hint.seeks = true ∧
      (NpyWriter.saveWith M shaky wr d o hint vs (s, evs)).2.1.data = (s.put (tornFileBytes d o hint (axisOf vs.length hint) n items)).data) := by
  obtain ⟨⟨hst, hpr⟩, h0, hk, hs1⟩ := beginWith_ok hb
  rcases NpyWriter.begin_shaky hb evs with ⟨ev1, h1⟩ | ⟨c, m, ev1, h1, h2⟩
  · right
    rcases NpyWriter.extend_shaky_cut vs w (hw _ hpr) (by omega) s1 he ev1 with ⟨ev2, h2⟩ | ⟨c, k, m, ev2, h2, h3, h4⟩
    · right; right
      have hsave : (NpyWriter.saveWith M shaky wr d o hint vs (s, evs)).2 =
          (NpyWriter.finish M shaky { w with numItems := w.numItems + vs.length } (s1.put items, ev2)).2 := by
        unfold NpyWriter.saveWith
        rw [h1]; simp only; rw [h2]
      rw [hsave, NpyWriter.finish_state, h0, Nat.zero_add, hs1, Sink.put_put]
      have hst' := hst.count vs.length
      by_cases hs : hint.seeks = true
      · right
        obtain ⟨n1, h3, h4⟩ := finish_shaky_torn (w := { w with numItems := vs.length }) hs hst' hlt hc hz hcf items 0
          (s' := s.put (headerBytes (dictText d o hint) ++ items)) (by simp [hk hs]) (by rw [tornFileBytes_zero hs]) ev2
        rcases hx : shaky.exec (NpyWriter.finish_ M { w with numItems := vs.length }) (s.put (headerBytes (dictText d o hint) ++ items), ev2) with ⟨r, s3, ev3⟩
        rw [hx] at h3 h4
        obtain ⟨n2, h5, -⟩ := finish_shaky_torn (w := { w with numItems := vs.length }) hs hst' hlt hc hz hcf items n1 (s' := s3) h4 h3 ev3
        exact ⟨n2, hs, h5⟩
      · left
        refine ⟨by simpa using hs, ?_⟩
        have h3 := finish_shaky_same (w := { w with numItems := vs.length }) hst' (fun h => absurd h hs) (s.put (headerBytes (dictText d o hint) ++ items)) ev2
        rcases hx : shaky.exec (NpyWriter.finish_ M { w with numItems := vs.length }) (s.put (headerBytes (dictText d o hint) ++ items), ev2) with ⟨r, s3, ev3⟩
        rw [hx] at h3
        rw [(finish_shaky_same (w := { w with numItems := vs.length }) hst' (fun h => absurd h hs) s3 ev3).1]
        exact h3.1
    · have hsave : (NpyWriter.saveWith M shaky wr d o hint vs (s, evs)).2 =
          (shaky.exec (NpyWriter.finish_ M { w with numItems := w.numItems + (k + 1) }) (s1.put (items.take m), ev2)).2 := by
        unfold NpyWriter.saveWith
        rw [h1]; simp only; rw [h4, ← NpyWriter.drop_state]
        simp only
        rcases NpyWriter.drop M shaky { w with numItems := w.numItems + (k + 1) } (s1.put (items.take m), ev2) with ⟨(_ | _ | _), s3⟩ <;> rfl
      rw [hsave, h0, Nat.zero_add, hs1, Sink.put_put]
      have hst' := hst.count (k + 1)
      by_cases hs : hint.seeks = true ∧ CountFits (k + 1) hint
      · right; left
        obtain ⟨n1, h5, -⟩ := finish_shaky_torn (w := { w with numItems := k + 1 }) hs.1 hst' hlt (by simp only; omega) hz hs.2 (items.take m) 0
          (s' := s.put (headerBytes (dictText d o hint) ++ items.take m)) (by simp [hk hs.1]) (by rw [tornFileBytes_zero hs.1]) ev2
        exact ⟨k, m, n1, h2, h3, hs.1, hs.2, h5⟩
      · left
        have hno : hint.seeks = true → ¬ CountFits (k + 1) hint := fun h h' => hs ⟨h, h'⟩
        exact ⟨k, m, h2, h3, hno, (finish_shaky_same (w := { w with numItems := k + 1 }) hst' (fun h => ⟨hz, hno h⟩) _ ev2).1⟩
  · left
    refine ⟨m, h1, ?_⟩
    unfold NpyWriter.saveWith
    rw [h2]

theorem save_shaky_leaves {M : Machine} {t : Ty} {d : DType} {size : Nat} (hd : d.Wf) (hn : exactBytes d = some size)
    (hm : size ≤ M.isizeMax) {o : Order} {hint : ShapeHint} (hz : hint ≠ .twoD 0) {vs : List t.Val} (hc : vs.length < 2 ^ 64)
    (hcf : CountFits vs.length hint) {items : Bytes} (he : encodeAll (encode t d) vs = some items) {s s1 : Sink} {w : NpyWriter t.Val}
    (hlt : s.pos + (headerBytes (dictText d o hint)).length ≤ 2 ^ 64)
    (hb : (NpyWriter.begin M t d o hint).exec s = (.ok w, s1)) (evs : List RProg.Ev) :
    (∃ m, m < (headerBytes (dictText d o hint)).length ∧
      (NpyWriter.save M shaky t d o hint vs (s, evs)).2.1.data = (s.put ((headerBytes (dictText d o hint)).take m)).data) ∨
    (∃ k m, k < vs.length ∧ m < (k + 1) * size ∧ (hint.seeks = true → ¬ CountFits (k + 1) hint) ∧
      (NpyWriter.save M shaky t d o hint vs (s, evs)).2.1.data = (s.put (headerBytes (dictText d o hint) ++ items.take m)).data) ∨
    (∃ k m n, k < vs.length ∧ m < (k + 1) * size ∧ hint.seeks = true ∧ CountFits (k + 1) hint ∧
      (NpyWriter.save M shaky t d o hint vs (s, evs)).2.1.data = (s.put (tornFileBytes d o hint (axisOf (k + 1) hint) n (items.take m))).data) ∨
    (hint.seeks = false ∧
      (NpyWriter.save M shaky t d o hint vs (s, evs)).2.1.data = (s.put (headerBytes (dictText d o hint) ++ items)).data) ∨
    (∃ n, hint.seeks = true ∧
      (NpyWriter.save M shaky t d o hint vs (s, evs)).2.1.data = (s.put (tornFileBytes d o hint (axisOf vs.length hint) n items)).data) :=
  saveWith_shaky_leaves (wr := t.writer M) (fun _ h => writer_writesAll h hd hn hm) hz hc hcf he hlt hb evs

end Npyz
