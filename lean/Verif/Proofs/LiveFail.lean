import Verif.Proofs.IoError
import Verif.Model.Live
/-! What other programs can find in the file of a session that may fail. -/
namespace Npyz
set_option autoImplicit false
open Spec Py

/-- The contents are those of the stream after a part of `b`, of at most `m` bytes. -/
def PartOf (s : Sink) (b : Bytes) (m : Nat) (c : Bytes) : Prop := ∃ j, j ≤ m ∧ j ≤ b.length ∧ c = (s.put (b.take j)).data

theorem PartOf.mono {s : Sink} {b : Bytes} {m m' : Nat} {c : Bytes} (h : PartOf s b m c) (hm : m ≤ m') : PartOf s b m' c := by
  obtain ⟨j, h1, h2, h3⟩ := h
  exact ⟨j, by omega, h2, h3⟩

theorem PartOf.first {s : Sink} {a b : Bytes} {m : Nat} {c : Bytes} (h : PartOf s a m c) : PartOf s (a ++ b) m c := by
  obtain ⟨j, h1, h2, h3⟩ := h
  exact ⟨j, h1, by rw [List.length_append]; omega, by rw [List.take_append_of_le_length h2]; exact h3⟩

theorem PartOf.second {s : Sink} {a b : Bytes} {m : Nat} {c : Bytes} (h : PartOf (s.put a) b m c) : PartOf s (a ++ b) (a.length + m) c := by
  obtain ⟨j, h1, h2, h3⟩ := h
  exact ⟨a.length + j, by omega, by rw [List.length_append]; omega, by rw [List.take_length_add_append, ← Sink.put_put]; exact h3⟩

namespace WProg

theorem mem_parts {b : Bytes} {s : Sink} {c : Bytes} (h : c ∈ parts b s) : PartOf s b b.length c := by
  obtain ⟨j, hj, rfl⟩ := List.mem_map.mp h
  rw [List.mem_range] at hj
  exact ⟨j, by omega, by omega, rfl⟩

/-- `write_all`, with what can be seen during it. -/
theorem writeSeen_cases (evs : List RProg.Ev) (b : Bytes) (s : Sink) :
    (∃ evs', writeLoop evs b s = (none, s.put b, evs') ∧ ∀ c ∈ writeSeen evs b s, PartOf s b b.length c) ∨
    (∃ n e evs', n < b.length ∧ writeLoop evs b s = (some e, s.put (b.take n), evs') ∧ ∀ c ∈ writeSeen evs b s, PartOf s b n c) := by
  induction evs generalizing b s with
  | nil => exact .inl ⟨[], rfl, fun c hc => mem_parts hc⟩
  | cons ev evs ih =>
    by_cases hb : b = []
    · subst hb
      exact .inl ⟨ev :: evs, by simp [writeLoop, Sink.put_nil], by simp [writeSeen]⟩
    · have hlen : 0 < b.length := List.length_pos_iff.mpr hb
      cases ev with
      | interrupted =>
        simp only [writeLoop, writeSeen, if_neg hb]
        exact ih b s
      | fail e =>
        simp only [writeLoop, writeSeen, if_neg hb]
        exact .inr ⟨0, e, evs, hlen, by rw [List.take_zero, Sink.put_nil], by simp⟩
      | short k =>
        simp only [writeLoop, writeSeen, if_neg hb]
        have hsp : b.take (k + 1) ++ b.drop (k + 1) = b := List.take_append_drop _ _
        have hll := congrArg List.length hsp
        rw [List.length_append] at hll
        rcases ih (b.drop (k + 1)) (s.put (b.take (k + 1))) with ⟨evs', h1, h2⟩ | ⟨n, e, evs', h0, h1, h2⟩
        · refine .inl ⟨evs', by rw [h1, Sink.put_put, hsp], fun c hc => ?_⟩
          rcases List.mem_append.mp hc with hc | hc
          · have := (mem_parts hc).first (b := b.drop (k + 1))
            rw [hsp] at this
            exact this.mono (by omega)
          · have := (h2 c hc).second
            rw [hsp] at this
            exact this.mono (by omega)
        · refine .inr ⟨(b.take (k + 1)).length + n, e, evs', by omega, ?_, fun c hc => ?_⟩
          · have hx := List.take_length_add_append (l₁ := b.take (k + 1)) (l₂ := b.drop (k + 1)) (i := n)
            rw [hsp] at hx
            rw [h1, Sink.put_put, hx]
          rcases List.mem_append.mp hc with hc | hc
          · have := (mem_parts hc).first (b := b.drop (k + 1))
            rw [hsp] at this
            exact this.mono (by omega)
          · have := (h2 c hc).second
            rw [hsp] at this
            exact this

/-- A program that only writes. -/
theorem Emits.seen {α : Type} {p : WProg α} {bs : Bytes} {r : Res α} (h : p.Emits bs r) (s : Sink) (evs : List RProg.Ev) :
    (∃ evs', p.runSched s evs = (r, s.put bs, evs') ∧ ∀ c ∈ p.seen s evs, PartOf s bs bs.length c) ∨
    (∃ e m evs', m < bs.length ∧ p.runSched s evs = (.err (.source e), s.put (bs.take m), evs') ∧ ∀ c ∈ p.seen s evs, PartOf s bs m c) := by
  induction h generalizing s evs with
  | ret r => exact .inl ⟨evs, by rw [Sink.put_nil]; rfl, by simp [WProg.seen]⟩
  | @write b k bs r h ih =>
    simp only [WProg.runSched, WProg.seen]
    rcases writeSeen_cases evs b s with ⟨evs', h1, h2⟩ | ⟨n, e, evs', h0, h1, h2⟩
    · rw [h1]
      simp only
      rcases ih (s.put b) evs' with ⟨ev2, h3, h4⟩ | ⟨e, m, ev2, h5, h3, h4⟩
      · refine .inl ⟨ev2, by rw [h3, Sink.put_put], fun c hc => ?_⟩
        rcases List.mem_append.mp hc with hc | hc
        · exact (h2 c hc).first.mono (by rw [List.length_append]; omega)
        · exact (h4 c hc).second.mono (by rw [List.length_append]; omega)
      · refine .inr ⟨e, b.length + m, ev2, by rw [List.length_append]; omega, by rw [h3, Sink.put_put, List.take_length_add_append], fun c hc => ?_⟩
        rcases List.mem_append.mp hc with hc | hc
        · exact (h2 c hc).first.mono (by omega)
        · exact (h4 c hc).second
    · rw [h1]
      simp only [List.append_nil]
      refine .inr ⟨e, n, evs', by rw [List.length_append]; omega, ?_, fun c hc => (h2 c hc).first⟩
      rw [List.take_append_of_le_length (by omega)]

/-- Whatever the schedule, what can be seen are contents at some moment of the undisturbed run. -/
theorem seen_crash {α : Type} (p : WProg α) (s : Sink) (evs : List RProg.Ev) : ∀ c ∈ p.seen s evs, ∃ n, c = (p.crash n s).data := by
  induction p generalizing s evs with
  | ret r => intro c hc; cases hc
  | write b k ih =>
    intro c hc
    have hpart : PartOf s b b.length c → ∃ n, c = ((WProg.write b k).crash n s).data := by
      rintro ⟨j, hj, -, rfl⟩
      refine ⟨j, ?_⟩
      simp only [crash]
      by_cases hlt : j < b.length
      · rw [if_pos hlt]
      · obtain rfl : j = b.length := by omega
        rw [if_neg hlt, Nat.sub_self, crash_zero, List.take_length]
    simp only [seen] at hc
    rcases writeSeen_cases evs b s with ⟨evs', h1, h2⟩ | ⟨n, e, evs', h0, h1, h2⟩
    · rw [h1] at hc
      rcases List.mem_append.mp hc with hc | hc
      · exact hpart (h2 c hc)
      · obtain ⟨n, hn⟩ := ih (s.put b) evs' c hc
        refine ⟨b.length + n, ?_⟩
        simp only [crash]
        rw [if_neg (by omega), Nat.add_sub_cancel_left, hn]
    · rw [h1] at hc
      simp only [List.append_nil] at hc
      exact hpart ((h2 c hc).mono (by omega))
  | tell k ih =>
    intro c hc
    simp only [seen] at hc
    by_cases h : s.seekable = true
    · rw [if_pos h] at hc
      simp only [crash, if_pos h]
      rcases ho : opEvent evs with ⟨(_ | e), evs'⟩ <;> rw [ho] at hc
      · exact ih _ s evs' c hc
      · cases hc
    · rw [if_neg h] at hc; cases hc
  | seek q k ih =>
    intro c hc
    simp only [seen] at hc
    by_cases h : s.seekable = true
    · rw [if_pos h] at hc
      simp only [crash, if_pos h]
      rcases ho : opEvent evs with ⟨(_ | e), evs'⟩ <;> rw [ho] at hc
      · exact ih _ evs' c hc
      · cases hc
    · rw [if_neg h] at hc; cases hc
  | flush k ih =>
    intro c hc
    simp only [seen] at hc
    simp only [crash]
    rcases ho : opEvent evs with ⟨(_ | e), evs'⟩ <;> rw [ho] at hc
    · exact ih _ evs' c hc
    · cases hc

end WProg

namespace NpyWriter

/-- Starting a writer. -/
theorem begin_traced {M : Machine} {t : Ty} {d : DType} {o : Order} {hint : ShapeHint} {s s1 : Sink} {w : NpyWriter t.Val}
    (hb : (NpyWriter.begin M t d o hint).exec s = (.ok w, s1)) (evs : List RProg.Ev) (tr : List Bytes) :
    (∃ evs' new, traced.exec (NpyWriter.begin M t d o hint) (s, evs, tr) = (.ok w, (s1, evs', tr ++ new)) ∧
      ∀ c ∈ new, PartOf s (headerBytes (dictText d o hint)) (headerBytes (dictText d o hint)).length c) ∨
    (∃ e m evs' new, m < (headerBytes (dictText d o hint)).length ∧
      traced.exec (NpyWriter.begin M t d o hint) (s, evs, tr) =
        (.err (.source e), (s.put ((headerBytes (dictText d o hint)).take m), evs', tr ++ new)) ∧
      ∀ c ∈ new, PartOf s (headerBytes (dictText d o hint)) m c) := by
  obtain ⟨-, -, hk, hs1⟩ := begin_ok hb
  have key : ∀ st, (beginRest M (t.writer M) d o hint st).exec s = (.ok w, s1) →
      (beginRest M (t.writer M) d o hint st).Emits (headerBytes (dictText d o hint)) (.ok w) := by
    intro st h
    obtain ⟨x, r, hx⟩ := beginRest_straight M (t.writer M) d o hint st
    have he := hx.exec s
    rw [h, hs1] at he
    obtain rfl := (Prod.mk.inj he).1
    rwa [← Sink.put_inj (Prod.mk.inj he).2] at hx
  have main : ∀ {p : WProg (NpyWriter t.Val)}, p.Emits (headerBytes (dictText d o hint)) (.ok w) → ∀ evs,
      (∃ evs' new, traced.exec p (s, evs, tr) = (.ok w, (s1, evs', tr ++ new)) ∧
        ∀ c ∈ new, PartOf s (headerBytes (dictText d o hint)) (headerBytes (dictText d o hint)).length c) ∨
      (∃ e m evs' new, m < (headerBytes (dictText d o hint)).length ∧
        traced.exec p (s, evs, tr) =
          (.err (.source e), (s.put ((headerBytes (dictText d o hint)).take m), evs', tr ++ new)) ∧
        ∀ c ∈ new, PartOf s (headerBytes (dictText d o hint)) m c) := by
    intro p hp evs
    simp only [traced]
    rcases hp.seen s evs with ⟨evs', h1, h2⟩ | ⟨e, m, evs', h0, h1, h2⟩
    · exact .inl ⟨evs', _, by rw [h1, hs1], h2⟩
    · exact .inr ⟨e, m, evs', _, h0, by rw [h1], h2⟩
  by_cases hh : hint.seeks = true
  · have hb' : (NpyWriter.beginWith M (t.writer M) d o hint).exec s = (.ok w, s1) := hb
    rw [begin_seeks hh, WProg.exec, if_pos (hk hh)] at hb'
    show (∃ evs' new, traced.exec (NpyWriter.beginWith M (t.writer M) d o hint) (s, evs, tr) = _ ∧ _) ∨
      (∃ e m evs' new, _ ∧ traced.exec (NpyWriter.beginWith M (t.writer M) d o hint) (s, evs, tr) = _ ∧ _)
    rw [begin_seeks hh]
    simp only [traced, WProg.runSched, WProg.seen, if_pos (hk hh)]
    rcases WProg.opEvent_cases evs with ⟨evs', h1, -⟩ | ⟨c, evs', -, h1, -⟩
    · rw [h1]
      exact main (key _ hb') evs'
    · rw [h1]
      refine .inr ⟨c, 0, evs', [], List.length_pos_iff.mpr (headerBytes_ne_nil _), ?_, by simp⟩
      rw [List.take_zero, Sink.put_nil]
  · cases hint with
    | nd dims => exact main (key _ hb) evs
    | oneD => exact absurd rfl hh
    | twoD r => exact absurd rfl hh

/-- Pushing values. -/
theorem extend_traced {M : Machine} {V : Type} {size : Nat} {enc : V → Option Bytes}
    (vs : List V) (w : NpyWriter V) (hw : WritesAll w.prog size enc) (hc : w.numItems + vs.length < 2 ^ 64) (s : Sink) {items : Bytes}
    (he : encodeAll enc vs = some items) (evs : List RProg.Ev) (tr : List Bytes) :
    (∃ evs' new, w.extend M traced vs (s, evs, tr) = (.ok (), { w with numItems := w.numItems + vs.length }, (s.put items, evs', tr ++ new)) ∧
      ∀ c ∈ new, PartOf s items items.length c) ∨
    (∃ e k m evs' new, k < vs.length ∧ m < (k + 1) * size ∧ m ≤ items.length ∧
      w.extend M traced vs (s, evs, tr) = (.err (.source e), { w with numItems := w.numItems + (k + 1) }, (s.put (items.take m), evs', tr ++ new)) ∧
      ∀ c ∈ new, PartOf s items m c) := by
  induction vs generalizing w s items evs tr with
  | nil => cases he; exact .inl ⟨evs, [], by simp [NpyWriter.extend, Sink.put_nil], by simp⟩
  | cons v vs ih =>
    have hc' : w.numItems + (vs.length + 1) < 2 ^ 64 := hc
    obtain ⟨b, bs, h1, h2, rfl⟩ := encodeAll_cons he
    have hwr := hw v
    rw [h1] at hwr
    obtain ⟨hbl, hem⟩ := hwr
    have hco : w.counted M = .ok { w with numItems := w.numItems + 1 } := by
      unfold counted; rw [addU64_ok (by omega)]; rfl
    unfold NpyWriter.extend NpyWriter.push
    rw [hco]
    simp only [Npyz.traced]
    rcases hem.seen s evs with ⟨ev1, h3, hs3⟩ | ⟨e, m, ev1, h3, h4, hs3⟩
    · simp only [h3]
      rcases ih { w with numItems := w.numItems + 1 } hw (by simp only; omega) (s.put b) h2 ev1 (tr ++ (w.prog v).seen s evs) with
        ⟨ev2, new, h, hs⟩ | ⟨e, k, m, ev2, new, h5, h6, h7, h, hs⟩
      · refine .inl ⟨ev2, (w.prog v).seen s evs ++ new, ?_, fun c hc => ?_⟩
        · have h' := h
          simp only [Npyz.traced] at h'
          rw [h', Sink.put_put, List.length_cons, List.append_assoc]
          simp only [Nat.add_assoc, Nat.add_comm 1]
        · rcases List.mem_append.mp hc with hc | hc
          · exact (hs3 c hc).first.mono (by rw [List.length_append]; omega)
          · exact (hs c hc).second.mono (by rw [List.length_append]; omega)
      · refine .inr ⟨e, k + 1, b.length + m, ev2, (w.prog v).seen s evs ++ new, by simp; omega, by rw [Nat.add_mul (k + 1) 1]; omega,
          by rw [List.length_append]; omega, ?_, fun c hc => ?_⟩
        · have h' := h
          simp only [Npyz.traced] at h'
          rw [h', Sink.put_put, List.take_length_add_append, List.append_assoc]
          simp only [Nat.add_assoc, Nat.add_comm 1]
        · rcases List.mem_append.mp hc with hc | hc
          · exact (hs3 c hc).first.mono (by omega)
          · exact (hs c hc).second
    · simp only [h4]
      refine .inr ⟨e, 0, m, ev1, _, by simp, by omega, by rw [List.length_append]; omega, ?_, fun c hc => (hs3 c hc).first⟩
      rw [List.take_append_of_le_length (by omega)]

end NpyWriter

/-- Completing the header. -/
theorem finish_traced {M : Machine} {V : Type} {d : DType} {o : Order} {hint : ShapeHint} {w : NpyWriter V} {s : Sink}
    (hs : hint.seeks = true) (hst : Begun M d o hint s.pos w)
    (hlt : s.pos + (headerBytes (dictText d o hint)).length ≤ 2 ^ 64) (hn : w.numItems < 2 ^ 64) (hz : hint ≠ .twoD 0)
    (hc : CountFits w.numItems hint) (tail : Bytes) (n : Nat) {s' : Sink} (hk : s'.seekable = true)
    (hs' : s'.data = (s.put (tornFileBytes d o hint (axisOf w.numItems hint) n tail)).data) (evs : List RProg.Ev) (tr : List Bytes) :
    ∃ n' s2 evs' new, (traced.exec (w.finish_ M) (s', evs, tr)).2 = (s2, evs', tr ++ new) ∧
      s2.data = (s.put (tornFileBytes d o hint (axisOf w.numItems hint) n' tail)).data ∧ s2.seekable = true ∧
      ∀ c ∈ new, ∃ j, c = (s.put (tornFileBytes d o hint (axisOf w.numItems hint) j tail)).data := by
  have hax : axisOf w.numItems hint < 2 ^ 64 := Nat.lt_of_le_of_lt (axisOf_le _ _) hn
  have hq : s.pos + (usedProps (encodeUtf8 (dictText d o hint))).bytesBeforeText + (encodeUtf8 (dictPrefix d o)).length ≤ s'.data.length := by
    have hd : dictText d o hint = dictPrefix d o ++ placeholder o hint := by rw [dictText_suffix hs, suffixText_filler]
    obtain ⟨A, C, hA, h1, -⟩ := headerBytes_split (p := dictPrefix d o) (tornSuffix_ascii o hint (axisOf w.numItems hint) n) (tornSuffix_ascii o hint (axisOf w.numItems hint) n) rfl
    rw [hs', Sink.put_data _ (by simp [tornFileBytes, headerBytes_ne_nil]), hd,
      usedProps_congr (placeholder_ascii o hint) (tornSuffix_ascii o hint (axisOf w.numItems hint) n) (tornSuffix_length hs hax n), tornFileBytes, h1]
    simp only [List.length_append, s.before_length]; omega
  obtain ⟨hcr, -⟩ := rewrite_data (b := encodeUtf8 (finishedSuffix o hint (axisOf w.numItems hint))) hk hq
  have hp := finish_prog hs hst hlt hn hz hc
  rw [← hp] at hcr
  obtain ⟨n', h1, h2⟩ := finish_shaky_torn hs hst hlt hn hz hc tail n hk hs' evs
  refine ⟨n', _, _, (w.finish_ M).seen s' evs, rfl, h1, h2, fun c hc => ?_⟩
  obtain ⟨j, rfl⟩ := WProg.seen_crash _ _ _ c hc
  refine ⟨max n j, ?_⟩
  rw [hcr, hs', torn_over hs hax]

/-- `begin_nd`, and a number of items that does not fit: nothing is written. -/
theorem finish_traced_same {M : Machine} {V : Type} {d : DType} {o : Order} {hint : ShapeHint} {w : NpyWriter V} {p : Nat}
    (hst : Begun M d o hint p w) (hc : hint.seeks = true → hint ≠ .twoD 0 ∧ ¬ CountFits w.numItems hint) (s : Sink) (evs : List RProg.Ev) (tr : List Bytes) :
    ∃ evs' s2, (traced.exec (w.finish_ M) (s, evs, tr)).2 = (s2, evs', tr) ∧ s2.data = s.data := by
  have hform : (∃ r, w.finish_ M = .ret r) ∨ w.finish_ M = .flush (.ret (.ok ())) := by
    have hi := hst.info
    unfold NpyWriter.finish_ NpyWriter.patch
    cases hint with
    | nd dims =>
      obtain ⟨n, -, hi⟩ := hi
      rw [hi]
      simp only
      by_cases h : n ≠ w.numItems
      · rw [if_pos h]; exact .inl ⟨.err (.invalidData "wrong number of items"), rfl⟩
      · rw [if_neg h]; exact .inr rfl
    | oneD => exact absurd trivial (hc rfl).2
    | twoD r =>
      have hi : w.info = _ := hi
      rw [hi]
      obtain ⟨h0, h1⟩ := hc rfl
      have h1 : ¬ r ∣ w.numItems := h1
      have hrows : NpyWriter.rows w.numItems r = .err (.invalidData "items not divisible") := by
        unfold NpyWriter.rows
        rw [if_neg (by rintro rfl; exact h0 rfl), if_pos (fun h => h1 (Nat.dvd_of_mod_eq_zero h))]
      simp only [hrows]
      exact .inl ⟨.err (.invalidData "items not divisible"), rfl⟩
  rcases hform with ⟨r, h⟩ | h
  · rw [h]
    simp only [traced, WProg.runSched, WProg.seen, List.append_nil]
    exact ⟨_, _, rfl, rfl⟩
  · rw [h]
    simp only [traced, WProg.runSched, WProg.seen]
    rcases WProg.opEvent_cases evs with ⟨ev, h1, -⟩ | ⟨c, ev, -, h1, -⟩
    · rw [h1]; simp only [List.append_nil]; exact ⟨_, _, rfl, rfl⟩
    · rw [h1]; simp only [List.append_nil]; exact ⟨_, _, rfl, rfl⟩

/-- The end of a session, if the header is completed. -/
theorem close_traced {M : Machine} {V : Type} {d : DType} {o : Order} {hint : ShapeHint} {w : NpyWriter V} {s : Sink}
    (hs : hint.seeks = true) (hst : Begun M d o hint s.pos w)
    (hlt : s.pos + (headerBytes (dictText d o hint)).length ≤ 2 ^ 64) (hn : w.numItems < 2 ^ 64) (hz : hint ≠ .twoD 0)
    (hc : CountFits w.numItems hint) (tail : Bytes) {s' : Sink} (hk : s'.seekable = true)
    (hs' : s'.data = (s.put (headerBytes (dictText d o hint) ++ tail)).data) (evs : List RProg.Ev) (tr : List Bytes) (fin : Bool) :
    ∃ s2 evs' new, (if fin = true then w.finish M traced (s', evs, tr) else w.drop M traced (s', evs, tr)).2 = (s2, evs', tr ++ new) ∧
      (∃ j, s2.data = (s.put (tornFileBytes d o hint (axisOf w.numItems hint) j tail)).data) ∧
      ∀ c ∈ new, ∃ j, c = (s.put (tornFileBytes d o hint (axisOf w.numItems hint) j tail)).data := by
  rw [← tornFileBytes_zero hs (axisOf w.numItems hint)] at hs'
  obtain ⟨n1, s2, ev2, new, h1, h2, h3, h4⟩ := finish_traced hs hst hlt hn hz hc tail 0 hk hs' evs tr
  cases fin with
  | false =>
    rw [if_neg (by decide), NpyWriter.drop_state, h1]
    exact ⟨s2, ev2, new, rfl, ⟨n1, h2⟩, h4⟩
  | true =>
    obtain ⟨n2, s3, ev3, new', k1, k2, k3, k4⟩ := finish_traced hs hst hlt hn hz hc tail n1 h3 h2 ev2 (tr ++ new)
    rw [if_pos rfl, NpyWriter.finish_state, h1, k1]
    refine ⟨s3, ev3, new ++ new', by rw [List.append_assoc], ⟨n2, k2⟩, fun c hc => ?_⟩
    rcases List.mem_append.mp hc with hc | hc
    · exact h4 c hc
    · exact k4 c hc

/-- The end of a session, if nothing is written. -/
theorem close_traced_same {M : Machine} {V : Type} {d : DType} {o : Order} {hint : ShapeHint} {w : NpyWriter V} {p : Nat}
    (hst : Begun M d o hint p w) (hc : hint.seeks = true → hint ≠ .twoD 0 ∧ ¬ CountFits w.numItems hint) (s : Sink) (evs : List RProg.Ev) (tr : List Bytes)
    (fin : Bool) : ∃ evs' s2, (if fin = true then w.finish M traced (s, evs, tr) else w.drop M traced (s, evs, tr)).2 = (s2, evs', tr) ∧ s2.data = s.data := by
  obtain ⟨ev2, s2, h1, h2⟩ := finish_traced_same hst hc s evs tr
  cases fin with
  | false =>
    rw [if_neg (by decide), NpyWriter.drop_state, h1]
    exact ⟨ev2, s2, rfl, h2⟩
  | true =>
    obtain ⟨ev3, s3, k1, k2⟩ := finish_traced_same hst hc s2 ev2 tr
    rw [if_pos rfl, NpyWriter.finish_state, h1, k1]
    exact ⟨ev3, s3, rfl, by rw [k2, h2]⟩

theorem encode_taken {α : Type} {f : α → Option Bytes} {size : Nat} (hl : ∀ v b, f v = some b → b.length = size) (vs : List α)
    {data : Bytes} (h : encodeAll f vs = some data) (k : Nat) : encodeAll f (vs.take k) = some (data.take (k * size)) := by
  induction vs generalizing data k with
  | nil => cases h; simp [encodeAll]
  | cons v vs ih =>
    obtain ⟨b, bs, h1, h2, rfl⟩ := encodeAll_cons h
    cases k with
    | zero => simp [encodeAll]
    | succ k =>
      have hb := hl v b h1
      rw [List.take_succ_cons, show (k + 1) * size = b.length + k * size by rw [Nat.add_mul]; omega, List.take_length_add_append]
      simp [encodeAll, h1, ih h2 k, both]

/-- Everything that can be found in the file during a session, and afterwards: parts of the unfinished file; or the file with a header that is completed for
`N` items up to some byte, and all items that were written. -/
theorem attempt_seen {M : Machine} {t : Ty} {d : DType} {size : Nat} (hd : d.Wf) (hn : exactBytes d = some size)
    (hm : size ≤ M.isizeMax) {o : Order} {hint : ShapeHint} (hz : hint ≠ .twoD 0) {vs : List t.Val} (hc : vs.length < 2 ^ 64)
    (hcf : CountFits vs.length hint) {items : Bytes} (he : encodeAll (encode t d) vs = some items) {s s1 : Sink} {w : NpyWriter t.Val}
    (hlt : s.pos + (headerBytes (dictText d o hint)).length ≤ 2 ^ 64)
    (hb : (NpyWriter.begin M t d o hint).exec s = (.ok w, s1)) {k : Nat} (hkn : k ≤ vs.length) (fin : Bool) (evs : List RProg.Ev) :
    ∃ s2 evs2 tr N Q, (NpyWriter.attempt M traced t d o hint (vs.take k) fin (s, evs, [s.data])).2 = (s2, evs2, tr) ∧
      N ≤ vs.length ∧ CountFits N hint ∧ (N = vs.length ∨ N ≤ k) ∧ Q ≤ N * size ∧ (0 < size ∨ k = vs.length → Q = N * size → N = k) ∧
      ∀ c, (c ∈ tr ∨ c = s2.data) → PartOf s (headerBytes (dictText d o hint) ++ items) ((headerBytes (dictText d o hint)).length + Q) c ∨
        (hint.seeks = true ∧ ∃ j, c = (s.put (tornFileBytes d o hint (axisOf N hint) j (items.take Q))).data) := by
  obtain ⟨hst, h0, hk, hs1⟩ := begin_ok hb
  have hwa := writer_writesAll hst.prog hd hn hm
  have hlen : ∀ v b, encode t d v = some b → b.length = size := by
    intro v b hv
    have := hwa v
    rw [hv] at this
    exact this.1
  have hil := (encodeAll_item hlen vs he).1
  have hek := encode_taken hlen vs he k
  have hkl : (vs.take k).length = k := by rw [List.length_take]; omega
  have hks : k * size ≤ vs.length * size := Nat.mul_le_mul_right _ hkn
  have hikl : (items.take (k * size)).length = k * size := by rw [List.length_take]; omega
  have hstart : ∀ Q, PartOf s (headerBytes (dictText d o hint) ++ items) Q s.data := fun Q => ⟨0, by omega, by omega, by rw [List.take_zero, Sink.put_nil]⟩
  have hmul : 0 < size ∨ k = vs.length → k * size = vs.length * size → vs.length = k := by
    rintro (h | h) hq
    · exact (Nat.eq_of_mul_eq_mul_right h hq).symm
    · exact h.symm
  rcases NpyWriter.begin_traced hb evs [s.data] with ⟨ev1, new1, h1, hn1⟩ | ⟨e, m, ev1, new1, hm1, h1, hn1⟩
  · rcases NpyWriter.extend_traced (vs.take k) w hwa (by rw [hkl]; omega) s1 hek ev1 ([s.data] ++ new1) with
      ⟨ev2, new2, h2, hn2⟩ | ⟨e, k', m, ev2, new2, hk', hm', hml, h2, hn2⟩
    · rw [hkl, h0, Nat.zero_add] at h2
      have hsave : (NpyWriter.attempt M traced t d o hint (vs.take k) fin (s, evs, [s.data])).2 =
          (if fin = true then ({ w with numItems := k } : NpyWriter t.Val).finish M traced (s1.put (items.take (k * size)), ev2, [s.data] ++ new1 ++ new2)
            else ({ w with numItems := k } : NpyWriter t.Val).drop M traced (s1.put (items.take (k * size)), ev2, [s.data] ++ new1 ++ new2)).2 := by
        unfold NpyWriter.attempt
        rw [h1]; simp only; rw [h2]
      rw [hsave, hs1, Sink.put_put]
      have hpart : ∀ c ∈ [s.data] ++ new1 ++ new2,
          PartOf s (headerBytes (dictText d o hint) ++ items) ((headerBytes (dictText d o hint)).length + k * size) c := by
        intro c hc
        rcases List.mem_append.mp hc with hc | hc
        · rcases List.mem_append.mp hc with hc | hc
          · rw [List.mem_singleton.mp hc]; exact hstart _
          · exact (hn1 c hc).first.mono (by omega)
        · have h3 := hn2 c hc
          rw [hs1] at h3
          have h4 := (h3.first (b := items.drop (k * size))).second
          rw [List.take_append_drop] at h4
          exact h4.mono (by omega)
      have hwhole : PartOf s (headerBytes (dictText d o hint) ++ items) ((headerBytes (dictText d o hint)).length + k * size)
          (s.put (headerBytes (dictText d o hint) ++ items.take (k * size))).data :=
        ⟨(headerBytes (dictText d o hint)).length + k * size, Nat.le_refl _, by rw [List.length_append]; omega, by rw [List.take_length_add_append]⟩
      have hst' := (hst.toBegun.count k)
      by_cases hs : hint.seeks = true ∧ CountFits k hint
      · obtain ⟨s2, ev3, new3, h3, ⟨j, h4⟩, h5⟩ := close_traced (w := { w with numItems := k }) hs.1 hst' hlt (by simp only; omega) hz hs.2 (items.take (k * size))
          (s' := s.put (headerBytes (dictText d o hint) ++ items.take (k * size))) (by simp [hk hs.1]) rfl ev2 ([s.data] ++ new1 ++ new2) fin
        refine ⟨s2, ev3, _, k, k * size, h3, hkn, hs.2, .inr (Nat.le_refl _), Nat.le_refl _, fun _ _ => rfl, ?_⟩
        rintro c (hc | rfl)
        · rcases List.mem_append.mp hc with hc | hc
          · exact .inl (hpart c hc)
          · exact .inr ⟨hs.1, h5 c hc⟩
        · exact .inr ⟨hs.1, j, h4⟩
      · have hno : hint.seeks = true → hint ≠ .twoD 0 ∧ ¬ CountFits k hint := fun h => ⟨hz, fun h' => hs ⟨h, h'⟩⟩
        obtain ⟨ev3, s2, h3, h4⟩ := close_traced_same (w := { w with numItems := k }) hst' hno
          (s.put (headerBytes (dictText d o hint) ++ items.take (k * size))) ev2 ([s.data] ++ new1 ++ new2) fin
        refine ⟨s2, ev3, _, vs.length, k * size, h3, Nat.le_refl _, hcf, .inl rfl, hks, hmul, ?_⟩
        rintro c (hc | rfl)
        · exact .inl (hpart c hc)
        · rw [h4]; exact .inl hwhole
    · rw [h0, Nat.zero_add] at h2
      rw [hkl] at hk'
      rw [hikl] at hml
      have hsave : (NpyWriter.attempt M traced t d o hint (vs.take k) fin (s, evs, [s.data])).2 =
          (if false = true then ({ w with numItems := k' + 1 } : NpyWriter t.Val).finish M traced (s1.put ((items.take (k * size)).take m), ev2, [s.data] ++ new1 ++ new2)
            else ({ w with numItems := k' + 1 } : NpyWriter t.Val).drop M traced (s1.put ((items.take (k * size)).take m), ev2, [s.data] ++ new1 ++ new2)).2 := by
        unfold NpyWriter.attempt
        rw [h1]; simp only; rw [h2, if_neg (by decide)]
        simp only
        rcases NpyWriter.drop M traced ({ w with numItems := k' + 1 } : NpyWriter t.Val) (s1.put ((items.take (k * size)).take m), ev2, [s.data] ++ new1 ++ new2) with
          ⟨(_ | _ | _), s3⟩ <;> rfl
      have hm2 : (k' + 1) * size ≤ k * size := Nat.mul_le_mul_right _ hk'
      rw [hsave, hs1, Sink.put_put, List.take_take, Nat.min_eq_left hml]
      have hpart : ∀ c ∈ [s.data] ++ new1 ++ new2,
          PartOf s (headerBytes (dictText d o hint) ++ items) ((headerBytes (dictText d o hint)).length + m) c := by
        intro c hc
        rcases List.mem_append.mp hc with hc | hc
        · rcases List.mem_append.mp hc with hc | hc
          · rw [List.mem_singleton.mp hc]; exact hstart _
          · exact (hn1 c hc).first.mono (by omega)
        · have h3 := hn2 c hc
          rw [hs1] at h3
          have h4 := (h3.first (b := items.drop (k * size))).second
          rw [List.take_append_drop] at h4
          exact h4
      have hwhole : PartOf s (headerBytes (dictText d o hint) ++ items) ((headerBytes (dictText d o hint)).length + m)
          (s.put (headerBytes (dictText d o hint) ++ items.take m)).data :=
        ⟨(headerBytes (dictText d o hint)).length + m, Nat.le_refl _, by rw [List.length_append]; omega, by rw [List.take_length_add_append]⟩
      have hst' := (hst.toBegun.count (k' + 1))
      by_cases hs : hint.seeks = true ∧ CountFits (k' + 1) hint
      · obtain ⟨s2, ev3, new3, h3, ⟨j, h4⟩, h5⟩ := close_traced (w := { w with numItems := k' + 1 }) hs.1 hst' hlt (by simp only; omega) hz hs.2 (items.take m)
          (s' := s.put (headerBytes (dictText d o hint) ++ items.take m)) (by simp [hk hs.1]) rfl ev2 ([s.data] ++ new1 ++ new2) false
        refine ⟨s2, ev3, _, k' + 1, m, h3, by omega, hs.2, .inr hk', by omega, fun _ _ => by omega, ?_⟩
        rintro c (hc | rfl)
        · rcases List.mem_append.mp hc with hc | hc
          · exact .inl (hpart c hc)
          · exact .inr ⟨hs.1, h5 c hc⟩
        · exact .inr ⟨hs.1, j, h4⟩
      · have hno : hint.seeks = true → hint ≠ .twoD 0 ∧ ¬ CountFits (k' + 1) hint := fun h => ⟨hz, fun h' => hs ⟨h, h'⟩⟩
        obtain ⟨ev3, s2, h3, h4⟩ := close_traced_same (w := { w with numItems := k' + 1 }) hst' hno
          (s.put (headerBytes (dictText d o hint) ++ items.take m)) ev2 ([s.data] ++ new1 ++ new2) false
        refine ⟨s2, ev3, _, vs.length, m, h3, Nat.le_refl _, hcf, .inl rfl, by omega, fun _ _ => by omega, ?_⟩
        rintro c (hc | rfl)
        · exact .inl (hpart c hc)
        · rw [h4]; exact .inl hwhole
  · refine ⟨s.put ((headerBytes (dictText d o hint)).take m), ev1, [s.data] ++ new1, vs.length, 0, ?_, Nat.le_refl _, hcf, .inl rfl, by omega, ?_, ?_⟩
    · unfold NpyWriter.attempt
      rw [h1]
    · intro h hq
      exact hmul h (by omega)
    · rintro c (hc | rfl)
      · left
        rcases List.mem_append.mp hc with hc | hc
        · rw [List.mem_singleton.mp hc]; exact hstart _
        · exact (hn1 c hc).first.mono (by omega)
      · exact .inl ⟨m, by omega, by rw [List.length_append]; omega, by rw [List.take_append_of_le_length (by omega)]⟩

/-! ### All moments are recorded -/

namespace WProg

theorem parts_all {b : Bytes} {s : Sink} {j : Nat} (hj : j ≤ b.length) : (s.put (b.take j)).data ∈ parts b s :=
  List.mem_map.mpr ⟨j, List.mem_range.mpr (by omega), rfl⟩

theorem writeSeen_all (evs : List RProg.Ev) (b : Bytes) (s : Sink) :
    ∃ m evs', m ≤ b.length ∧ ((m = b.length ∧ writeLoop evs b s = (none, s.put b, evs') ∧ ∀ e ∈ evs', e ∈ evs) ∨
        (m < b.length ∧ ∃ e, RProg.Ev.fail e ∈ evs ∧ writeLoop evs b s = (some e, s.put (b.take m), evs'))) ∧
      ∀ j, j ≤ m → (s.put (b.take j)).data ∈ s.data :: writeSeen evs b s := by
  induction evs generalizing b s with
  | nil => exact ⟨b.length, [], Nat.le_refl _, .inl ⟨rfl, rfl, by simp⟩, fun j hj => List.mem_cons_of_mem _ (parts_all hj)⟩
  | cons ev evs ih =>
    by_cases hb : b = []
    · subst hb
      refine ⟨0, ev :: evs, by simp, .inl ⟨rfl, by simp [writeLoop, Sink.put_nil], fun e h => h⟩, fun j hj => ?_⟩
      rw [List.take_nil, Sink.put_nil]
      exact List.mem_cons_self
    · have hlen : 0 < b.length := List.length_pos_iff.mpr hb
      cases ev with
      | interrupted =>
        simp only [writeLoop, writeSeen, if_neg hb]
        obtain ⟨m, evs', h1, h2, h3⟩ := ih b s
        refine ⟨m, evs', h1, ?_, h3⟩
        rcases h2 with ⟨h4, h5, h6⟩ | ⟨h4, e, h5, h6⟩
        · exact .inl ⟨h4, h5, fun e he => List.mem_cons_of_mem _ (h6 e he)⟩
        · exact .inr ⟨h4, e, List.mem_cons_of_mem _ h5, h6⟩
      | fail e =>
        simp only [writeLoop, writeSeen, if_neg hb]
        refine ⟨0, evs, by omega, .inr ⟨hlen, e, List.mem_cons_self, by rw [List.take_zero, Sink.put_nil]⟩, fun j hj => ?_⟩
        obtain rfl : j = 0 := by omega
        rw [List.take_zero, Sink.put_nil]
        exact List.mem_cons_self
      | short k =>
        simp only [writeLoop, writeSeen, if_neg hb]
        have hsp : b.take (k + 1) ++ b.drop (k + 1) = b := List.take_append_drop _ _
        have hll := congrArg List.length hsp
        rw [List.length_append] at hll
        have hx : ∀ n, b.take ((b.take (k + 1)).length + n) = b.take (k + 1) ++ (b.drop (k + 1)).take n := by
          intro n
          have hx := List.take_length_add_append (l₁ := b.take (k + 1)) (l₂ := b.drop (k + 1)) (i := n)
          rwa [hsp] at hx
        obtain ⟨m, evs', h1, h2, h3⟩ := ih (b.drop (k + 1)) (s.put (b.take (k + 1)))
        have hall : ∀ j, j ≤ (b.take (k + 1)).length + m → (s.put (b.take j)).data ∈
            s.data :: (parts (b.take (k + 1)) s ++ writeSeen evs (b.drop (k + 1)) (s.put (b.take (k + 1)))) := by
          intro j hj
          have hfirst : ∀ j, j ≤ (b.take (k + 1)).length → (s.put (b.take j)).data ∈
              s.data :: (parts (b.take (k + 1)) s ++ writeSeen evs (b.drop (k + 1)) (s.put (b.take (k + 1)))) := by
            intro j hj
            have h4 := parts_all (s := s) hj
            rw [List.take_take, Nat.min_eq_left (by rw [List.length_take] at hj; omega)] at h4
            exact List.mem_cons_of_mem _ (List.mem_append_left _ h4)
          by_cases hle : j ≤ (b.take (k + 1)).length
          · exact hfirst j hle
          · have h4 := h3 (j - (b.take (k + 1)).length) (by omega)
            rw [Sink.put_put, ← hx, show (b.take (k + 1)).length + (j - (b.take (k + 1)).length) = j by omega] at h4
            rcases List.mem_cons.mp h4 with h4 | h4
            · rw [h4]
              have h5 := hfirst (b.take (k + 1)).length (Nat.le_refl _)
              have h6 := hx 0
              rw [Nat.add_zero, List.take_zero, List.append_nil] at h6
              rw [h6] at h5
              exact h5
            · exact List.mem_cons_of_mem _ (List.mem_append_right _ h4)
        refine ⟨(b.take (k + 1)).length + m, evs', by omega, ?_, hall⟩
        rcases h2 with ⟨h4, h5, h6⟩ | ⟨h4, e, h5, h6⟩
        · refine .inl ⟨by omega, by rw [h5, Sink.put_put, hsp], fun e he => List.mem_cons_of_mem _ (h6 e he)⟩
        · refine .inr ⟨by omega, e, List.mem_cons_of_mem _ h5, by rw [h6, Sink.put_put, hx]⟩

/-- Everything the file holds during the run is recorded: its contents after each of the bytes that are written. -/
theorem seen_all {α : Type} (p : WProg α) (s : Sink) (evs : List RProg.Ev) :
    ∃ m, (p.runSched s evs).2.1.data = (p.crash m s).data ∧
      ∀ n, (n ≤ m ∨ ∀ e, RProg.Ev.fail e ∉ evs) → (p.crash n s).data ∈ s.data :: p.seen s evs := by
  have hop : ∀ {evs evs' : List RProg.Ev}, opEvent evs = (none, evs') → (∀ e, RProg.Ev.fail e ∉ evs) → ∀ e, RProg.Ev.fail e ∉ evs' := by
    intro evs evs' h hn e he
    rcases opEvent_cases evs with ⟨ev, h1, h2⟩ | ⟨c, ev, -, h1, -⟩
    · rw [h] at h1
      cases h1
      exact hn e (h2 _ he)
    · rw [h] at h1; cases h1
  have hopf : ∀ {evs evs' : List RProg.Ev} {c : Nat}, opEvent evs = (some c, evs') → RProg.Ev.fail c ∈ evs := by
    intro evs evs' c h
    rcases opEvent_cases evs with ⟨ev, h1, h2⟩ | ⟨c', ev, h2, h1, -⟩
    · rw [h] at h1; cases h1
    · rw [h] at h1
      cases h1
      exact h2
  induction p generalizing s evs with
  | ret r => exact ⟨0, rfl, fun n _ => List.mem_cons_self⟩
  | write b k ih =>
    simp only [runSched, seen]
    obtain ⟨m, evs', h1, h2, h3⟩ := writeSeen_all evs b s
    rcases h2 with ⟨rfl, h5, h6⟩ | ⟨h4, e, h5, h6⟩
    · rw [h5]
      simp only
      obtain ⟨m', k1, k2⟩ := ih (s.put b) evs'
      refine ⟨b.length + m', ?_, fun n hn => ?_⟩
      · rw [k1]
        simp only [crash]
        rw [if_neg (by omega), Nat.add_sub_cancel_left]
      · simp only [crash]
        by_cases hlt : n < b.length
        · rw [if_pos hlt]
          rcases List.mem_cons.mp (h3 n (by omega)) with h7 | h7
          · rw [h7]; exact List.mem_cons_self
          · exact List.mem_cons_of_mem _ (List.mem_append_left _ h7)
        · rw [if_neg hlt]
          have h7 := k2 (n - b.length) (hn.elim (fun h => .inl (by omega)) fun h => .inr fun e he => h e (h6 _ he))
          rcases List.mem_cons.mp h7 with h7 | h7
          · rw [h7]
            have h8 := h3 b.length (Nat.le_refl _)
            rw [List.take_length] at h8
            rcases List.mem_cons.mp h8 with h8 | h8
            · rw [h8]; exact List.mem_cons_self
            · exact List.mem_cons_of_mem _ (List.mem_append_left _ h8)
          · exact List.mem_cons_of_mem _ (List.mem_append_right _ h7)
    · rw [h6]
      simp only [List.append_nil]
      refine ⟨m, ?_, fun n hn => ?_⟩
      · simp only [crash]
        rw [if_pos h4]
      · have hn : n ≤ m := hn.elim id fun h => absurd h5 (h e)
        simp only [crash]
        rw [if_pos (by omega)]
        exact h3 n hn
  | tell k ih =>
    simp only [runSched, seen, crash]
    by_cases h : s.seekable = true
    · simp only [if_pos h]
      rcases ho : opEvent evs with ⟨(_ | c), evs'⟩
      · obtain ⟨m, k1, k2⟩ := ih s.pos s evs'
        exact ⟨m, k1, fun n hn => k2 n (hn.imp id (hop ho))⟩
      · refine ⟨0, (crash_zero _ _).symm, fun n hn => ?_⟩
        obtain rfl : n = 0 := hn.elim (by omega) fun h => absurd (hopf ho) (h c)
        rw [crash_zero]
        exact List.mem_cons_self
    · simp only [if_neg h]
      exact ⟨0, trivial, fun n _ => List.mem_cons_self⟩
  | seek q k ih =>
    simp only [runSched, seen, crash]
    by_cases h : s.seekable = true
    · simp only [if_pos h]
      rcases ho : opEvent evs with ⟨(_ | c), evs'⟩
      · obtain ⟨m, k1, k2⟩ := ih { s with pos := q } evs'
        exact ⟨m, k1, fun n hn => k2 n (hn.imp id (hop ho))⟩
      · refine ⟨0, by simp only [crash_zero], fun n hn => ?_⟩
        obtain rfl : n = 0 := hn.elim (by omega) fun h => absurd (hopf ho) (h c)
        rw [crash_zero]
        exact List.mem_cons_self
    · simp only [if_neg h]
      exact ⟨0, trivial, fun n _ => List.mem_cons_self⟩
  | flush k ih =>
    simp only [runSched, seen, crash]
    rcases ho : opEvent evs with ⟨(_ | c), evs'⟩
    · obtain ⟨m, k1, k2⟩ := ih s evs'
      exact ⟨m, k1, fun n hn => k2 n (hn.imp id (hop ho))⟩
    · refine ⟨0, (crash_zero _ _).symm, fun n hn => ?_⟩
      obtain rfl : n = 0 := hn.elim (by omega) fun h => absurd (hopf ho) (h c)
      rw [crash_zero]
      exact List.mem_cons_self

theorem runSched_nil {α : Type} (p : WProg α) (s : Sink) : p.runSched s [] = ((p.exec s).1, (p.exec s).2, []) := by
  induction p generalizing s with
  | ret r => rfl
  | write b k ih => simp only [runSched, writeLoop, exec]; exact ih _
  | tell k ih =>
    simp only [runSched, opEvent, exec]
    by_cases h : s.seekable = true
    · simp only [if_pos h]; exact ih _ _
    · simp only [if_neg h]
  | seek q k ih =>
    simp only [runSched, opEvent, exec]
    by_cases h : s.seekable = true
    · simp only [if_pos h]; exact ih _
    · simp only [if_neg h]
  | flush k ih => simp only [runSched, opEvent, exec]; exact ih _

/-- Without errors. -/
theorem Emits.seen_all {α : Type} {p : WProg α} {bs : Bytes} {r : Res α} (h : p.Emits bs r) (s : Sink) (n : Nat) :
    (s.put (bs.take n)).data ∈ s.data :: p.seen s [] := by
  obtain ⟨m, -, h2⟩ := WProg.seen_all p s []
  have := h2 n (.inr (by simp))
  rwa [h.crash] at this

end WProg

/-- Starting a writer, without errors. -/
theorem NpyWriter.begin_all {M : Machine} {t : Ty} {d : DType} {o : Order} {hint : ShapeHint} {s s1 : Sink} {w : NpyWriter t.Val}
    (hb : (NpyWriter.begin M t d o hint).exec s = (.ok w, s1)) {tr : List Bytes} (htr : s.data ∈ tr) :
    ∃ tr', traced.exec (NpyWriter.begin M t d o hint) (s, [], tr) = (.ok w, (s1, [], tr')) ∧
      ∀ n, (s.put ((headerBytes (dictText d o hint)).take n)).data ∈ tr' := by
  obtain ⟨-, -, hk, hs1⟩ := begin_ok hb
  have key : ∀ st, (beginRest M (t.writer M) d o hint st).exec s = (.ok w, s1) →
      (beginRest M (t.writer M) d o hint st).Emits (headerBytes (dictText d o hint)) (.ok w) := by
    intro st h
    obtain ⟨x, r, hx⟩ := beginRest_straight M (t.writer M) d o hint st
    have he := hx.exec s
    rw [h, hs1] at he
    obtain rfl := (Prod.mk.inj he).1
    rwa [← Sink.put_inj (Prod.mk.inj he).2] at hx
  have hrun : (NpyWriter.begin M t d o hint).runSched s [] = (.ok w, s1, []) := by rw [WProg.runSched_nil, hb]
  refine ⟨_, by simp only [traced, hrun]; rfl, fun n => ?_⟩
  have hmem : ∀ {l : List Bytes} {c : Bytes}, c ∈ s.data :: l → c ∈ tr ++ l := by
    intro l c hc
    rcases List.mem_cons.mp hc with rfl | hc
    · exact List.mem_append_left _ htr
    · exact List.mem_append_right _ hc
  apply hmem
  by_cases hh : hint.seeks = true
  · have hb' : (NpyWriter.beginWith M (t.writer M) d o hint).exec s = (.ok w, s1) := hb
    rw [begin_seeks hh, WProg.exec, if_pos (hk hh)] at hb'
    show _ ∈ s.data :: (NpyWriter.beginWith M (t.writer M) d o hint).seen s []
    rw [begin_seeks hh]
    simp only [WProg.seen, if_pos (hk hh), WProg.opEvent]
    exact (key _ hb').seen_all s n
  · cases hint with
    | nd dims => exact (key _ hb).seen_all s n
    | oneD => exact absurd rfl hh
    | twoD r => exact absurd rfl hh

/-- Pushing values, without errors. -/
theorem NpyWriter.extend_all {M : Machine} {V : Type} {size : Nat} {enc : V → Option Bytes}
    (vs : List V) (w : NpyWriter V) (hw : WritesAll w.prog size enc) (hc : w.numItems + vs.length < 2 ^ 64) (s : Sink) {items : Bytes}
    (he : encodeAll enc vs = some items) {tr : List Bytes} (htr : s.data ∈ tr) :
    ∃ tr', w.extend M traced vs (s, [], tr) = (.ok (), { w with numItems := w.numItems + vs.length }, (s.put items, [], tr')) ∧ (∀ c ∈ tr, c ∈ tr') ∧
      ∀ n, (s.put (items.take n)).data ∈ tr' := by
  induction vs generalizing w s items tr with
  | nil => cases he; exact ⟨tr, by simp [NpyWriter.extend, Sink.put_nil], fun _ h => h, fun n => by rw [List.take_nil, Sink.put_nil]; exact htr⟩
  | cons v vs ih =>
    have hc' : w.numItems + (vs.length + 1) < 2 ^ 64 := hc
    obtain ⟨b, bs, h1, h2, rfl⟩ := encodeAll_cons he
    have hwr := hw v
    rw [h1] at hwr
    obtain ⟨hbl, hem⟩ := hwr
    have hco : w.counted M = .ok { w with numItems := w.numItems + 1 } := by
      unfold counted; rw [addU64_ok (by omega)]; rfl
    have hrun : (w.prog v).runSched s [] = (.ok (), s.put b, []) := by rw [WProg.runSched_nil, hem.exec]
    have hmem : ∀ n, (s.put (b.take n)).data ∈ tr ++ (w.prog v).seen s [] := by
      intro n
      rcases List.mem_cons.mp (hem.seen_all s n) with h | h
      · rw [h]; exact List.mem_append_left _ htr
      · exact List.mem_append_right _ h
    obtain ⟨tr', k1, k2, k3⟩ := ih { w with numItems := w.numItems + 1 } hw (by simp only; omega) (s.put b) h2 (tr := tr ++ (w.prog v).seen s [])
      (by have := hmem b.length; rwa [List.take_length] at this)
    refine ⟨tr', ?_, fun c hc => k2 c (List.mem_append_left _ hc), fun n => ?_⟩
    · unfold NpyWriter.extend NpyWriter.push
      rw [hco]
      simp only [Npyz.traced, hrun]
      simp only [Npyz.traced] at k1
      rw [k1, Sink.put_put, List.length_cons]
      simp only [Nat.add_assoc, Nat.add_comm 1]
    · by_cases hn : n ≤ b.length
      · rw [List.take_append_of_le_length hn]
        exact k2 _ (hmem n)
      · have := k3 (n - b.length)
        rwa [Sink.put_put, ← List.take_length_add_append, show b.length + (n - b.length) = n by omega] at this

end Npyz
