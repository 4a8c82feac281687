import Verif.Proofs.Crash
/-! Writing to streams that fail. -/
namespace Npyz
open Spec Py

namespace WProg

theorem opEvent_cases (evs : List RProg.Ev) :
    (∃ evs', opEvent evs = (none, evs') ∧ ∀ e ∈ evs', e ∈ evs) ∨
    (∃ c evs', RProg.Ev.fail c ∈ evs ∧ opEvent evs = (some c, evs') ∧ ∀ e ∈ evs', e ∈ evs) := by
  rcases evs with _ | ⟨(_ | _ | c), evs⟩
  · exact .inl ⟨[], rfl, by simp⟩
  · exact .inl ⟨evs, rfl, fun e he => by simp [he]⟩
  · exact .inl ⟨evs, rfl, fun e he => by simp [he]⟩
  · exact .inr ⟨c, evs, by simp, rfl, fun e he => by simp [he]⟩

theorem crash_zero {α : Type} (p : WProg α) (s : Sink) : (p.crash 0 s).data = s.data := by
  induction p generalizing s with
  | ret r => rfl
  | write b k ih =>
    rw [crash]
    by_cases hb : b = []
    · subst hb
      simp only [List.length_nil, Nat.lt_irrefl, if_false, Nat.sub_zero, Sink.put_nil, ih]
    · rw [if_pos (List.length_pos_iff.mpr hb), List.take_zero, Sink.put_nil]
  | tell k ih =>
    rw [crash]; split
    · exact ih _ _
    · rfl
  | seek q k ih =>
    rw [crash]; split
    · rw [ih]
    · rfl
  | flush k ih => exact ih _

theorem exec_seekable {α : Type} (p : WProg α) (s : Sink) : (p.exec s).2.seekable = s.seekable := by
  induction p generalizing s with
  | ret r => rfl
  | write b k ih => rw [exec, ih, Sink.put_seekable]
  | tell k ih =>
    rw [exec]; split
    · exact ih _ _
    · rfl
  | seek q k ih =>
    rw [exec]; split
    · rw [ih]
    · rfl
  | flush k ih => exact ih _

/-- A stream with a schedule does what a reliable one does, or it fails with an error of the schedule and
holds what a crash would leave. -/
theorem runSched_full {α : Type} (p : WProg α) (s : Sink) (evs : List RProg.Ev) :
    (∃ evs', p.runSched s evs = ((p.exec s).1, (p.exec s).2, evs') ∧ ∀ e ∈ evs', e ∈ evs) ∨
    (∃ c n s' evs', RProg.Ev.fail c ∈ evs ∧ p.runSched s evs = (.err (.source c), s', evs') ∧ s'.data = (p.crash n s).data ∧
      s'.seekable = s.seekable ∧ ∀ e ∈ evs', e ∈ evs) := by
  induction p generalizing s evs with
  | ret r => exact .inl ⟨evs, rfl, fun _ h => h⟩
  | write b k ih =>
    simp only [runSched, exec]
    rcases writeLoop_cases evs b s with ⟨evs', h1, h2⟩ | ⟨n, c, evs', h1, h2, h3, h4⟩
    · rw [h1]
      rcases ih (s.put b) evs' with ⟨ev2, h, h3⟩ | ⟨c, n, s', ev2, hc, h, h3, h4, h5⟩
      · exact .inl ⟨ev2, h, fun e he => h2 e (h3 e he)⟩
      · refine .inr ⟨c, b.length + n, s', ev2, h2 _ hc, h, ?_, by rw [h4, Sink.put_seekable], fun e he => h2 e (h5 e he)⟩
        rw [h3, crash, if_neg (by omega), Nat.add_sub_cancel_left]
    · rw [h3]
      refine .inr ⟨c, n, _, evs', h2, rfl, ?_, by simp, h4⟩
      rw [crash, if_pos h1]
  | tell k ih =>
    simp only [runSched, exec]
    by_cases hk : s.seekable = true
    · rw [if_pos hk, if_pos hk]
      rcases opEvent_cases evs with ⟨evs', h1, h2⟩ | ⟨c, evs', h1, h2, h3⟩
      · rw [h1]
        rcases ih s.pos s evs' with ⟨ev2, h, h3⟩ | ⟨c, n, s', ev2, hc, h, h3, h4, h5⟩
        · exact .inl ⟨ev2, h, fun e he => h2 e (h3 e he)⟩
        · exact .inr ⟨c, n, s', ev2, h2 _ hc, h, by rw [h3, crash, if_pos hk], h4, fun e he => h2 e (h5 e he)⟩
      · rw [h2]
        exact .inr ⟨c, 0, s, evs', h1, rfl, (crash_zero (.tell k) s).symm, rfl, h3⟩
    · rw [if_neg hk, if_neg hk]
      exact .inl ⟨evs, rfl, fun _ h => h⟩
  | seek q k ih =>
    simp only [runSched, exec]
    by_cases hk : s.seekable = true
    · rw [if_pos hk, if_pos hk]
      rcases opEvent_cases evs with ⟨evs', h1, h2⟩ | ⟨c, evs', h1, h2, h3⟩
      · rw [h1]
        rcases ih { s with pos := q } evs' with ⟨ev2, h, h3⟩ | ⟨c, n, s', ev2, hc, h, h3, h4, h5⟩
        · exact .inl ⟨ev2, h, fun e he => h2 e (h3 e he)⟩
        · exact .inr ⟨c, n, s', ev2, h2 _ hc, h, by rw [h3, crash, if_pos hk], h4, fun e he => h2 e (h5 e he)⟩
      · rw [h2]
        exact .inr ⟨c, 0, s, evs', h1, rfl, (crash_zero (.seek q k) s).symm, rfl, h3⟩
    · rw [if_neg hk, if_neg hk]
      exact .inl ⟨evs, rfl, fun _ h => h⟩
  | flush k ih =>
    simp only [runSched, exec]
    rcases opEvent_cases evs with ⟨evs', h1, h2⟩ | ⟨c, evs', h1, h2, h3⟩
    · rw [h1]
      rcases ih s evs' with ⟨ev2, h, h3⟩ | ⟨c, n, s', ev2, hc, h, h3, h4, h5⟩
      · exact .inl ⟨ev2, h, fun e he => h2 e (h3 e he)⟩
      · exact .inr ⟨c, n, s', ev2, h2 _ hc, h, h3, h4, fun e he => h2 e (h5 e he)⟩
    · rw [h2]
      exact .inr ⟨c, 0, s, evs', h1, rfl, (crash_zero (.flush k) s).symm, rfl, h3⟩

end WProg

/-- The same for a target. -/
theorem shaky_full {α : Type} (p : WProg α) (s : Sink) (evs : List RProg.Ev) :
    (∃ evs', shaky.exec p (s, evs) = ((solid.exec p s).1, ((solid.exec p s).2, evs')) ∧ ∀ e ∈ evs', e ∈ evs) ∨
    (∃ c n s' evs', RProg.Ev.fail c ∈ evs ∧ shaky.exec p (s, evs) = (.err (.source c), (s', evs')) ∧ s'.data = (p.crash n s).data ∧
      s'.seekable = s.seekable ∧ ∀ e ∈ evs', e ∈ evs) := p.runSched_full s evs

/-- Without failures. -/
theorem shaky_nofail {α : Type} (p : WProg α) (s : Sink) {evs : List RProg.Ev} (h : ∀ c, RProg.Ev.fail c ∉ evs) :
    ∃ evs', shaky.exec p (s, evs) = ((solid.exec p s).1, ((solid.exec p s).2, evs')) ∧ ∀ c, RProg.Ev.fail c ∉ evs' := by
  rcases shaky_full p s evs with ⟨evs', h1, h2⟩ | ⟨c, _, _, _, hc, _⟩
  · exact ⟨evs', h1, fun c hc => h c (h2 _ hc)⟩
  · exact absurd hc (h c)

namespace NpyWriter
variable {V : Type} {wr : DType → DRes (V → WProg Unit)}

theorem push_nofail (M : Machine) (w : NpyWriter V) (v : V) (s : Sink) {evs : List RProg.Ev} (h : ∀ c, RProg.Ev.fail c ∉ evs) :
    ∃ evs', w.push M shaky v (s, evs) = ((w.push M solid v s).1, (w.push M solid v s).2.1, ((w.push M solid v s).2.2, evs')) ∧
      ∀ c, RProg.Ev.fail c ∉ evs' := by
  unfold push
  cases w.counted M with
  | err e => exact ⟨evs, rfl, h⟩
  | panic => exact ⟨evs, rfl, h⟩
  | ok w' =>
    obtain ⟨evs', h1, h2⟩ := shaky_nofail (w'.prog v) s h
    simp only [h1]
    exact ⟨evs', rfl, h2⟩

theorem pushAll_nofail (M : Machine) (vs : List V) (w : NpyWriter V) (s : Sink) {evs : List RProg.Ev} (h : ∀ c, RProg.Ev.fail c ∉ evs) :
    ∃ evs', w.pushAll M shaky vs (s, evs) = ((w.pushAll M solid vs s).1, (w.pushAll M solid vs s).2.1, ((w.pushAll M solid vs s).2.2, evs')) ∧
      ∀ c, RProg.Ev.fail c ∉ evs' := by
  induction vs generalizing w s evs with
  | nil => exact ⟨evs, rfl, h⟩
  | cons v vs ih =>
    obtain ⟨ev1, h1, h2⟩ := push_nofail M w v s h
    obtain ⟨ev2, h3, h4⟩ := ih (w.push M solid v s).2.1 (w.push M solid v s).2.2 h2
    refine ⟨ev2, ?_, h4⟩
    simp only [pushAll, h1, h3]

theorem extend_nofail (M : Machine) (vs : List V) (w : NpyWriter V) (s : Sink) {evs : List RProg.Ev} (h : ∀ c, RProg.Ev.fail c ∉ evs) :
    ∃ evs', w.extend M shaky vs (s, evs) = ((w.extend M solid vs s).1, (w.extend M solid vs s).2.1, ((w.extend M solid vs s).2.2, evs')) ∧
      ∀ c, RProg.Ev.fail c ∉ evs' := by
  induction vs generalizing w s evs with
  | nil => exact ⟨evs, rfl, h⟩
  | cons v vs ih =>
    obtain ⟨ev1, h1, h2⟩ := push_nofail M w v s h
    unfold extend
    rw [h1]
    rcases w.push M solid v s with ⟨(⟨⟩ | e | _), w', s'⟩
    · exact ih w' s' h2
    · exact ⟨ev1, rfl, h2⟩
    · exact ⟨ev1, rfl, h2⟩

theorem drop_nofail (M : Machine) (w : NpyWriter V) (s : Sink) {evs : List RProg.Ev} (h : ∀ c, RProg.Ev.fail c ∉ evs) :
    ∃ evs', w.drop M shaky (s, evs) = ((w.drop M solid s).1, ((w.drop M solid s).2, evs')) ∧ ∀ c, RProg.Ev.fail c ∉ evs' := by
  obtain ⟨ev1, h1, h2⟩ := shaky_nofail (w.finish_ M) s h
  unfold drop
  rw [h1]
  rcases solid.exec (w.finish_ M) s with ⟨(⟨⟩ | e | _), s'⟩ <;> exact ⟨ev1, rfl, h2⟩

theorem finish_nofail (M : Machine) (w : NpyWriter V) (s : Sink) {evs : List RProg.Ev} (h : ∀ c, RProg.Ev.fail c ∉ evs) :
    ∃ evs', w.finish M shaky (s, evs) = ((w.finish M solid s).1, ((w.finish M solid s).2, evs')) ∧ ∀ c, RProg.Ev.fail c ∉ evs' := by
  obtain ⟨ev1, h1, h2⟩ := shaky_nofail (w.finish_ M) s h
  obtain ⟨ev2, h3, h4⟩ := drop_nofail M w (solid.exec (w.finish_ M) s).2 h2
  unfold finish
  simp only [h1, h3]
  rcases w.drop M solid (solid.exec (w.finish_ M) s).2 with ⟨(⟨⟩ | e | _), s'⟩ <;> exact ⟨ev2, rfl, h4⟩

theorem saveWith_nofail (M : Machine) (d : DType) (o : Order) (hint : ShapeHint) (vs : List V) (s : Sink) {evs : List RProg.Ev}
    (h : ∀ c, RProg.Ev.fail c ∉ evs) :
    ∃ evs', saveWith M shaky wr d o hint vs (s, evs) = ((saveWith M solid wr d o hint vs s).1, ((saveWith M solid wr d o hint vs s).2, evs')) ∧
      ∀ c, RProg.Ev.fail c ∉ evs' := by
  obtain ⟨ev1, h1, h2⟩ := shaky_nofail (NpyWriter.beginWith M wr d o hint) s h
  unfold saveWith
  rw [h1]
  rcases solid.exec (NpyWriter.beginWith M wr d o hint) s with ⟨(w | e | _), s1⟩
  · obtain ⟨ev2, h3, h4⟩ := extend_nofail M vs w s1 h2
    simp only [h3]
    rcases w.extend M solid vs s1 with ⟨(⟨⟩ | e | _), w', s2⟩
    · exact finish_nofail M w' s2 h4
    · obtain ⟨ev3, h5, h6⟩ := drop_nofail M w' s2 h4
      simp only [h5]
      rcases w'.drop M solid s2 with ⟨(⟨⟩ | e | _), s3⟩ <;> exact ⟨ev3, rfl, h6⟩
    · obtain ⟨ev3, h5, h6⟩ := drop_nofail M w' s2 h4
      simp only [h5]
      exact ⟨ev3, rfl, h6⟩
  · exact ⟨ev1, rfl, h2⟩
  · exact ⟨ev1, rfl, h2⟩

end NpyWriter

/-! ### Success -/

theorem overwrite_prefix (data : Bytes) (q : Nat) (b : Bytes) (n : Nat) : overwrite (overwrite data q b) q (b.take n) = overwrite data q b := by
  unfold overwrite
  have hl := length_overwrite_head data q
  generalize (data ++ List.replicate (q - data.length) 0).take q = hd at hl
  have h1 : (hd ++ b ++ data.drop (q + b.length)).length ≥ q := by simp; omega
  rw [Nat.sub_eq_zero_of_le h1, List.replicate_zero, List.append_nil, List.append_assoc hd b (data.drop _), List.take_left' hl]
  have : (hd ++ (b ++ data.drop (q + b.length))).drop (q + (b.take n).length) = b.drop n ++ data.drop (q + b.length) := by
    rw [← hl, List.drop_append, List.drop_eq_nil_of_le (by omega), List.nil_append, Nat.add_sub_cancel_left, List.drop_append_of_le_length (by simp; omega)]
    congr 1
    simp only [List.length_take]
    by_cases h : n ≤ b.length
    · rw [Nat.min_eq_left h]
    · rw [Nat.min_eq_right (by omega), List.drop_eq_nil_of_le (Nat.le_refl _), List.drop_eq_nil_of_le (by omega)]
  rw [this]
  simp only [List.append_assoc]
  rw [← List.append_assoc (b.take n), List.take_append_drop]

/-- What kind of program finishing is. -/
theorem finish_form {M : Machine} {V : Type} (w : NpyWriter V) (hn : w.numItems < 2 ^ 64) :
    (∃ r, w.finish_ M = .ret r ∧ r ≠ .ok ()) ∨ w.finish_ M = .flush (.ret (.ok ())) ∨
    ∃ q b, w.finish_ M = .tell fun e => .seek q (.write b (.seek e (.flush (.ret (.ok ()))))) := by
  have hrw : ∀ off text, (w.rewrite M off (.ok text) = .ret .panic) ∨
      ∃ q b, w.rewrite M off (.ok text) = .tell fun e => .seek q (.write b (.seek e (.ret (.ok ())))) := by
    intro off text
    unfold NpyWriter.rewrite NpyWriter.unwrapStart
    cases w.startPos with
    | none => exact .inl rfl
    | some p =>
      rw [lift_ok_bind]
      rcases addU64_np M p w.props.bytesBeforeText with ⟨a, ha⟩ | ha
      · rw [ha, lift_ok_bind]
        rcases addU64_np M a off with ⟨q, hq⟩ | hq
        · rw [hq, lift_ok_bind]
          exact .inr ⟨q, _, rfl⟩
        · rw [hq]; exact .inl rfl
      · rw [ha]; exact .inl rfl
  have hfin : ∀ off text, ((w.rewrite M off (.ok text) >>= fun _ => WProg.flushAll) = .ret .panic) ∨
      ∃ q b, (w.rewrite M off (.ok text) >>= fun _ => WProg.flushAll) = .tell fun e => .seek q (.write b (.seek e (.flush (.ret (.ok ()))))) := by
    intro off text
    rcases hrw off text with h | ⟨q, b, h⟩
    · rw [h]; exact .inl rfl
    · rw [h]; exact .inr ⟨q, b, rfl⟩
  unfold NpyWriter.finish_ NpyWriter.patch
  cases w.info with
  | known n =>
    simp only
    by_cases h : n ≠ w.numItems
    · rw [if_pos h]; exact .inl ⟨.err (.invalidData "wrong number of items"), rfl, by simp⟩
    · rw [if_neg h]; exact .inr (.inl rfl)
  | auto1 off =>
    simp only [shapeSuffix1d, fillerPadding_ok (toDigits_length_le hn), Out.bind_ok]
    rcases hfin off (Nat.toDigits 10 w.numItems ++ txt ",), }" ++ List.replicate (20 - (Nat.toDigits 10 w.numItems).length) ' ') with h | h
    · exact .inl ⟨_, h, by simp⟩
    · exact .inr (.inr h)
  | auto2 off r o =>
    simp only
    cases hr : NpyWriter.rows w.numItems r with
    | ok m =>
      have hm : m < 2 ^ 64 := by
        unfold NpyWriter.rows at hr
        split at hr
        · cases hr
        · split at hr
          · cases hr
          · cases hr; exact Nat.lt_of_le_of_lt (Nat.div_le_self _ _) hn
      rw [lift_ok_bind]
      simp only [shapeSuffix2d, fillerPadding_ok (toDigits_length_le hm), Out.bind_ok]
      rcases hfin off (axes2d o r (Nat.toDigits 10 m) ++ txt "), }" ++ List.replicate (20 - (Nat.toDigits 10 m).length) ' ') with h | h
      · exact .inl ⟨_, h, by simp⟩
      · exact .inr (.inr h)
    | err e => exact .inl ⟨.err e, rfl, by simp⟩
    | panic => exact .inl ⟨.panic, rfl, by simp⟩

/-- Interrupting a second rewrite does no harm. -/
theorem finish_again {M : Machine} {V : Type} (w : NpyWriter V) (hn : w.numItems < 2 ^ 64) (s : Sink) (h : ((w.finish_ M).exec s).1 = .ok ()) (n : Nat) :
    ((w.finish_ M).crash n ((w.finish_ M).exec s).2).data = ((w.finish_ M).exec s).2.data := by
  rcases finish_form (M := M) w hn with ⟨r, h1, -⟩ | h1 | ⟨q, b, h1⟩
  · rw [h1]; rfl
  · rw [h1]; rfl
  · rw [h1] at h ⊢
    by_cases hk : s.seekable = true
    · rw [WProg.exec, if_pos hk, WProg.exec, if_pos hk, WProg.exec, WProg.exec, if_pos (by simp [hk])]
      show (WProg.crash n _ _).data = (Sink.put { s with pos := q } b).data
      rw [WProg.crash, if_pos (by simp [WProg.exec, hk]), WProg.crash, if_pos (by simp [WProg.exec, hk]), WProg.crash]
      simp only [WProg.exec]
      by_cases hb : b = []
      · subst hb
        rw [if_neg (by simp), WProg.crash, if_pos (by simp [Sink.put_nil, hk]), WProg.crash, WProg.crash]
        simp [Sink.put_nil]
      · by_cases hlt : n < b.length
        · rw [if_pos hlt]
          by_cases hn0 : b.take n = []
          · rw [hn0, Sink.put_nil]
          · rw [Sink.put_data_of_ne hn0, Sink.put_data_of_ne hb]
            exact overwrite_prefix _ _ _ _
        · rw [if_neg hlt, WProg.crash, if_pos (by simp [hk]), WProg.crash, WProg.crash, Sink.put_data_of_ne hb, Sink.put_data_of_ne hb]
          exact overwrite_idem _ _ _
    · rw [WProg.exec, if_neg hk] at h
      cases h

theorem addU64_lt {M : Machine} {a b n : Nat} (h : M.addU64 a b = .ok n) : n < 2 ^ 64 := by
  unfold Machine.addU64 at h
  split at h
  · cases h; assumption
  · split at h
    · cases h
    · cases h; exact Nat.mod_lt _ (by decide)

namespace NpyWriter
variable {V : Type} {wr : DType → DRes (V → WProg Unit)}

theorem counted_lt {M : Machine} {w w' : NpyWriter V} (h : w.counted M = .ok w') : w'.numItems < 2 ^ 64 := by
  unfold counted at h
  rcases ha : M.addU64 w.numItems 1 with n | e | _
  · rw [ha] at h; cases h; exact addU64_lt ha
  · rw [ha] at h; cases h
  · rw [ha] at h; cases h

theorem push_shaky (M : Machine) (w : NpyWriter V) (v : V) (s : Sink) (evs : List RProg.Ev) :
    (∃ evs', w.push M shaky v (s, evs) = ((w.push M solid v s).1, (w.push M solid v s).2.1, ((w.push M solid v s).2.2, evs')) ∧
      ∀ e ∈ evs', e ∈ evs) ∨
    (∃ c n w' s' evs', RProg.Ev.fail c ∈ evs ∧ w.counted M = .ok w' ∧ w.push M shaky v (s, evs) = (.err (.source c), w', (s', evs')) ∧
      s'.data = ((w'.prog v).crash n s).data ∧ s'.seekable = s.seekable ∧ ∀ e ∈ evs', e ∈ evs) := by
  unfold push
  rcases hc : w.counted M with w' | e | _
  · rcases shaky_full (w'.prog v) s evs with ⟨ev1, h1, h2⟩ | ⟨c, n, s', ev1, h1, h2, h3, h4, h5⟩
    · simp only [h1]; exact .inl ⟨ev1, rfl, h2⟩
    · simp only [h2]; exact .inr ⟨c, n, w', s', ev1, h1, rfl, rfl, h3, h4, h5⟩
  · exact .inl ⟨evs, rfl, fun _ h => h⟩
  · exact .inl ⟨evs, rfl, fun _ h => h⟩

theorem push_lt {M : Machine} {σ : Type} {T : Target σ} {w : NpyWriter V} (h : w.numItems < 2 ^ 64) (v : V) (s : σ) :
    (w.push M T v s).2.1.numItems < 2 ^ 64 := by
  unfold push
  rcases hc : w.counted M with w' | e | _
  · exact counted_lt hc
  · exact h
  · exact h

theorem extend_lt {M : Machine} {σ : Type} {T : Target σ} (vs : List V) {w : NpyWriter V} (h : w.numItems < 2 ^ 64) (s : σ) :
    (w.extend M T vs s).2.1.numItems < 2 ^ 64 := by
  induction vs generalizing w s with
  | nil => exact h
  | cons v vs ih =>
    have := push_lt (M := M) (T := T) h v s
    unfold extend
    rcases hp : w.push M T v s with ⟨(⟨⟩ | e | _), w', s'⟩ <;> rw [hp] at this
    · exact ih this s'
    · exact this
    · exact this

/-- `extend` does what it does on a reliable stream, or some `push` failed. -/
theorem extend_shaky (M : Machine) (vs : List V) (w : NpyWriter V) (s : Sink) (evs : List RProg.Ev) :
    (∃ evs', w.extend M shaky vs (s, evs) = ((w.extend M solid vs s).1, (w.extend M solid vs s).2.1, ((w.extend M solid vs s).2.2, evs')) ∧
      ∀ e ∈ evs', e ∈ evs) ∨
    (∃ c w' s' evs', RProg.Ev.fail c ∈ evs ∧ w.extend M shaky vs (s, evs) = (.err (.source c), w', (s', evs')) ∧
      ∀ e ∈ evs', e ∈ evs) := by
  induction vs generalizing w s evs with
  | nil => exact .inl ⟨evs, rfl, fun _ h => h⟩
  | cons v vs ih =>
    unfold extend
    rcases push_shaky M w v s evs with ⟨ev1, h1, h2⟩ | ⟨c, n, w', s', ev1, h1, h2, h3, -, -, h5⟩
    · rw [h1]
      rcases w.push M solid v s with ⟨(⟨⟩ | e | _), w', s'⟩
      · rcases ih w' s' ev1 with ⟨ev2, h3, h4⟩ | ⟨c, w2, s2, ev2, h3, h4, h5⟩
        · exact .inl ⟨ev2, h3, fun e he => h2 e (h4 e he)⟩
        · exact .inr ⟨c, w2, s2, ev2, h2 _ h3, h4, fun e he => h2 e (h5 e he)⟩
      · exact .inl ⟨ev1, rfl, h2⟩
      · exact .inl ⟨ev1, rfl, h2⟩
    · rw [h3]
      exact .inr ⟨c, w', s', ev1, h1, rfl, h5⟩

/-- If finishing succeeds on a stream that may fail, the file is the one a reliable stream holds. -/
theorem finish_shaky_ok {M : Machine} {w : NpyWriter V} (hn : w.numItems < 2 ^ 64) {s s' : Sink} {evs evs' : List RProg.Ev}
    (h : w.finish M shaky (s, evs) = (.ok (), (s', evs'))) : ∃ s2, w.finish M solid s = (.ok (), s2) ∧ s'.data = s2.data := by
  rw [(finish_eq w hn s).1]
  unfold finish at h
  rcases shaky_full (w.finish_ M) s evs with ⟨ev1, h1, -⟩ | ⟨c, n, s1, ev1, -, h1, -⟩
  · have hd := shaky_full (w.finish_ M) (solid.exec (w.finish_ M) s).2 ev1
    simp only [h1] at h
    unfold drop at h
    rcases hd with ⟨ev2, h2, -⟩ | ⟨c, n, s2, ev2, -, h2, h3, -⟩
    · rw [h2] at h
      have h3 := finish_twice (M := M) w hn s
      have h4 : solid.exec (w.finish_ M) (solid.exec (w.finish_ M) s).2 = (w.finish_ M).exec s := h3
      rw [h4] at h
      have h5 : solid.exec (w.finish_ M) s = (w.finish_ M).exec s := rfl
      rw [h5] at h
      rcases hx : (w.finish_ M).exec s with ⟨(⟨⟩ | e | _), s2⟩ <;> rw [hx] at h
      · cases h; exact ⟨_, rfl, rfl⟩
      · cases h
      · cases h
    · rw [h2] at h
      simp only [Prod.mk.injEq] at h
      obtain ⟨hr, rfl, -⟩ := h
      have hr : ((w.finish_ M).exec s).1 = .ok () := hr
      refine ⟨((w.finish_ M).exec s).2, Prod.ext hr rfl, ?_⟩
      rw [h3]
      exact finish_again w hn s hr n
  · simp only [h1] at h
    rcases hd : w.drop M shaky (s1, ev1) with ⟨(⟨⟩ | e | _), s3⟩ <;> rw [hd] at h <;> cases h

/-- The same for a whole session. -/
theorem saveWith_shaky_ok {M : Machine} {d : DType} {o : Order} {hint : ShapeHint} {vs : List V} {s s' : Sink} {evs evs' : List RProg.Ev}
    (h : saveWith M shaky wr d o hint vs (s, evs) = (.ok (), (s', evs'))) :
    ∃ s2, saveWith M solid wr d o hint vs s = (.ok (), s2) ∧ s'.data = s2.data := by
  unfold saveWith at h ⊢
  rcases shaky_full (NpyWriter.beginWith M wr d o hint) s evs with ⟨ev1, h1, -⟩ | ⟨c, n, s1, ev1, -, h1, -⟩
  · rw [h1] at h
    rcases hb : solid.exec (NpyWriter.beginWith M wr d o hint) s with ⟨(w | e | _), s1⟩ <;> rw [hb] at h
    · simp only at h ⊢
      have h0 : w.numItems < 2 ^ 64 := by rw [(beginWith_ok hb).2.1]; decide
      rcases extend_shaky M vs w s1 ev1 with ⟨ev2, h2, -⟩ | ⟨c, w', s2, ev2, -, h2, -⟩
      · rw [h2] at h
        have hlt := extend_lt (M := M) (T := solid) vs h0 s1
        rcases he : w.extend M solid vs s1 with ⟨(⟨⟩ | e | _), w', s2⟩ <;> rw [he] at h hlt
        · exact finish_shaky_ok hlt h
        · simp only at h
          rcases hd : w'.drop M shaky (s2, ev2) with ⟨(⟨⟩ | e | _), s3⟩ <;> rw [hd] at h <;> cases h
        · cases h
      · rw [h2] at h
        simp only at h
        rcases hd : w'.drop M shaky (s2, ev2) with ⟨(⟨⟩ | e | _), s3⟩ <;> rw [hd] at h <;> cases h
    · cases h
    · cases h
  · rw [h1] at h
    cases h

/-! ### Errors -/

theorem shaky_seekable {α : Type} (p : WProg α) (s : Sink) (evs : List RProg.Ev) : (shaky.exec p (s, evs)).2.1.seekable = s.seekable := by
  rcases shaky_full p s evs with ⟨_, h1, -⟩ | ⟨_, _, s', _, -, h1, -, h2, -⟩
  · rw [h1]; exact p.exec_seekable s
  · rw [h1]; exact h2

theorem push_keeps (M : Machine) {w : NpyWriter V} (hn : w.numItems < 2 ^ 64) (v : V) (s : Sink) (evs : List RProg.Ev) :
    (∃ n, n < 2 ^ 64 ∧ (w.push M shaky v (s, evs)).2.1 = { w with numItems := n }) ∧
    (w.push M shaky v (s, evs)).2.2.1.seekable = s.seekable := by
  unfold push
  rcases hc : w.counted M with w' | e | _
  · refine ⟨⟨w'.numItems, counted_lt hc, ?_⟩, shaky_seekable _ _ _⟩
    unfold counted at hc
    rcases ha : M.addU64 w.numItems 1 with n | e | _
    · rw [ha] at hc; cases hc; rfl
    · rw [ha] at hc; cases hc
    · rw [ha] at hc; cases hc
  · exact ⟨⟨w.numItems, hn, rfl⟩, rfl⟩
  · exact ⟨⟨w.numItems, hn, rfl⟩, rfl⟩

theorem extend_keeps (M : Machine) (vs : List V) {w : NpyWriter V} (hn : w.numItems < 2 ^ 64) (s : Sink) (evs : List RProg.Ev) :
    (∃ n, n < 2 ^ 64 ∧ (w.extend M shaky vs (s, evs)).2.1 = { w with numItems := n }) ∧
    (w.extend M shaky vs (s, evs)).2.2.1.seekable = s.seekable := by
  induction vs generalizing w s evs with
  | nil => exact ⟨⟨_, hn, rfl⟩, rfl⟩
  | cons v vs ih =>
    obtain ⟨⟨n, h1, h2⟩, h3⟩ := push_keeps M hn v s evs
    unfold extend
    rcases hp : w.push M shaky v (s, evs) with ⟨(⟨⟩ | e | _), w', s', ev1⟩ <;> rw [hp] at h2 h3 <;> simp only at h2 h3 ⊢
    · obtain ⟨⟨m, k1, k2⟩, k3⟩ := ih (w := w') (by rw [h2]; exact h1) s' ev1
      refine ⟨⟨m, k1, ?_⟩, by rw [k3, h3]⟩
      rw [k2, h2]
    · exact ⟨⟨n, h1, h2⟩, h3⟩
    · exact ⟨⟨n, h1, h2⟩, h3⟩

/-- Finishing a writer does not panic, wherever the stream stands. -/
theorem finish_np {M : Machine} {d : DType} {o : Order} {hint : ShapeHint} {p : Nat} {w : NpyWriter V} (hst : Begun M d o hint p w)
    (hn : w.numItems < 2 ^ 64) (hz : hint ≠ .twoD 0) (hlt : hint.seeks = true → p + dictBytes d o hint + 76 ≤ 2 ^ 64) {s : Sink}
    (hk : hint.seeks = true → s.seekable = true) : ((w.finish_ M).exec s).1 ≠ .panic := by
  have hl := headerBytes_le d o hint
  have key : hint.seeks = true → CountFits w.numItems hint → ((w.finish_ M).exec s).1 ≠ .panic := by
    intro hs hc
    have := hlt hs
    rw [finish_prog hs hst (by omega) hn hz hc, WProg.exec, if_pos (hk hs), WProg.exec, if_pos (hk hs), WProg.exec, WProg.exec,
      if_pos (by simp [hk hs])]
    simp [WProg.exec]
  cases hint with
  | nd dims =>
    obtain ⟨n, -, hi⟩ := hst.info
    rw [exec_finish_nd hi]
    by_cases h : n = w.numItems
    · rw [if_pos h]; simp
    · rw [if_neg h]; simp
  | oneD => exact key rfl trivial
  | twoD r =>
    have hr : r ≠ 0 := by rintro rfl; exact hz rfl
    by_cases hd : r ∣ w.numItems
    · exact key rfl hd
    · rw [exec_finish_count hst.info hr hd]; simp

theorem shaky_np {α : Type} {p : WProg α} {s : Sink} (h : (p.exec s).1 ≠ .panic) (evs : List RProg.Ev) : (shaky.exec p (s, evs)).1 ≠ .panic := by
  rcases shaky_full p s evs with ⟨_, h1, -⟩ | ⟨_, _, s', _, -, h1, -⟩
  · rw [h1]; exact h
  · rw [h1]; simp

theorem drop_np {M : Machine} {d : DType} {o : Order} {hint : ShapeHint} {p : Nat} {w : NpyWriter V} (hst : Begun M d o hint p w)
    (hn : w.numItems < 2 ^ 64) (hz : hint ≠ .twoD 0) (hlt : hint.seeks = true → p + dictBytes d o hint + 76 ≤ 2 ^ 64) {s : Sink}
    (hk : hint.seeks = true → s.seekable = true) (evs : List RProg.Ev) : (w.drop M shaky (s, evs)).1 = .ok () := by
  have h := shaky_np (finish_np hst hn hz hlt hk) evs
  unfold drop
  rcases hx : shaky.exec (w.finish_ M) (s, evs) with ⟨(⟨⟩ | e | _), s'⟩
  · rfl
  · rfl
  · rw [hx] at h
    exact absurd rfl h

theorem finish_result {M : Machine} {d : DType} {o : Order} {hint : ShapeHint} {p : Nat} {w : NpyWriter V} (hst : Begun M d o hint p w)
    (hn : w.numItems < 2 ^ 64) (hz : hint ≠ .twoD 0) (hlt : hint.seeks = true → p + dictBytes d o hint + 76 ≤ 2 ^ 64) {s : Sink}
    (hk : hint.seeks = true → s.seekable = true) (evs : List RProg.Ev) :
    (w.finish M shaky (s, evs)).1 = (shaky.exec (w.finish_ M) (s, evs)).1 := by
  have hd := drop_np hst hn hz hlt (s := (shaky.exec (w.finish_ M) (s, evs)).2.1) (fun h => by rw [shaky_seekable]; exact hk h)
    (shaky.exec (w.finish_ M) (s, evs)).2.2
  unfold finish
  rcases hx : w.drop M shaky (shaky.exec (w.finish_ M) (s, evs)).2 with ⟨(⟨⟩ | e | _), s'⟩
  · rfl
  · rfl
  · rw [hx] at hd; cases hd

/-- The result of a session is the one on a reliable stream, or an error of the schedule. -/
theorem saveWith_result {M : Machine} {d : DType} {o : Order} {hint : ShapeHint} (hz : hint ≠ .twoD 0) {vs : List V} {s : Sink}
    (hlt : hint.seeks = true → s.pos + dictBytes d o hint + 76 ≤ 2 ^ 64) (evs : List RProg.Ev) :
    (saveWith M shaky wr d o hint vs (s, evs)).1 = (saveWith M solid wr d o hint vs s).1 ∨
    ∃ c, RProg.Ev.fail c ∈ evs ∧ (saveWith M shaky wr d o hint vs (s, evs)).1 = .err (.source c) := by
  obtain ⟨evx, hsolid, -⟩ := saveWith_nofail (wr := wr) M d o hint vs s (evs := []) (by simp)
  have hsolid : (saveWith M solid wr d o hint vs s).1 = (saveWith M shaky wr d o hint vs (s, [])).1 := by rw [hsolid]
  rw [hsolid]
  unfold saveWith
  obtain ⟨e0, hb0, hf0⟩ := shaky_nofail (NpyWriter.beginWith M wr d o hint) s (evs := []) (by simp)
  rw [hb0]
  rcases shaky_full (NpyWriter.beginWith M wr d o hint) s evs with ⟨ev1, h1, hev1⟩ | ⟨c, n, s1, ev1, hc, h1, -⟩
  · rw [h1]
    rcases hb : solid.exec (NpyWriter.beginWith M wr d o hint) s with ⟨(w | e | _), s1⟩
    · simp only
      obtain ⟨⟨hst, -⟩, h0, hk, hs1⟩ := beginWith_ok hb
      have h0 : w.numItems < 2 ^ 64 := by rw [h0]; decide
      have hk : hint.seeks = true → s1.seekable = true := fun h => by rw [hs1, Sink.put_seekable]; exact hk h
      -- drops do not panic
      have hdrop : ∀ (ev : List RProg.Ev) (ev' : List RProg.Ev), ((w.extend M shaky vs (s1, ev)).2.1.drop M shaky
          ((w.extend M shaky vs (s1, ev)).2.2.1, ev')).1 = .ok () := by
        intro ev ev'
        obtain ⟨⟨n, k1, k2⟩, k3⟩ := extend_keeps M vs h0 s1 ev
        rw [k2]
        exact drop_np (hst.count n) k1 hz hlt (fun h => by rw [k3]; exact hk h) ev'
      have hfin : ∀ (ev : List RProg.Ev) (ev' : List RProg.Ev), ((w.extend M shaky vs (s1, ev)).2.1.finish M shaky
          ((w.extend M shaky vs (s1, ev)).2.2.1, ev')).1 = (shaky.exec ((w.extend M shaky vs (s1, ev)).2.1.finish_ M)
          ((w.extend M shaky vs (s1, ev)).2.2.1, ev')).1 := by
        intro ev ev'
        obtain ⟨⟨n, k1, k2⟩, k3⟩ := extend_keeps M vs h0 s1 ev
        rw [k2]
        exact finish_result (hst.count n) k1 hz hlt (fun h => by rw [k3]; exact hk h) ev'
      obtain ⟨e1, hx0, hfx⟩ := extend_nofail M vs w s1 hf0
      have hd0 := hdrop e0
      have hf0' := hfin e0
      rw [hx0] at hd0 hf0' ⊢
      rcases extend_shaky M vs w s1 ev1 with ⟨ev2, h2, hev2⟩ | ⟨c, w', s2, ev2, hc, h2, -⟩
      · have hd1 := hdrop ev1
        have hf1 := hfin ev1
        rw [h2] at hd1 hf1 ⊢
        rcases hxx : w.extend M solid vs s1 with ⟨(⟨⟩ | e | _), w', s2⟩ <;> rw [hxx] at hd0 hd1 hf0' hf1 <;>
          simp only at hd0 hd1 hf0' hf1 ⊢
        · rw [hf0', hf1]
          obtain ⟨e3, hy, -⟩ := shaky_nofail (w'.finish_ M) s2 hfx
          rw [hy]
          rcases shaky_full (w'.finish_ M) s2 ev2 with ⟨ev3, h3, -⟩ | ⟨c, n, s3, ev3, hc, h3, -⟩
          · rw [h3]; exact .inl rfl
          · rw [h3]; exact .inr ⟨c, hev1 _ (hev2 _ hc), rfl⟩
        · left
          rcases hx : w'.drop M shaky (s2, ev2) with ⟨(⟨⟩ | e' | _), s3⟩ <;>
          rcases hy : w'.drop M shaky (s2, e1) with ⟨(⟨⟩ | e' | _), s4⟩
          all_goals first
            | rfl
            | (have h := hd1 ev2; rw [hx] at h; cases h; done)
            | (have h := hd0 e1; rw [hy] at h; cases h; done)
        · left; trivial
      · right
        have hd1 := hdrop ev1 ev2
        rw [h2] at hd1 ⊢
        simp only at hd1 ⊢
        refine ⟨c, hev1 _ hc, ?_⟩
        rcases hx : w'.drop M shaky (s2, ev2) with ⟨(⟨⟩ | e' | _), s3⟩
        · rfl
        · rfl
        · rw [hx] at hd1; cases hd1
    · exact .inl rfl
    · exact .inl rfl
  · rw [h1]
    exact .inr ⟨c, hc, rfl⟩

end NpyWriter

end Npyz
