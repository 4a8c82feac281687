import Verif.Proofs.IoError
import Verif.Spec.Buffer
/-! Writing through a `BufWriter`. -/
namespace Npyz
open Spec Py

namespace BufSink

theorem flushLoop_cases (evs : List RProg.Ev) (b : Bytes) (s : Sink) :
    (∃ evs', flushLoop evs b s = (none, [], s.put b, evs') ∧ ∀ e ∈ evs', e ∈ evs) ∨
    (∃ n c evs', n < b.length ∧ RProg.Ev.fail c ∈ evs ∧ flushLoop evs b s = (some c, b.drop n, s.put (b.take n), evs') ∧ ∀ e ∈ evs', e ∈ evs) := by
  induction evs generalizing b s with
  | nil => exact .inl ⟨[], rfl, by simp⟩
  | cons ev evs ih =>
    by_cases hb : b = []
    · subst hb
      exact .inl ⟨ev :: evs, by simp [flushLoop, Sink.put_nil], fun e h => h⟩
    · have hlen : 0 < b.length := List.length_pos_iff.mpr hb
      cases ev with
      | interrupted =>
        simp only [flushLoop, if_neg hb]
        rcases ih b s with ⟨evs', h1, h2⟩ | ⟨n, c, evs', h1, h2, h3, h4⟩
        · exact .inl ⟨evs', h1, fun e he => by simp [h2 e he]⟩
        · exact .inr ⟨n, c, evs', h1, by simp [h2], h3, fun e he => by simp [h4 e he]⟩
      | fail c =>
        simp only [flushLoop, if_neg hb]
        exact .inr ⟨0, c, evs, hlen, by simp, by simp [Sink.put_nil], fun e he => by simp [he]⟩
      | short k =>
        simp only [flushLoop, if_neg hb]
        rcases ih (b.drop (k + 1)) (s.put (b.take (k + 1))) with ⟨evs', h1, h2⟩ | ⟨n, c, evs', h1, h2, h3, h4⟩
        · exact .inl ⟨evs', by rw [h1, Sink.put_put, List.take_append_drop], fun e he => by simp [h2 e he]⟩
        · rw [List.length_drop] at h1
          refine .inr ⟨k + 1 + n, c, evs', by omega, by simp [h2], ?_, fun e he => by simp [h4 e he]⟩
          rw [h3, Sink.put_put, List.drop_drop, ← List.take_add]

theorem directLoop_cases (cap : Nat) (evs : List RProg.Ev) (b : Bytes) (s : Sink) :
    (∃ n evs', directLoop cap evs b s = (none, b.drop n, s.put (b.take n), evs') ∧ ∀ e ∈ evs', e ∈ evs) ∨
    (∃ n c evs', n < b.length ∧ RProg.Ev.fail c ∈ evs ∧ directLoop cap evs b s = (some c, [], s.put (b.take n), evs') ∧ ∀ e ∈ evs', e ∈ evs) := by
  induction evs generalizing b s with
  | nil =>
    by_cases h : b.length < cap
    · exact .inl ⟨0, [], by simp [directLoop, h, Sink.put_nil], by simp⟩
    · exact .inl ⟨b.length, [], by simp [directLoop, h], by simp⟩
  | cons ev evs ih =>
    by_cases hb : b = [] ∨ b.length < cap
    · exact .inl ⟨0, ev :: evs, by simp [directLoop, hb, Sink.put_nil], fun e h => h⟩
    · have hlen : 0 < b.length := List.length_pos_iff.mpr fun h => hb (.inl h)
      cases ev with
      | interrupted =>
        simp only [directLoop, if_neg hb]
        rcases ih b s with ⟨n, evs', h1, h2⟩ | ⟨n, c, evs', h1, h2, h3, h4⟩
        · exact .inl ⟨n, evs', h1, fun e he => by simp [h2 e he]⟩
        · exact .inr ⟨n, c, evs', h1, by simp [h2], h3, fun e he => by simp [h4 e he]⟩
      | fail c =>
        simp only [directLoop, if_neg hb]
        exact .inr ⟨0, c, evs, hlen, by simp, by simp [Sink.put_nil], fun e he => by simp [he]⟩
      | short k =>
        simp only [directLoop, if_neg hb]
        rcases ih (b.drop (k + 1)) (s.put (b.take (k + 1))) with ⟨n, evs', h1, h2⟩ | ⟨n, c, evs', h1, h2, h3, h4⟩
        · refine .inl ⟨k + 1 + n, evs', ?_, fun e he => by simp [h2 e he]⟩
          rw [h1, Sink.put_put, List.drop_drop, ← List.take_add]
        · rw [List.length_drop] at h1
          refine .inr ⟨k + 1 + n, c, evs', by omega, by simp [h2], ?_, fun e he => by simp [h4 e he]⟩
          rw [h3, Sink.put_put, ← List.take_add]

theorem flushBuf_cases (t : BufSink) :
    (∃ evs', t.flushBuf = (none, ⟨[], viewed t, evs'⟩) ∧ ∀ e ∈ evs', e ∈ t.evs) ∨
    (∃ n c evs', n < t.buf.length ∧ RProg.Ev.fail c ∈ t.evs ∧ t.flushBuf = (some c, ⟨t.buf.drop n, t.inner.put (t.buf.take n), evs'⟩) ∧
      ∀ e ∈ evs', e ∈ t.evs) := by
  unfold flushBuf
  rcases flushLoop_cases t.evs t.buf t.inner with ⟨evs', h1, h2⟩ | ⟨n, c, evs', h1, h2, h3, h4⟩
  · exact .inl ⟨evs', by rw [h1]; rfl, h2⟩
  · exact .inr ⟨n, c, evs', h1, h2, by rw [h3], h4⟩

/-- What is kept of the buffer is kept of a list of bytes. -/
theorem kept_split (s : Sink) (b : Bytes) (n : Nat) (evs : List RProg.Ev) (j : Nat) :
    ∃ m, kept ⟨b.drop n, s.put (b.take n), evs⟩ j = (s.put (b.take m)).data :=
  ⟨n + j, by simp only [kept, Sink.put_put]; rw [← List.take_add]⟩

theorem writeAll_cases (cap : Nat) (b : Bytes) (t : BufSink) :
    (∃ t', t.writeAll cap b = (none, t') ∧ viewed t' = (viewed t).put b ∧ (∀ j, ∃ m, kept t' j = (t.inner.put ((t.buf ++ b).take m)).data) ∧
      ∀ e ∈ t'.evs, e ∈ t.evs) ∨
    (∃ c t' n, t.writeAll cap b = (some c, t') ∧ RProg.Ev.fail c ∈ t.evs ∧ n < b.length ∧ viewed t' = (viewed t).put (b.take n) ∧
      (∀ j, ∃ m, kept t' j = (t.inner.put ((t.buf ++ b).take m)).data) ∧ ∀ e ∈ t'.evs, e ∈ t.evs) := by
  unfold writeAll
  by_cases hb : b = []
  · subst hb
    refine .inl ⟨t, by simp, by rw [Sink.put_nil], fun j => ⟨j, ?_⟩, fun _ h => h⟩
    rw [List.append_nil]; rfl
  have hlen : 0 < b.length := List.length_pos_iff.mpr hb
  rw [if_neg hb]
  by_cases hc : t.buf.length + b.length ≤ cap ∧ b.length < cap
  · rw [if_pos hc]
    exact .inl ⟨_, rfl, by simp only [viewed, Sink.put_put], fun j => ⟨j, rfl⟩, fun _ h => h⟩
  · rw [if_neg hc]
    rcases flushBuf_cases t with ⟨evs', h1, h2⟩ | ⟨n, c, evs', h1, h2, h3, h4⟩
    · rw [h1]
      simp only
      rcases directLoop_cases cap evs' b (viewed t) with ⟨n, ev2, h3, h4⟩ | ⟨n, c, ev2, h3, h4, h5, h6⟩
      · rw [h3]
        refine .inl ⟨_, rfl, by simp only [viewed, Sink.put_put, List.append_assoc, List.take_append_drop], fun j => ?_, fun e he => h2 e (h4 e he)⟩
        obtain ⟨m, hm⟩ := kept_split (viewed t) b n ev2 j
        refine ⟨t.buf.length + m, ?_⟩
        rw [hm, List.take_length_add_append, viewed, Sink.put_put]
      · rw [h5]
        refine .inr ⟨c, _, n, rfl, h2 _ h4, h3, by simp only [viewed, Sink.put_nil], fun j => ⟨t.buf.length + n, ?_⟩, fun e he => h2 e (h6 e he)⟩
        rw [List.take_length_add_append]
        simp only [kept, viewed, List.take_nil, Sink.put_nil, Sink.put_put]
    · rw [h3]
      refine .inr ⟨c, _, 0, rfl, h2, hlen, ?_, fun j => ?_, h4⟩
      · simp only [viewed, Sink.put_put, List.take_append_drop, List.take_zero, Sink.put_nil]
      · obtain ⟨m, hm⟩ := kept_split t.inner t.buf n evs' j
        refine ⟨min m t.buf.length, ?_⟩
        rw [hm, List.take_append_of_le_length (Nat.min_le_right _ _)]
        congr 2
        by_cases h : m ≤ t.buf.length
        · rw [Nat.min_eq_left h]
        · rw [Nat.min_eq_right (by omega), List.take_length, List.take_of_length_le (by omega)]

theorem flushOp_cases (t : BufSink) :
    (∃ evs', t.flushOp = (none, ⟨[], viewed t, evs'⟩) ∧ ∀ e ∈ evs', e ∈ t.evs) ∨
    (∃ c t', t.flushOp = (some c, t') ∧ RProg.Ev.fail c ∈ t.evs ∧ viewed t' = viewed t ∧ t'.inner.seekable = t.inner.seekable ∧
      (∀ j, ∃ m, kept t' j = (t.inner.put (t.buf.take m)).data) ∧ ∀ e ∈ t'.evs, e ∈ t.evs) := by
  unfold flushOp
  rcases flushBuf_cases t with ⟨evs', h1, h2⟩ | ⟨n, c, evs', h1, h2, h3, h4⟩
  · rw [h1]
    simp only [innerOp]
    rcases WProg.opEvent_cases evs' with ⟨ev2, h3, h4⟩ | ⟨c, ev2, h3, h4, h5⟩
    · rw [h3]
      exact .inl ⟨ev2, rfl, fun e he => h2 e (h4 e he)⟩
    · rw [h4]
      refine .inr ⟨c, _, rfl, h2 _ h3, by simp only [viewed, Sink.put_nil], by simp [viewed, Sink.put_seekable], fun j => ⟨t.buf.length, ?_⟩, fun e he => h2 e (h5 e he)⟩
      simp [kept, viewed, Sink.put_nil]
  · rw [h3]
    refine .inr ⟨c, _, rfl, h2, by simp only [viewed, Sink.put_put, List.take_append_drop], by simp [Sink.put_seekable], fun j => ?_, h4⟩
    exact kept_split t.inner t.buf n evs' j

end BufSink

/-! ### One program -/

namespace WProg

theorem writeLoop_all {b : Bytes} (hb : b ≠ []) (s : Sink) (more : List RProg.Ev) :
    writeLoop (.short b.length :: more) b s = (none, s.put b, more) := by
  rw [writeLoop, if_neg hb]
  rw [List.drop_eq_nil_of_le (by omega), List.take_of_length_le (by omega)]
  cases more with
  | nil => simp [writeLoop, Sink.put_nil]
  | cons e more => simp [writeLoop]

theorem writeLoop_part {b : Bytes} {n : Nat} (hn : n < b.length) (c : Nat) (s : Sink) :
    ∃ evs, (∀ c', RProg.Ev.fail c' ∈ evs → c' = c) ∧ ∀ more, writeLoop (evs ++ more) b s = (some c, s.put (b.take n), more) := by
  have hb : b ≠ [] := by rintro rfl; simp at hn
  cases n with
  | zero => exact ⟨[.fail c], by simp, fun more => by simp [writeLoop, hb, Sink.put_nil]⟩
  | succ n =>
    refine ⟨[.short n, .fail c], by simp, fun more => ?_⟩
    have : b.drop (n + 1) ≠ [] := by
      intro h; have := congrArg List.length h; simp at this; omega
    simp [writeLoop, hb, this]

/-- A program on a `BufWriter` does to what the `BufWriter` stands for what it does, for some schedule, to a stream. -/
theorem runBuf_shaky {α : Type} (cap : Nat) (p : WProg α) (t : BufSink) :
    ∃ evs, (∀ c, RProg.Ev.fail c ∈ evs → RProg.Ev.fail c ∈ t.evs) ∧ (∀ e ∈ (p.runBuf cap t).2.evs, e ∈ t.evs) ∧
      ∀ more, p.runSched (viewed t) (evs ++ more) = ((p.runBuf cap t).1, viewed (p.runBuf cap t).2, more) := by
  have hseek : ∀ t : BufSink, (viewed t).seekable = t.inner.seekable := fun t => Sink.put_seekable _ _
  induction p generalizing t with
  | ret r => exact ⟨[], by simp, fun _ h => h, fun more => rfl⟩
  | write b k ih =>
    simp only [runBuf, runSched]
    rcases t.writeAll_cases cap b with ⟨t', h1, h2, -, h3⟩ | ⟨c, t', n, h1, h2, h3, h4, -, h5⟩
    · rw [h1]
      obtain ⟨evs, k1, k2, k3⟩ := ih t'
      by_cases hb : b = []
      · subst hb
        refine ⟨evs, fun c hc => h3 _ (k1 c hc), fun e he => h3 e (k2 e he), fun more => ?_⟩
        have : writeLoop (evs ++ more) [] (viewed t) = (none, viewed t, evs ++ more) := by
          cases evs ++ more <;> simp [writeLoop, Sink.put_nil]
        rw [this]
        rw [Sink.put_nil] at h2
        simp only
        rw [← h2, k3]
      · refine ⟨.short b.length :: evs, fun c hc => h3 _ (k1 c (by simpa using hc)), fun e he => h3 e (k2 e he), fun more => ?_⟩
        rw [List.cons_append, writeLoop_all hb]
        simp only
        rw [← h2, k3]
    · rw [h1]
      obtain ⟨evs, k1, k2⟩ := writeLoop_part h3 c (viewed t)
      refine ⟨evs, fun c' hc => by rw [k1 c' hc]; exact h2, h5, fun more => ?_⟩
      rw [k2, h4]
  | tell k ih =>
    simp only [runBuf, runSched, hseek]
    by_cases hk : t.inner.seekable = true
    · rw [if_pos hk]
      rcases t.flushOp_cases with ⟨evs', h1, h2⟩ | ⟨c, t', h1, h2, h3, h4, -, h5⟩
      · rw [h1]
        obtain ⟨evs, k1, k2, k3⟩ := ih (viewed t).pos ⟨[], viewed t, evs'⟩
        refine ⟨.interrupted :: evs, fun c hc => h2 _ (k1 c (by simpa using hc)), fun e he => h2 e (k2 e he), fun more => ?_⟩
        rw [if_pos hk]
        simp only [List.cons_append, opEvent]
        have e : viewed ⟨[], viewed t, evs'⟩ = viewed t := Sink.put_nil _
        rw [e] at k3
        exact k3 more
      · rw [h1]
        refine ⟨[.fail c], by simpa using h2, h5, fun more => ?_⟩
        rw [if_pos hk]
        simp only [List.cons_append, List.nil_append, opEvent, h3]
    · rw [if_neg hk]
      exact ⟨[], by simp, fun _ h => h, fun more => by rw [if_neg hk]; rfl⟩
  | seek q k ih =>
    simp only [runBuf, runSched]
    by_cases hk : t.inner.seekable = true
    · rw [if_pos hk]
      rcases t.flushOp_cases with ⟨evs', h1, h2⟩ | ⟨c, t', h1, h2, h3, h4, -, h5⟩
      · rw [h1]
        obtain ⟨evs, k1, k2, k3⟩ := ih ⟨[], { viewed t with pos := q }, evs'⟩
        refine ⟨.interrupted :: evs, fun c hc => h2 _ (k1 c (by simpa using hc)), fun e he => h2 e (k2 e he), fun more => ?_⟩
        rw [if_pos (by rw [hseek]; exact hk)]
        simp only [List.cons_append, opEvent]
        have e : viewed ⟨[], { viewed t with pos := q }, evs'⟩ = { viewed t with pos := q } := Sink.put_nil _
        rw [e] at k3
        exact k3 more
      · rw [h1]
        refine ⟨[.fail c], by simpa using h2, h5, fun more => ?_⟩
        rw [if_pos (by rw [hseek]; exact hk)]
        simp only [List.cons_append, List.nil_append, opEvent, h3]
    · rw [if_neg hk]
      exact ⟨[], by simp, fun _ h => h, fun more => by rw [if_neg (by rw [hseek]; exact hk)]; rfl⟩
  | flush k ih =>
    simp only [runBuf, runSched]
    rcases t.flushOp_cases with ⟨evs', h1, h2⟩ | ⟨c, t', h1, h2, h3, h4, -, h5⟩
    · rw [h1]
      obtain ⟨evs, k1, k2, k3⟩ := ih ⟨[], viewed t, evs'⟩
      refine ⟨.interrupted :: evs, fun c hc => h2 _ (k1 c (by simpa using hc)), fun e he => h2 e (k2 e he), fun more => ?_⟩
      simp only [List.cons_append, opEvent]
      have e : viewed ⟨[], viewed t, evs'⟩ = viewed t := Sink.put_nil _
      rw [e] at k3
      exact k3 more
    · rw [h1]
      refine ⟨[.fail c], by simpa using h2, h5, fun more => ?_⟩
      simp only [List.cons_append, List.nil_append, opEvent, h3]

/-- Whatever of the buffer reaches the inner stream after a program, the stream holds what a crash would leave there. -/
theorem runBuf_kept {α : Type} (cap : Nat) (p : WProg α) (t : BufSink) (j : Nat) :
    ∃ m, kept (p.runBuf cap t).2 j = ((WProg.write t.buf p).crash m t.inner).data := by
  -- part of the buffer, or of the first write
  have part : ∀ (t : BufSink) (p : WProg α) m, ∃ m', (t.inner.put (t.buf.take m)).data = ((WProg.write t.buf p).crash m' t.inner).data := by
    intro t p m
    by_cases h : m < t.buf.length
    · exact ⟨m, by rw [crash, if_pos h]⟩
    · exact ⟨t.buf.length, by rw [crash, if_neg (by omega), Nat.sub_self, crash_zero, List.take_of_length_le (by omega)]⟩
  have part2 : ∀ (t : BufSink) (b : Bytes) (k : WProg α) m,
      ∃ m', (t.inner.put ((t.buf ++ b).take m)).data = ((WProg.write t.buf (.write b k)).crash m' t.inner).data := by
    intro t b k m
    by_cases h : m < t.buf.length
    · obtain ⟨m', h'⟩ := part t (.write b k) m
      exact ⟨m', by rw [← h', List.take_append_of_le_length (by omega)]⟩
    · have e : (t.buf ++ b).take m = t.buf ++ b.take (m - t.buf.length) := by rw [List.take_append, List.take_of_length_le (by omega)]
      rw [e, ← Sink.put_put]
      by_cases h2 : m - t.buf.length < b.length
      · exact ⟨m, by rw [crash, if_neg h, crash, if_pos h2]⟩
      · refine ⟨t.buf.length + b.length, ?_⟩
        rw [crash, if_neg (by omega), crash, if_neg (by omega), List.take_of_length_le (by omega)]
        have : t.buf.length + b.length - t.buf.length - b.length = 0 := by omega
        rw [this, crash_zero]
  have whole : ∀ (t t1 : BufSink) (k : WProg α) m, t1.buf = [] → ((WProg.write t1.buf k).crash m t1.inner).data = (k.crash m t1.inner).data := by
    intro t t1 k m h
    rw [h, crash]
    simp [Sink.put_nil]
  have hseek : ∀ t : BufSink, (t.inner.put t.buf).seekable = t.inner.seekable := fun t => Sink.put_seekable _ _
  induction p generalizing t with
  | ret r => exact part t _ j
  | write b k ih =>
    simp only [runBuf]
    rcases t.writeAll_cases cap b with ⟨t', h1, h2, h3, -⟩ | ⟨c, t', n, h1, -, -, -, h3, -⟩
    · rw [h1]
      obtain ⟨m, hm⟩ := ih t'
      simp only
      rw [hm]
      by_cases h : m < t'.buf.length
      · rw [crash, if_pos h]
        obtain ⟨m2, h4⟩ := h3 m
        have h4 : (t'.inner.put (t'.buf.take m)).data = _ := h4
        rw [h4]
        exact part2 t b k m2
      · refine ⟨t.buf.length + (b.length + (m - t'.buf.length)), ?_⟩
        rw [crash, if_neg h, crash, if_neg (by omega), crash, if_neg (by omega), Nat.add_sub_cancel_left, Nat.add_sub_cancel_left]
        have h2 : t'.inner.put t'.buf = (t.inner.put t.buf).put b := h2
        rw [h2]
    · rw [h1]
      obtain ⟨m, hm⟩ := h3 j
      simp only
      rw [hm]
      exact part2 t b k m
  | tell k ih =>
    simp only [runBuf]
    by_cases hk : t.inner.seekable = true
    · rw [if_pos hk]
      rcases t.flushOp_cases with ⟨evs', h1, h2⟩ | ⟨c, t', h1, -, -, -, h3, -⟩
      · rw [h1]
        obtain ⟨m, hm⟩ := ih (viewed t).pos ⟨[], viewed t, evs'⟩
        refine ⟨t.buf.length + m, ?_⟩
        simp only
        rw [hm, whole t _ _ _ rfl, crash, if_neg (by omega), Nat.add_sub_cancel_left, crash, if_pos (by rw [hseek]; exact hk)]
        rfl
      · rw [h1]
        obtain ⟨m, hm⟩ := h3 j
        simp only
        rw [hm]
        exact part t _ m
    · rw [if_neg hk]
      exact part t _ j
  | seek q k ih =>
    simp only [runBuf]
    by_cases hk : t.inner.seekable = true
    · rw [if_pos hk]
      rcases t.flushOp_cases with ⟨evs', h1, h2⟩ | ⟨c, t', h1, -, -, -, h3, -⟩
      · rw [h1]
        obtain ⟨m, hm⟩ := ih ⟨[], { viewed t with pos := q }, evs'⟩
        refine ⟨t.buf.length + m, ?_⟩
        simp only
        rw [hm, whole t _ _ _ rfl, crash, if_neg (by omega), Nat.add_sub_cancel_left, crash, if_pos (by rw [hseek]; exact hk)]
        rfl
      · rw [h1]
        obtain ⟨m, hm⟩ := h3 j
        simp only
        rw [hm]
        exact part t _ m
    · rw [if_neg hk]
      exact part t _ j
  | flush k ih =>
    simp only [runBuf]
    rcases t.flushOp_cases with ⟨evs', h1, h2⟩ | ⟨c, t', h1, -, -, -, h3, -⟩
    · rw [h1]
      obtain ⟨m, hm⟩ := ih ⟨[], viewed t, evs'⟩
      refine ⟨t.buf.length + m, ?_⟩
      simp only
      rw [hm, whole t _ _ _ rfl, crash, if_neg (by omega), Nat.add_sub_cancel_left, crash]
      rfl
    · rw [h1]
      obtain ⟨m, hm⟩ := h3 j
      simp only
      rw [hm]
      exact part t _ m

end WProg

/-! ### Several programs -/

/-- A caller that runs programs on a stream and looks at the results. -/
inductive Script (β : Type) : Type 1 where
  | done (b : β)
  | run {α : Type} (p : WProg α) (k : Res α → Script β)

namespace Script

/-- Run on a stream. -/
def exec {σ β : Type} (T : Target σ) : Script β → σ → β × σ
  | done b, s => (b, s)
  | run p k, s => (k (T.exec p s).1).exec T (T.exec p s).2

/-- Sequencing. -/
def bind {β γ : Type} : Script β → (β → Script γ) → Script γ
  | done b, f => f b
  | run p k, f => run p fun r => (k r).bind f

theorem exec_bind {σ β γ : Type} (T : Target σ) (c : Script β) (f : β → Script γ) (s : σ) :
    (c.bind f).exec T s = (f (c.exec T s).1).exec T (c.exec T s).2 := by
  induction c generalizing s with
  | done b => rfl
  | run p k ih => exact ih _ _

theorem exec_shaky {β : Type} (cap : Nat) (c : Script β) (t : BufSink) :
    ∃ evs, (∀ x, RProg.Ev.fail x ∈ evs → RProg.Ev.fail x ∈ t.evs) ∧ (∀ e ∈ (c.exec (buffered cap) t).2.evs, e ∈ t.evs) ∧
      ∀ more, c.exec shaky (viewed t, evs ++ more) = ((c.exec (buffered cap) t).1, (viewed (c.exec (buffered cap) t).2, more)) := by
  induction c generalizing t with
  | done b => exact ⟨[], by simp, fun _ h => h, fun more => rfl⟩
  | run p k ih =>
    obtain ⟨e1, h1, h2, h3⟩ := p.runBuf_shaky cap t
    obtain ⟨e2, k1, k2, k3⟩ := ih (p.runBuf cap t).1 (p.runBuf cap t).2
    refine ⟨e1 ++ e2, fun x hx => ?_, fun e he => h2 e (k2 e he), fun more => ?_⟩
    · rcases List.mem_append.mp hx with hx | hx
      · exact h1 x hx
      · exact h2 _ (k1 x hx)
    · have e : shaky.exec p (viewed t, e1 ++ e2 ++ more) = ((p.runBuf cap t).1, (viewed (p.runBuf cap t).2, e2 ++ more)) := by
        rw [List.append_assoc]; exact h3 (e2 ++ more)
      rw [exec, e]
      exact k3 more

/-- If every call fails nothing is written. -/
theorem all_fail {β : Type} (c : Script β) (s : Sink) : ∃ n, (c.exec shaky (s, List.replicate n (.fail 0))).2.1.data = s.data := by
  have prog : ∀ {α : Type} (p : WProg α) (s : Sink), (∃ r, ∀ n, p.runSched s (List.replicate (n + 1) (.fail 0)) = (r, s, List.replicate (n + 1) (.fail 0))) ∨
      (∀ n, p.runSched s (List.replicate (n + 1) (.fail 0)) = (.err (.source 0), s, List.replicate n (.fail 0))) := by
    intro α p s
    induction p generalizing s with
    | ret r => exact .inl ⟨r, fun n => rfl⟩
    | write b k ih =>
      by_cases hb : b = []
      · subst hb
        have : ∀ n, (WProg.write [] k).runSched s (List.replicate (n + 1) (.fail 0)) = k.runSched s (List.replicate (n + 1) (.fail 0)) := by
          intro n; rw [List.replicate_succ]; simp [WProg.runSched, WProg.writeLoop]
        simp only [this]
        exact ih s
      · right
        intro n
        rw [List.replicate_succ]
        simp [WProg.runSched, WProg.writeLoop, hb]
    | tell k ih =>
      by_cases hk : s.seekable = true
      · right; intro n; rw [List.replicate_succ]; simp [WProg.runSched, WProg.opEvent, hk]
      · left; exact ⟨.panic, fun n => by simp [WProg.runSched, hk]⟩
    | seek q k ih =>
      by_cases hk : s.seekable = true
      · right; intro n; rw [List.replicate_succ]; simp [WProg.runSched, WProg.opEvent, hk]
      · left; exact ⟨.panic, fun n => by simp [WProg.runSched, hk]⟩
    | flush k ih =>
      right; intro n; rw [List.replicate_succ]; simp [WProg.runSched, WProg.opEvent]
  suffices h : ∃ n, ∀ m, n ≤ m → (c.exec shaky (s, List.replicate m (.fail 0))).2.1.data = s.data by
    obtain ⟨n, h⟩ := h; exact ⟨n, h n (Nat.le_refl n)⟩
  induction c with
  | done b => exact ⟨0, fun _ _ => rfl⟩
  | run p k ih =>
    rcases prog p s with ⟨r, h⟩ | h
    · obtain ⟨n, hn⟩ := ih r
      refine ⟨n + 1, fun m hm => ?_⟩
      have : m = (m - 1) + 1 := by omega
      rw [this, exec]
      have h' : shaky.exec p (s, List.replicate (m - 1 + 1) (.fail 0)) = (r, (s, List.replicate (m - 1 + 1) (.fail 0))) := h (m - 1)
      rw [h']
      exact hn _ (by omega)
    · obtain ⟨n, hn⟩ := ih (.err (.source 0))
      refine ⟨n + 1, fun m hm => ?_⟩
      have : m = (m - 1) + 1 := by omega
      rw [this, exec]
      have h' : shaky.exec p (s, List.replicate (m - 1 + 1) (.fail 0)) = (.err (.source 0), (s, List.replicate (m - 1) (.fail 0))) := h (m - 1)
      rw [h']
      exact hn _ (by omega)

/-- There is a schedule that leaves what a crash leaves. -/
theorem crash_sched {α : Type} (p : WProg α) (s : Sink) (m : Nat) :
    ∃ evs r s', (∀ more, p.runSched s (evs ++ more) = (r, s', more)) ∧ s'.data = (p.crash m s).data := by
  induction p generalizing s m with
  | ret r => exact ⟨[], r, s, fun _ => rfl, rfl⟩
  | write b k ih =>
    by_cases h : m < b.length
    · obtain ⟨evs, -, k2⟩ := WProg.writeLoop_part h 0 s
      refine ⟨evs, .err (.source 0), s.put (b.take m), fun more => ?_, by rw [WProg.crash, if_pos h]⟩
      rw [WProg.runSched, k2]
    · obtain ⟨evs, r, s', h1, h2⟩ := ih (s.put b) (m - b.length)
      rw [WProg.crash, if_neg h]
      by_cases hb : b = []
      · subst hb
        refine ⟨evs, r, s', fun more => ?_, h2⟩
        have : WProg.writeLoop (evs ++ more) [] s = (none, s, evs ++ more) := by
          cases evs ++ more <;> simp [WProg.writeLoop, Sink.put_nil]
        rw [WProg.runSched, this]
        rw [Sink.put_nil] at h1
        exact h1 more
      · refine ⟨.short b.length :: evs, r, s', fun more => ?_, h2⟩
        rw [List.cons_append, WProg.runSched, WProg.writeLoop_all hb]
        exact h1 more
  | tell k ih =>
    by_cases hk : s.seekable = true
    · obtain ⟨evs, r, s', h1, h2⟩ := ih s.pos s m
      refine ⟨.interrupted :: evs, r, s', fun more => ?_, by rw [WProg.crash, if_pos hk]; exact h2⟩
      rw [List.cons_append, WProg.runSched, if_pos hk]
      exact h1 more
    · exact ⟨[], .panic, s, fun more => by rw [WProg.runSched, if_neg hk]; rfl, by rw [WProg.crash, if_neg hk]⟩
  | seek q k ih =>
    by_cases hk : s.seekable = true
    · obtain ⟨evs, r, s', h1, h2⟩ := ih { s with pos := q } m
      refine ⟨.interrupted :: evs, r, s', fun more => ?_, by rw [WProg.crash, if_pos hk]; exact h2⟩
      rw [List.cons_append, WProg.runSched, if_pos hk]
      exact h1 more
    · exact ⟨[], .panic, s, fun more => by rw [WProg.runSched, if_neg hk]; rfl, by rw [WProg.crash, if_neg hk]⟩
  | flush k ih =>
    obtain ⟨evs, r, s', h1, h2⟩ := ih s m
    exact ⟨.interrupted :: evs, r, s', fun more => h1 more, h2⟩

/-- Whatever of the buffer reaches the inner stream in the end, some schedule leaves the same in an unbuffered stream. -/
theorem exec_kept {β : Type} (cap : Nat) (c : Script β) (t : BufSink) (j : Nat) :
    (∃ m, m < t.buf.length ∧ kept (c.exec (buffered cap) t).2 j = (t.inner.put (t.buf.take m)).data) ∨
    ∃ evs, kept (c.exec (buffered cap) t).2 j = (c.exec shaky (viewed t, evs)).2.1.data := by
  induction c generalizing t with
  | done b =>
    by_cases h : j < t.buf.length
    · exact .inl ⟨j, h, rfl⟩
    · refine .inr ⟨[], ?_⟩
      show (t.inner.put (t.buf.take j)).data = _
      rw [List.take_of_length_le (by omega)]
      rfl
  | run p k ih =>
    simp only [exec]
    rcases ih (p.runBuf cap t).1 (p.runBuf cap t).2 with ⟨m, hm, h⟩ | ⟨evs, h⟩
    · have h : kept ((k (p.runBuf cap t).1).exec (buffered cap) (p.runBuf cap t).2).2 j = kept (p.runBuf cap t).2 m := h
      obtain ⟨m2, h2⟩ := p.runBuf_kept cap t m
      show (∃ m, _ ∧ kept ((k (p.runBuf cap t).1).exec (buffered cap) (p.runBuf cap t).2).2 j = _) ∨
        ∃ evs, kept ((k (p.runBuf cap t).1).exec (buffered cap) (p.runBuf cap t).2).2 j = _
      rw [h, h2]
      by_cases hlt : m2 < t.buf.length
      · exact .inl ⟨m2, hlt, by rw [WProg.crash, if_pos hlt]⟩
      · right
        rw [WProg.crash, if_neg hlt]
        obtain ⟨e1, r, s', k1, k2⟩ := crash_sched p (viewed t) (m2 - t.buf.length)
        obtain ⟨n, hn⟩ := all_fail (k r) s'
        refine ⟨e1 ++ List.replicate n (.fail 0), ?_⟩
        have e : shaky.exec p (viewed t, e1 ++ List.replicate n (.fail 0)) = (r, (s', List.replicate n (.fail 0))) := k1 _
        rw [e]
        simp only
        rw [hn, k2]
        rfl
    · right
      obtain ⟨e1, -, -, h3⟩ := p.runBuf_shaky cap t
      refine ⟨e1 ++ evs, ?_⟩
      have e : shaky.exec p (viewed t, e1 ++ evs) = ((p.runBuf cap t).1, (viewed (p.runBuf cap t).2, evs)) := h3 evs
      rw [e]
      exact h

end Script

/-! ### Sessions as scripts -/

namespace NpyWriter
variable {V : Type} {wr : DType → DRes (V → WProg Unit)}

/-- `push` as a script. -/
def pushS (M : Machine) (w : NpyWriter V) (v : V) : Script (Res Unit × NpyWriter V) :=
  match w.counted M with
  | .ok w' => .run (w'.prog v) fun r => .done (r, w')
  | .err e => .done (.err e, w)
  | .panic => .done (.panic, w)

theorem pushS_exec {σ : Type} (M : Machine) (T : Target σ) (w : NpyWriter V) (v : V) (s : σ) :
    w.push M T v s = (((w.pushS M v).exec T s).1.1, ((w.pushS M v).exec T s).1.2, ((w.pushS M v).exec T s).2) := by
  unfold push pushS
  cases w.counted M <;> rfl

/-- `extend` as a script. -/
def extendS (M : Machine) (w : NpyWriter V) : List V → Script (Res Unit × NpyWriter V)
  | [] => .done (.ok (), w)
  | v :: vs => (w.pushS M v).bind fun r =>
    match r with
    | (.ok (), w') => w'.extendS M vs
    | (r, w') => .done (r, w')

theorem extendS_exec {σ : Type} (M : Machine) (T : Target σ) (vs : List V) (w : NpyWriter V) (s : σ) :
    w.extend M T vs s = (((w.extendS M vs).exec T s).1.1, ((w.extendS M vs).exec T s).1.2, ((w.extendS M vs).exec T s).2) := by
  induction vs generalizing w s with
  | nil => rfl
  | cons v vs ih =>
    simp only [extend, extendS, Script.exec_bind]
    rw [pushS_exec]
    rcases (w.pushS M v).exec T s with ⟨⟨(⟨⟩ | e | _), w'⟩, s'⟩
    · exact ih w' s'
    · rfl
    · rfl

/-- `drop` as a script. -/
def dropS (M : Machine) (w : NpyWriter V) : Script (Res Unit) :=
  .run (w.finish_ M) fun r =>
    match r with
    | .panic => .done .panic
    | _ => .done (.ok ())

theorem dropS_exec {σ : Type} (M : Machine) (T : Target σ) (w : NpyWriter V) (s : σ) : w.drop M T s = (w.dropS M).exec T s := by
  unfold drop dropS
  simp only [Script.exec]
  rcases T.exec (w.finish_ M) s with ⟨(⟨⟩ | e | _), s'⟩ <;> rfl

/-- `finish` as a script. -/
def finishS (M : Machine) (w : NpyWriter V) : Script (Res Unit) :=
  .run (w.finish_ M) fun r => (w.dropS M).bind fun r' =>
    match r' with
    | .panic => .done .panic
    | _ => .done r

theorem finishS_exec {σ : Type} (M : Machine) (T : Target σ) (w : NpyWriter V) (s : σ) : w.finish M T s = (w.finishS M).exec T s := by
  unfold finish finishS
  simp only [Script.exec, Script.exec_bind, dropS_exec]
  rcases (w.dropS M).exec T (T.exec (w.finish_ M) s).2 with ⟨(⟨⟩ | e | _), s'⟩ <;> rfl

/-- `save` as a script. -/
def saveS (M : Machine) (wr : DType → DRes (V → WProg Unit)) (d : DType) (o : Order) (hint : ShapeHint) (vs : List V) : Script (Res Unit) :=
  .run (NpyWriter.beginWith M wr d o hint) fun r =>
    match r with
    | .ok w => (w.extendS M vs).bind fun r =>
      match r with
      | (.ok (), w') => w'.finishS M
      | (.err e, w') => (w'.dropS M).bind fun r' =>
        match r' with
        | .panic => .done .panic
        | _ => .done (.err e)
      | (.panic, w') => (w'.dropS M).bind fun _ => .done .panic
    | .err e => .done (.err e)
    | .panic => .done .panic

theorem saveS_exec {σ : Type} (M : Machine) (T : Target σ) (wr : DType → DRes (V → WProg Unit)) (d : DType) (o : Order) (hint : ShapeHint) (vs : List V) (s : σ) :
    saveWith M T wr d o hint vs s = (saveS M wr d o hint vs).exec T s := by
  unfold saveWith saveS
  simp only [Script.exec]
  rcases T.exec (NpyWriter.beginWith M wr d o hint) s with ⟨(w | e | _), s1⟩
  · simp only [Script.exec_bind, extendS_exec]
    rcases (w.extendS M vs).exec T s1 with ⟨⟨(⟨⟩ | e | _), w'⟩, s2⟩
    · exact finishS_exec M T w' s2
    · simp only [Script.exec_bind, dropS_exec]
      rcases (w'.dropS M).exec T s2 with ⟨(⟨⟩ | e | _), s'⟩ <;> rfl
    · simp only [Script.exec_bind, dropS_exec]
      rfl
  · rfl
  · rfl

end NpyWriter

/-! ### Success -/

namespace WProg

theorem runBuf_ok {α : Type} {cap : Nat} {p : WProg α} {t t' : BufSink} {a : α} (h : p.runBuf cap t = (.ok a, t')) :
    p.exec (viewed t) = (.ok a, viewed t') := by
  obtain ⟨evs, -, -, h3⟩ := p.runBuf_shaky cap t
  have h3 := h3 []
  rw [h] at h3
  rcases p.runSched_full (viewed t) (evs ++ []) with ⟨evs', h1, -⟩ | ⟨c, n, s', evs', -, h1, -⟩
  · rw [h1] at h3
    simp only [Prod.mk.injEq] at h3
    exact Prod.ext h3.1 h3.2.1
  · rw [h1] at h3; cases h3

theorem runBuf_bind_ok {α β : Type} {cap : Nat} (p : WProg α) (f : α → WProg β) {t t' : BufSink} {b : β}
    (h : (p.bind f).runBuf cap t = (.ok b, t')) : ∃ a t1, p.runBuf cap t = (.ok a, t1) ∧ (f a).runBuf cap t1 = (.ok b, t') := by
  induction p generalizing t with
  | ret r =>
    cases r with
    | ok a => exact ⟨a, t, rfl, h⟩
    | err e => cases h
    | panic => cases h
  | write b k ih =>
    simp only [bind, runBuf] at h ⊢
    rcases hx : t.writeAll cap b with ⟨(_ | c), t1⟩ <;> rw [hx] at h
    · exact ih h
    · cases h
  | tell k ih =>
    simp only [bind, runBuf] at h ⊢
    by_cases hk : t.inner.seekable = true
    · rw [if_pos hk] at h
      rw [if_pos hk]
      rcases hx : t.flushOp with ⟨(_ | c), t1⟩ <;> rw [hx] at h
      · exact ih _ h
      · cases h
    · rw [if_neg hk] at h; cases h
  | seek q k ih =>
    simp only [bind, runBuf] at h ⊢
    by_cases hk : t.inner.seekable = true
    · rw [if_pos hk] at h
      rw [if_pos hk]
      rcases hx : t.flushOp with ⟨(_ | c), t1⟩ <;> rw [hx] at h
      · exact ih h
      · cases h
    · rw [if_neg hk] at h; cases h
  | flush k ih =>
    simp only [bind, runBuf] at h ⊢
    rcases hx : t.flushOp with ⟨(_ | c), t1⟩ <;> rw [hx] at h
    · exact ih h
    · cases h

end WProg

namespace NpyWriter
variable {V : Type} {wr : DType → DRes (V → WProg Unit)}

/-- After a successful `finish_` the buffer is empty. -/
theorem finish_empties {M : Machine} {cap : Nat} {w : NpyWriter V} {b b' : BufSink} (h : (w.finish_ M).runBuf cap b = (.ok (), b')) : b'.buf = [] := by
  unfold finish_ at h
  obtain ⟨_, t1, -, h⟩ := WProg.runBuf_bind_ok _ _ h
  have h : (match t1.flushOp with
    | (none, t') => (WProg.ret (.ok ())).runBuf cap t'
    | (some c, t') => (.err (.source c), t')) = ((.ok (), b') : Res Unit × BufSink) := h
  rcases t1.flushOp_cases with ⟨evs', h1, -⟩ | ⟨c, t', h1, -⟩
  · rw [h1] at h; cases h; rfl
  · rw [h1] at h; cases h

theorem extend_buf_ok {M : Machine} {cap : Nat} {vs : List V} {w w' : NpyWriter V} {b b' : BufSink}
    (h : w.extend M (buffered cap) vs b = (.ok (), w', b')) : w.extend M solid vs (viewed b) = (.ok (), w', viewed b') := by
  obtain ⟨evs, -, -, h3⟩ := (w.extendS M vs).exec_shaky cap b
  have h3 := h3 []
  have e : w.extend M shaky vs (viewed b, evs ++ []) = (.ok (), w', (viewed b', [])) := by
    rw [extendS_exec, Prod.mk.injEq, Prod.mk.injEq] at h
    obtain ⟨h1, h2, h4⟩ := h
    rw [extendS_exec, h3, h1, h2, h4]
  rcases extend_shaky M vs w (viewed b) (evs ++ []) with ⟨evs', h1, -⟩ | ⟨c, w'', s', evs', -, h1, -⟩
  · rw [h1] at e
    simp only [Prod.mk.injEq] at e
    exact Prod.ext e.1 (Prod.ext e.2.1 e.2.2.1)
  · rw [h1] at e; cases e

theorem finish_buf_ok {M : Machine} {cap : Nat} {w : NpyWriter V} (hn : w.numItems < 2 ^ 64) {b b' : BufSink}
    (h : w.finish M (buffered cap) b = (.ok (), b')) : ∃ s2, w.finish M solid (viewed b) = (.ok (), s2) ∧ ∀ j, kept b' j = s2.data := by
  have hst := finish_state (M := M) (buffered cap) w b
  rw [h] at hst
  have hok : ((buffered cap).exec (w.finish_ M) b).1 = .ok () := by
    unfold finish at h
    rcases hx : w.drop M (buffered cap) ((buffered cap).exec (w.finish_ M) b).2 with ⟨(_ | _ | _), s'⟩ <;> rw [hx] at h
    · exact (Prod.mk.inj h).1
    · exact (Prod.mk.inj h).1
    · cases h
  rcases hx : (w.finish_ M).runBuf cap b with ⟨r, b1⟩
  have hx' : (buffered cap).exec (w.finish_ M) b = (r, b1) := hx
  rw [hx'] at hok hst
  simp only at hok hst
  subst hok
  have he := WProg.runBuf_ok hx
  have hbuf := finish_empties hx
  refine ⟨viewed b1, by rw [(finish_eq w hn _).1]; exact he, fun j => ?_⟩
  subst hst
  obtain ⟨m, hm⟩ := (w.finish_ M).runBuf_kept cap b1 j
  have hin : b1.inner = viewed b1 := by rw [viewed, hbuf, Sink.put_nil]
  show kept ((w.finish_ M).runBuf cap b1).2 j = _
  rw [hm, hbuf, WProg.crash, if_neg (by simp), Sink.put_nil, hin]
  have := finish_again (M := M) w hn (viewed b) (by rw [he]) (m - ([] : List UInt8).length)
  rw [he] at this
  exact this

theorem saveWith_buf_ok {M : Machine} {cap : Nat} {d : DType} {o : Order} {hint : ShapeHint} {vs : List V} {b b' : BufSink}
    (h : saveWith M (buffered cap) wr d o hint vs b = (.ok (), b')) :
    ∃ s2, saveWith M solid wr d o hint vs (viewed b) = (.ok (), s2) ∧ ∀ j, kept b' j = s2.data := by
  unfold saveWith at h ⊢
  rcases hb : (NpyWriter.beginWith M wr d o hint).runBuf cap b with ⟨r, b1⟩
  have hb' : (buffered cap).exec (NpyWriter.beginWith M wr d o hint) b = (r, b1) := hb
  rw [hb'] at h
  rcases r with w | e | _
  · have h1 := WProg.runBuf_ok hb
    have h1' : solid.exec (NpyWriter.beginWith M wr d o hint) (viewed b) = (.ok w, viewed b1) := h1
    rw [h1']
    simp only at h ⊢
    have h0 : w.numItems < 2 ^ 64 := by rw [(beginWith_ok h1).2.1]; decide
    have hlt := extend_lt (M := M) (T := buffered cap) vs h0 b1
    rcases he : w.extend M (buffered cap) vs b1 with ⟨(⟨⟩ | e | _), w', b2⟩ <;> rw [he] at h hlt
    · rw [extend_buf_ok he]
      exact finish_buf_ok hlt h
    · simp only at h
      rcases hd : w'.drop M (buffered cap) b2 with ⟨(⟨⟩ | e | _), s3⟩ <;> rw [hd] at h <;> cases h
    · cases h
  · cases h
  · cases h

/-- The same for any outcome, in terms of schedules. -/
theorem saveWith_buf_shaky (M : Machine) (cap : Nat) (d : DType) (o : Order) (hint : ShapeHint) (vs : List V) (b : BufSink) :
    ∃ evs, (∀ x, RProg.Ev.fail x ∈ evs → RProg.Ev.fail x ∈ b.evs) ∧ (∀ e ∈ (saveWith M (buffered cap) wr d o hint vs b).2.evs, e ∈ b.evs) ∧
      saveWith M shaky wr d o hint vs (viewed b, evs) =
        ((saveWith M (buffered cap) wr d o hint vs b).1, (viewed (saveWith M (buffered cap) wr d o hint vs b).2, [])) := by
  obtain ⟨evs, h1, h2, h3⟩ := (saveS M wr d o hint vs).exec_shaky cap b
  refine ⟨evs, h1, by rw [saveS_exec]; exact h2, ?_⟩
  have := h3 []
  rw [List.append_nil] at this
  rw [saveS_exec, saveS_exec, this]

theorem saveWith_buf_kept (M : Machine) (cap : Nat) (d : DType) (o : Order) (hint : ShapeHint) (vs : List V) (s : Sink) (evs : List RProg.Ev) (j : Nat) :
    ∃ evs', kept (saveWith M (buffered cap) wr d o hint vs (fresh s evs)).2 j = (saveWith M shaky wr d o hint vs (s, evs')).2.1.data := by
  rcases (saveS M wr d o hint vs).exec_kept cap (fresh s evs) j with ⟨m, hm, -⟩ | ⟨evs', h⟩
  · simp [fresh] at hm
  · refine ⟨evs', ?_⟩
    rw [saveS_exec, saveS_exec, h]
    simp only [viewed, fresh, Sink.put_nil]

/-! ### The element types of the library -/

theorem save_buf_ok {t : Ty} {M : Machine} {cap : Nat} {d : DType} {o : Order} {hint : ShapeHint} {vs : List t.Val} {b b' : BufSink}
    (h : save M (buffered cap) t d o hint vs b = (.ok (), b')) :
    ∃ s2, save M solid t d o hint vs (viewed b) = (.ok (), s2) ∧ ∀ j, kept b' j = s2.data :=
  saveWith_buf_ok (wr := t.writer M) h

theorem save_buf_shaky {t : Ty} (M : Machine) (cap : Nat) (d : DType) (o : Order) (hint : ShapeHint) (vs : List t.Val) (b : BufSink) :
    ∃ evs, (∀ x, RProg.Ev.fail x ∈ evs → RProg.Ev.fail x ∈ b.evs) ∧ (∀ e ∈ (save M (buffered cap) t d o hint vs b).2.evs, e ∈ b.evs) ∧
      save M shaky t d o hint vs (viewed b, evs) =
        ((save M (buffered cap) t d o hint vs b).1, (viewed (save M (buffered cap) t d o hint vs b).2, [])) :=
  saveWith_buf_shaky (wr := t.writer M) M cap d o hint vs b

theorem save_buf_kept {t : Ty} (M : Machine) (cap : Nat) (d : DType) (o : Order) (hint : ShapeHint) (vs : List t.Val) (s : Sink) (evs : List RProg.Ev) (j : Nat) :
    ∃ evs', kept (save M (buffered cap) t d o hint vs (fresh s evs)).2 j = (save M shaky t d o hint vs (s, evs')).2.1.data :=
  saveWith_buf_kept (wr := t.writer M) M cap d o hint vs s evs j

end NpyWriter

end Npyz
