import Verif.Proofs.Straight
import Verif.Props.Writer
/-!
C63-C65: writing to streams that accept only part of the data, interrupt, or fail.

`shaky` is a stream that follows a schedule: `short k` accepts at most `k + 1` bytes of a `write` call,
`interrupted` is `ErrorKind::Interrupted`, `fail c` any other error of a `write`, `seek` or `flush`
call; when the schedule is used up nothing fails any more.
-/
namespace Npyz.Props
open Npyz Spec Py RProg

/-! ### C63 -/

/-- C63: on a stream that accepts arbitrary parts of the data and interrupts arbitrarily often, a complete
session has the result, and leaves the file and the position, that it has on a stream that takes everything
at once. -/
theorem C63_session {M : Machine} {t : Ty} (d : DType) (o : Order) (hint : ShapeHint) (vs : List t.Val) (s : Sink) {evs : List Ev}
    (h : ∀ c, Ev.fail c ∉ evs) :
    ∃ evs', NpyWriter.save M shaky t d o hint vs (s, evs) =
      ((NpyWriter.save M solid t d o hint vs s).1, ((NpyWriter.save M solid t d o hint vs s).2, evs')) := by
  obtain ⟨evs', h1, -⟩ := NpyWriter.saveWith_nofail (wr := t.writer M) M d o hint vs s h
  exact ⟨evs', h1⟩

/-- C63: the same step by step: starting a writer, pushing any values (carrying on after errors), then
finishing or dropping. -/
theorem C63_steps {M : Machine} {t : Ty} (d : DType) (o : Order) (hint : ShapeHint) (vs : List t.Val) (s : Sink) {evs : List Ev}
    (h : ∀ c, Ev.fail c ∉ evs) :
    ∃ evs1, shaky.exec (NpyWriter.begin M t d o hint) (s, evs) =
        (((NpyWriter.begin M t d o hint).exec s).1, (((NpyWriter.begin M t d o hint).exec s).2, evs1)) ∧
    ∀ w s1, (NpyWriter.begin M t d o hint).exec s = (.ok w, s1) →
    ∃ evs2, w.pushAll M shaky vs (s1, evs1) = ((w.pushAll M solid vs s1).1, (w.pushAll M solid vs s1).2.1, ((w.pushAll M solid vs s1).2.2, evs2)) ∧
    ∀ w' s2, (w.pushAll M solid vs s1).2 = (w', s2) →
      (∃ evs3, w'.finish M shaky (s2, evs2) = ((w'.finish M solid s2).1, ((w'.finish M solid s2).2, evs3))) ∧
      (∃ evs3, w'.drop M shaky (s2, evs2) = ((w'.drop M solid s2).1, ((w'.drop M solid s2).2, evs3))) := by
  obtain ⟨ev1, h1, h2⟩ := shaky_nofail (NpyWriter.begin M t d o hint) s h
  refine ⟨ev1, h1, fun w s1 hb => ?_⟩
  obtain ⟨ev2, h3, h4⟩ := NpyWriter.pushAll_nofail M vs w s1 h2
  refine ⟨ev2, h3, fun w' s2 hp => ?_⟩
  obtain ⟨ev3, h5, -⟩ := NpyWriter.finish_nofail M w' s2 h4
  obtain ⟨ev4, h6, -⟩ := NpyWriter.drop_nofail M w' s2 h4
  exact ⟨⟨ev3, h5⟩, ⟨ev4, h6⟩⟩

/-- C63 for `to_file_1d`. -/
theorem C63_to_file {M : Machine} {t : Ty} (vs : List t.Val) (s : Sink) {evs : List Ev} (h : ∀ c, Ev.fail c ∉ evs) :
    (toFile1d M shaky t vs (s, evs)).map (fun r => (r.1, r.2.1)) = toFile1d M solid t vs s := by
  unfold toFile1d
  rcases t.defaultDType M with _ | (d | e | _)
  · rfl
  · simp only [Option.map_some, Option.some.injEq]
    obtain ⟨evs', h1⟩ := C63_session (M := M) d .c .oneD vs s h
    rw [h1]
  · rfl
  · rfl

/-- A session on a stream with a schedule: the result (`none`: success; an error of the schedule; anything
else as 99), the position, the length, and whether the contents are those of a reliable stream. -/
def faulty (evs : List Ev) : Option Nat × Nat × Nat × Bool :=
  match NpyWriter.save ⟨false, 64, true⟩ shaky f64 (.plain ⟨.little, .float, 8, none⟩) .c .oneD [1#64, 2#64] (⟨[], 0, true⟩, evs),
    NpyWriter.save ⟨false, 64, true⟩ solid f64 (.plain ⟨.little, .float, 8, none⟩) .c .oneD [1#64, 2#64] ⟨[], 0, true⟩ with
  | (r, (s, _)), (_, s') =>
    (match r with
      | .ok () => none
      | .err (.source c) => some c
      | _ => some 99, s.pos, s.data.length, s.data == s'.data)

-- the hypotheses are met: one byte at a time, with interruptions
example : faulty [.short 0, .interrupted, .short 0, .short 3, .interrupted, .interrupted, .short 20] = (none, 144, 144, true) := by decide +kernel

/-! ### C64 -/

/-- C64: whatever errors the stream has, on whatever calls: if the session reports success then it would
have succeeded on a reliable stream, and the contents of the file are the same. -/
theorem C64_success {M : Machine} {t : Ty} {d : DType} {o : Order} {hint : ShapeHint} {vs : List t.Val} {s s' : Sink} {evs evs' : List Ev}
    (h : NpyWriter.save M shaky t d o hint vs (s, evs) = (.ok (), (s', evs'))) :
    ∃ s2, NpyWriter.save M solid t d o hint vs s = (.ok (), s2) ∧ s'.data = s2.data :=
  NpyWriter.saveWith_shaky_ok (wr := t.writer M) h

/-- C64: so what is reported as written can be read back (see C39, C40). -/
theorem C64_reads_back {M M' : Machine} (hM' : M'.Wf) {py : PyParser} (hpy : py.ExtendsRef) {t : Ty} {d : DType} {size : Nat}
    (hd : d.Wf) (hn : exactBytes d = some size) (hm : size ≤ M.isizeMax) (hm' : size ≤ M'.isizeMax) (hf : AllFit M'.usizeLim d)
    (hp : ∃ p, t.reader M' d = .ok p) {o : Order} {hint : ShapeHint} (hhint : hint = .oneD ∨ ∃ r, hint = .twoD r ∧ r < 2 ^ 64)
    (hmem : dictBytes d o hint + 76 ≤ M'.isizeMax) {vs : List t.Val} (hc : vs.length < 2 ^ 64) {s s' : Sink}
    (hpos : s.pos + dictBytes d o hint + 76 ≤ 2 ^ 64) {evs evs' : List Ev}
    (h : NpyWriter.save M shaky t d o hint vs (s, evs) = (.ok (), (s', evs'))) :
    ReadsBack M' py t s'.data s.pos d (finalShape o vs.length hint) o (vs.map (readBack t d)) := by
  obtain ⟨s2, h1, h2⟩ := C64_success h
  rw [h2]
  exact (C40_round_trip hM' hpy hd hn hm hm' hf hp hhint hmem hc hpos h1).2

/-- C64: errors of the stream are reported: the result of a session is the one on a reliable stream, or it
is an error the stream returned; in particular a failing stream never makes it panic. -/
theorem C64_reported {M : Machine} {t : Ty} {d : DType} {o : Order} {hint : ShapeHint} (hz : hint ≠ .twoD 0) {vs : List t.Val} {s : Sink}
    (hpos : hint.seeks = true → s.pos + dictBytes d o hint + 76 ≤ 2 ^ 64) (evs : List Ev) :
    (NpyWriter.save M shaky t d o hint vs (s, evs)).1 = (NpyWriter.save M solid t d o hint vs s).1 ∨
    ∃ c, Ev.fail c ∈ evs ∧ (NpyWriter.save M shaky t d o hint vs (s, evs)).1 = .err (.source c) :=
  NpyWriter.saveWith_result (wr := t.writer M) hz hpos evs

/-- C64 for `finish` alone, from any state of the writer and the stream. -/
theorem C64_finish {M : Machine} {t : Ty} {w : NpyWriter t.Val} (hn : w.numItems < 2 ^ 64) {s s' : Sink} {evs evs' : List Ev}
    (h : w.finish M shaky (s, evs) = (.ok (), (s', evs'))) : ∃ s2, w.finish M solid s = (.ok (), s2) ∧ s'.data = s2.data :=
  NpyWriter.finish_shaky_ok hn h

-- the hypotheses are met: an error while rewriting the header is reported (and the drop that follows completes the
-- file, but leaves the position inside the header); an error in the drop that follows a successful `finish` is not reported
example : faulty (List.replicate 10 (.short 1000) ++ [.short 3, .fail 7]) = (some 7, 65, 144, true) := by decide +kernel
example : faulty (List.replicate 7 (.short 1000) ++ [.fail 7]) = (some 7, 136, 136, false) := by decide +kernel
example : faulty (List.replicate 17 (.short 1000) ++ [.fail 7]) = (none, 144, 144, true) := by decide +kernel

/-! ### C65 -/

/-- C65, the part that holds: if no call fails, the position after a successful session is behind the last
item.  Missing: streams on which a call fails; there the property fails (`C65_violated`). -/
theorem C65_position_partial {M : Machine} {t : Ty} {d : DType} {size : Nat} (hd : d.Wf) (hn : exactBytes d = some size)
    (hm : size ≤ M.isizeMax) {o : Order} {hint : ShapeHint} {s s' : Sink}
    (hpos : s.pos + dictBytes d o hint + 76 ≤ 2 ^ 64) {vs : List t.Val} (hc : vs.length < 2 ^ 64) {evs evs' : List Ev}
    (hnf : ∀ c, Ev.fail c ∉ evs) (h : NpyWriter.save M shaky t d o hint vs (s, evs) = (.ok (), (s', evs'))) :
    ∃ len, headerEnd (s'.data.drop s.pos) = len ∧ s'.pos = s.pos + len + vs.length * size := by
  obtain ⟨e, h1⟩ := C63_session (M := M) d o hint vs s hnf
  rw [h1, Prod.mk.injEq, Prod.mk.injEq] at h
  obtain ⟨hr, hs, -⟩ := h
  obtain ⟨-, len, k1, -, k2⟩ := C41_position hd hn hm hpos hc (Prod.ext hr hs)
  exact ⟨len, k1, k2⟩

/-- C65 for sessions with a known shape, whatever calls fail: if success is reported the position is behind the last item. -/
theorem C65_known_shape_partial {M : Machine} {t : Ty} {d : DType} {size : Nat} (hd : d.Wf) (hn : exactBytes d = some size)
    (hm : size ≤ M.isizeMax) {o : Order} {dims : List Nat} {s s' : Sink}
    (hpos : s.pos + dictBytes d o (.nd dims) + 76 ≤ 2 ^ 64) {vs : List t.Val} (hc : vs.length < 2 ^ 64) {evs evs' : List Ev}
    (h : NpyWriter.save M shaky t d o (.nd dims) vs (s, evs) = (.ok (), (s', evs'))) :
    ∃ len, headerEnd (s'.data.drop s.pos) = len ∧ s'.pos = s.pos + len + vs.length * size := by
  obtain ⟨-, len, k1, -, k2⟩ := C41_position hd hn hm hpos hc (NpyWriter.save_shaky_known h)
  exact ⟨len, k1, k2⟩

/-- The result and the position of a session with shape `[2]`. -/
def faultyKnown (evs : List Ev) : Bool × Nat :=
  match NpyWriter.save ⟨false, 64, true⟩ shaky f64 (.plain ⟨.little, .float, 8, none⟩) .c (.nd [2]) [1#64, 2#64] (⟨[], 0, true⟩, evs) with
  | (.ok (), (s, _)) => (true, s.pos)
  | (_, (s, _)) => (false, s.pos)

-- the hypotheses are met: a call of the drop that follows `finish` fails (the second `flush`)
example : faultyKnown (List.replicate 8 (.short 1000) ++ [.fail 7]) = (true, 144) := by decide +kernel

/-- C65 is violated: if the seventeenth call on the stream fails (the `seek` back after the second rewrite
of the header, which `finish` causes by dropping the writer), `finish` reports success, but
the position is inside the header: what is written next overwrites the array. -/
theorem C65_violated : faulty (List.replicate 16 (.short 1000) ++ [.fail 7]) = (none, 86, 144, true) := by decide +kernel

/-- Two doubles on a stream with short writes and interruptions only. -/
example : ∃ evs', NpyWriter.save ⟨false, 64, true⟩ shaky f64 (.plain ⟨.little, .float, 8, none⟩) .c .oneD [1#64, 2#64] (⟨[], 0, true⟩, [.short 0, .interrupted]) =
    ((NpyWriter.save ⟨false, 64, true⟩ solid f64 (.plain ⟨.little, .float, 8, none⟩) .c .oneD [1#64, 2#64] ⟨[], 0, true⟩).1,
      ((NpyWriter.save ⟨false, 64, true⟩ solid f64 (.plain ⟨.little, .float, 8, none⟩) .c .oneD [1#64, 2#64] ⟨[], 0, true⟩).2, evs')) :=
  C63_session _ _ _ _ _ (by simp)

example := C63_steps (M := ⟨false, 64, true⟩) (t := f64) (.plain ⟨.little, .float, 8, none⟩) .c .oneD [1#64, 2#64] ⟨[], 0, true⟩ (evs := [.short 0, .interrupted]) (by simp)

def faultySave (s : Sink) (evs : List Ev) : Res Unit × Sink × List Ev :=
  NpyWriter.save ⟨false, 64, true⟩ shaky f64 (.plain ⟨.little, .float, 8, none⟩) .c .oneD ([1#64, 2#64] : List f64.Val) (s, evs)

theorem faulty_saved {evs : List Ev} (h : (match (faultySave ⟨[], 0, true⟩ evs).1 with | .ok () => true | _ => false) = true) :
    ∃ s s' evs', s.data = [] ∧ s.pos = 0 ∧ faultySave s evs = (.ok (), (s', evs')) := by
  rcases hx : faultySave ⟨[], 0, true⟩ evs with ⟨(⟨⟩ | e | _), s', evs'⟩
  · exact ⟨_, s', evs', rfl, rfl, hx⟩
  · rw [hx] at h; cases h
  · rw [hx] at h; cases h

/-- An error of the second `finish` (see C65) is not reported, but the file is complete and is read back. -/
example : ∃ s s' evs', faultySave s (List.replicate 16 (.short 1000) ++ [.fail 7]) = (.ok (), (s', evs')) ∧
    (∃ s2, NpyWriter.save ⟨false, 64, true⟩ solid f64 (.plain ⟨.little, .float, 8, none⟩) .c .oneD ([1#64, 2#64] : List f64.Val) s = (.ok (), s2) ∧
      s'.data = s2.data) ∧
    ReadsBack ⟨false, 64, true⟩ Py.parse f64 s'.data s.pos (.plain ⟨.little, .float, 8, none⟩) [2] .c ([1#64, 2#64] : List f64.Val) := by
  obtain ⟨s, s', evs', -, h0, h⟩ := faulty_saved (evs := List.replicate 16 (.short 1000) ++ [.fail 7]) (by decide +kernel)
  exact ⟨s, s', evs', h, C64_success h, C64_reads_back (M' := ⟨false, 64, true⟩) (py := Py.parse) (.inr rfl) (fun _ _ h => h) f8_wf rfl (by decide)
    (by decide) (f8_fits _ (by decide)) ⟨_, rfl⟩ (.inl rfl) (by decide +kernel) (by decide) (by rw [h0]; decide +kernel) h⟩

/-- Any errors: the result is the one without them, or one of them. -/
example (evs : List Ev) := C64_reported (M := ⟨false, 64, true⟩) (t := f64) (d := .plain ⟨.little, .float, 8, none⟩) (o := .c) (hint := .oneD) (by simp)
  (vs := [1#64, 2#64]) (s := ⟨[], 0, true⟩) (fun _ => by decide +kernel) evs

/-- Without errors the position is after the array. -/
example : ∃ s s' evs', faultySave s [.short 0, .interrupted, .short 3] = (.ok (), (s', evs')) ∧
    ∃ len, headerEnd (s'.data.drop s.pos) = len ∧ s'.pos = s.pos + len + 2 * 8 := by
  obtain ⟨s, s', evs', -, h0, h⟩ := faulty_saved (evs := [.short 0, .interrupted, .short 3]) (by decide +kernel)
  exact ⟨s, s', evs', h, C65_position_partial (vs := ([1#64, 2#64] : List f64.Val)) f8_wf rfl (by decide) (by rw [h0]; decide +kernel) (by decide) (by simp) h⟩

end Npyz.Props
