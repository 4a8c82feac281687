import Verif.Proofs.Buffer
import Verif.Props.IoError
/-!
C75-C77: writing through a `BufWriter` of any capacity, as `to_file_1d` does.

`fresh s evs` is a new `BufWriter` around the stream `s`, whose calls behave according to the schedule `evs` (see C63-C65).
`kept t j` is what the stream holds if only `j` bytes of what is in the buffer still reach it; `t.close` is the stream
after the `BufWriter` was dropped.
-/
namespace Npyz.Props
open Npyz Spec Py RProg

/-! ### C75 -/

/-- C75: if no call of the inner stream fails, a session through a `BufWriter` has the result it has on the stream itself,
and when the `BufWriter` was dropped, contents and position are the same. -/
theorem C75_transparent {M : Machine} {t : Ty} (cap : Nat) (d : DType) (o : Order) (hint : ShapeHint) (vs : List t.Val) (s : Sink) {evs : List Ev}
    (h : ∀ c, Ev.fail c ∉ evs) {r : Res Unit} {b : BufSink} (hs : NpyWriter.save M (buffered cap) t d o hint vs (fresh s evs) = (r, b)) :
    NpyWriter.save M solid t d o hint vs s = (r, b.close) := by
  obtain ⟨evs', h1, h2, h3⟩ := NpyWriter.save_buf_shaky (t := t) M cap d o hint vs (fresh s evs)
  rw [hs, viewed, fresh, Sink.put_nil] at h3
  rw [hs] at h2
  obtain ⟨evs2, h4⟩ := C63_session (M := M) d o hint vs s (evs := evs') (fun c hc => h c (h1 c hc))
  rw [h4] at h3
  simp only [Prod.mk.injEq] at h3
  have hcl : b.close = viewed b := by
    unfold BufSink.close
    rcases b.flushBuf_cases with ⟨e2, h5, -⟩ | ⟨n, c, e2, -, h5, -⟩
    · rw [h5]
    · exact absurd (h2 _ h5) (h c)
  rw [hcl]
  exact Prod.ext h3.1 h3.2.1

/-- C75 for `to_file_1d`. -/
theorem C75_to_file {M : Machine} {t : Ty} (cap : Nat) (vs : List t.Val) (s : Sink) {evs : List Ev} (h : ∀ c, Ev.fail c ∉ evs) :
    (toFile1d M (buffered cap) t vs (fresh s evs)).map (fun r => (r.1, r.2.close)) = toFile1d M solid t vs s := by
  unfold toFile1d
  rcases t.defaultDType M with _ | (d | e | _)
  · rfl
  · simp only [Option.map_some, Option.some.injEq]
    exact (C75_transparent (M := M) cap d .c .oneD vs s h (b := _) (r := _) rfl).symm
  · simp [fresh, BufSink.close, BufSink.flushBuf]
    cases evs <;> simp [BufSink.flushLoop, Sink.put_nil]
  · simp [fresh, BufSink.close, BufSink.flushBuf]
    cases evs <;> simp [BufSink.flushLoop, Sink.put_nil]

/-! ### C76 -/

/-- C76: whatever errors the inner stream has, on whatever calls: if a session through a `BufWriter` reports success, it would
have succeeded on a reliable stream, and the contents of the file are the same, whatever happens to the buffer then. -/
theorem C76_success {M : Machine} {t : Ty} {cap : Nat} {d : DType} {o : Order} {hint : ShapeHint} {vs : List t.Val} {s : Sink} {evs : List Ev}
    {b : BufSink} (h : NpyWriter.save M (buffered cap) t d o hint vs (fresh s evs) = (.ok (), b)) :
    ∃ s2, NpyWriter.save M solid t d o hint vs s = (.ok (), s2) ∧ ∀ j, kept b j = s2.data := by
  obtain ⟨s2, h1, h2⟩ := NpyWriter.save_buf_ok h
  exact ⟨s2, by simpa [viewed, fresh, Sink.put_nil] using h1, h2⟩

/-- C76: errors of the inner stream are reported: the result of a session is the one on a reliable stream, or an error the
stream returned. -/
theorem C76_reported {M : Machine} {t : Ty} {cap : Nat} {d : DType} {o : Order} {hint : ShapeHint} (hz : hint ≠ .twoD 0) {vs : List t.Val} {s : Sink}
    (hpos : hint.seeks = true → s.pos + dictBytes d o hint + 76 ≤ 2 ^ 64) (evs : List Ev) :
    (NpyWriter.save M (buffered cap) t d o hint vs (fresh s evs)).1 = (NpyWriter.save M solid t d o hint vs s).1 ∨
    ∃ c, Ev.fail c ∈ evs ∧ (NpyWriter.save M (buffered cap) t d o hint vs (fresh s evs)).1 = .err (.source c) := by
  obtain ⟨evs', h1, -, h2⟩ := NpyWriter.save_buf_shaky (t := t) M cap d o hint vs (fresh s evs)
  have e : viewed (fresh s evs) = s := Sink.put_nil s
  rw [e] at h2
  have := C64_reported (M := M) (d := d) (o := o) (vs := vs) hz hpos evs'
  rw [h2] at this
  rcases this with h | ⟨c, hc, h⟩
  · exact .inl h
  · exact .inr ⟨c, h1 c hc, h⟩

/-! ### C77 -/

/-- C77: if the process dies while a `begin_1d` or `begin_2d` file is written through a `BufWriter`, before finishing, at any
point and with any part of the buffer lost, opening what is there is an error.  (`session` stops at the first failing call of the schedule.) -/
theorem C77_unfinished {M M' : Machine} {py : PyParser} {t : Ty} {d : DType} {size : Nat} (hd : d.Wf) (hn : exactBytes d = some size)
    (hm : size ≤ M.isizeMax) {o : Order} (hpy : py.StrictAfter (dictPrefix d o)) {hint : ShapeHint} (hs : hint.seeks = true)
    (hmem : dictBytes d o hint + 76 ≤ M'.isizeMax) {vs : List t.Val} (hc : vs.length < 2 ^ 64) {s s1 : Sink} {w : NpyWriter t.Val}
    (hb : (NpyWriter.begin M t d o hint).exec s = (.ok w, s1)) (hfresh : s.data.length ≤ s.pos) (cap : Nat) (evs : List Ev) (j : Nat) :
    Unreadable M' py (kept ((NpyWriter.session M t d o hint vs).runBuf cap (fresh s evs)).2 j) s.pos := by
  obtain ⟨m, hm'⟩ := (NpyWriter.session M t d o hint vs).runBuf_kept cap (fresh s evs) j
  rw [hm']
  simp only [fresh, WProg.crash, List.length_nil, Nat.not_lt_zero, if_false, Nat.sub_zero, Sink.put_nil]
  exact C46_unfinished hd hn hm hpy hs hmem hc hb hfresh m

/-- C77: whatever errors the inner stream has, on whatever calls, and whatever part of the buffer is lost in the end: the file
that a session through a `BufWriter` leaves behind is not taken for something else (see C70).  That the process dies at some point is the case
that all calls fail from then on. -/
theorem C77_never_wrong {M M' : Machine} (hM' : M'.Wf) {py : PyParser} (hpy : py.ExtendsRef) {t : Ty} {d : DType} {size : Nat} (hd : d.Wf)
    (hn : exactBytes d = some size) (hm : size ≤ M.isizeMax) (hm' : size ≤ M'.isizeMax) (hf : AllFit M'.usizeLim d)
    (hp : ∃ p, t.reader M' d = .ok p) {o : Order} (hst : py.StrictAfter (dictPrefix d o)) {hint : ShapeHint} (hz : hint ≠ .twoD 0)
    (hdims : ∀ dims, hint = .nd dims → (∀ k ∈ dims, k < 2 ^ 64) ∧ nonzeroProd dims < 2 ^ 64) (hr : ∀ r, hint = .twoD r → r < 2 ^ 64)
    (hmem : dictBytes d o hint + 76 ≤ M'.isizeMax) {vs : List t.Val} (hc : vs.length < 2 ^ 64) (hcf : CountFits vs.length hint)
    (hsmall : Below16 vs.length o hint) (he : ∀ v ∈ vs, encode t d v ≠ none) {s s1 : Sink} {w : NpyWriter t.Val}
    (hpos : s.pos + dictBytes d o hint + 76 ≤ 2 ^ 64) (hfresh : s.data.length ≤ s.pos)
    (hb : (NpyWriter.begin M t d o hint).exec s = (.ok w, s1)) (cap : Nat) (evs : List Ev) (j : Nat) :
    NeverWrong M' py t (kept (NpyWriter.save M (buffered cap) t d o hint vs (fresh s evs)).2 j) s.pos d (finalShape o vs.length hint) o
      (vs.map (readBack t d)) := by
  obtain ⟨evs', h⟩ := NpyWriter.save_buf_kept (t := t) M cap d o hint vs s evs j
  rw [h]
  exact C70_never_wrong hM' hpy hd hn hm hm' hf hp hst hz hdims hr hmem hc hcf hsmall he hpos hfresh hb evs'

/-- A session of three numbers through a `BufWriter`: the result as in `faulty`, what is in the buffer then, and what the file reads as, if
`j` bytes of the buffer are kept: `none` if it cannot be opened, otherwise the shape and the number of elements that can be read. -/
def left77 (cap : Nat) (evs : List Ev) (j : Nat) : Option Nat × Nat × Option (List Nat × Option Nat) :=
  match NpyWriter.save ⟨false, 64, true⟩ (buffered cap) f64 (.plain ⟨.little, .float, 8, none⟩) .c .oneD [1#64, 2#64, 3#64] (fresh ⟨[], 0, true⟩ evs) with
  | (res, b) =>
    (match res with
      | .ok () => none
      | .err (.source c) => some c
      | _ => some 99,
     b.buf.length,
     match (NpyFile.new ⟨false, 64, true⟩ Py.parse disk ⟨kept b j, 0⟩).1 with
      | .ok f => some (f.header.shape, match (f.intoVec ⟨false, 64, true⟩ disk f64).1 with
        | .ok vs => some vs.length
        | _ => none)
      | _ => none)

-- no errors, for several capacities

/-- C75_transparent, C75_to_file: a buffer of 16 bytes, short writes and interruptions. -/
example := C75_transparent (M := ⟨false, 64, true⟩) (t := f64) 16 (.plain ⟨.little, .float, 8, none⟩) .c .oneD [1#64, 2#64] ⟨[], 0, true⟩
  (evs := [.short 0, .interrupted]) (by simp) (Prod.eta _).symm

example : (toFile1d ⟨false, 64, true⟩ (buffered 16) f64 [1#64, 2#64] (fresh ⟨[], 0, true⟩ [.short 0, .interrupted])).map (fun r => (r.1, r.2.close)) =
    toFile1d ⟨false, 64, true⟩ solid f64 [1#64, 2#64] ⟨[], 0, true⟩ := C75_to_file _ _ _ (by simp)

def bufSave (cap : Nat) (s : Sink) (evs : List Ev) : Res Unit × BufSink :=
  NpyWriter.save ⟨false, 64, true⟩ (buffered cap) f64 (.plain ⟨.little, .float, 8, none⟩) .c .oneD ([1#64, 2#64, 3#64] : List f64.Val) (fresh s evs)

/-- C76_success: only the second `finish_`, made by `drop`, fails. -/
example : ∃ s b, bufSave 8192 s (List.replicate 9 (.short 1000) ++ List.replicate 9 (.fail 7)) = (.ok (), b) ∧
    ∃ s2, NpyWriter.save ⟨false, 64, true⟩ solid f64 (.plain ⟨.little, .float, 8, none⟩) .c .oneD ([1#64, 2#64, 3#64] : List f64.Val) s = (.ok (), s2) ∧
      ∀ j, kept b j = s2.data := by
  have h : (match (bufSave 8192 ⟨[], 0, true⟩ (List.replicate 9 (.short 1000) ++ List.replicate 9 (.fail 7))).1 with
    | .ok () => true | _ => false) = true := by decide +kernel
  rcases hx : bufSave 8192 ⟨[], 0, true⟩ (List.replicate 9 (.short 1000) ++ List.replicate 9 (.fail 7)) with ⟨(⟨⟩ | e | _), b⟩
  · exact ⟨_, b, hx, C76_success hx⟩
  · rw [hx] at h; cases h
  · rw [hx] at h; cases h

/-- C76_reported: any errors. -/
example (cap : Nat) (evs : List Ev) := C76_reported (M := ⟨false, 64, true⟩) (t := f64) (cap := cap) (d := .plain ⟨.little, .float, 8, none⟩) (o := .c)
  (hint := .oneD) (by simp) (vs := [1#64, 2#64]) (s := ⟨[], 0, true⟩) (fun _ => by decide +kernel) evs

/-- C77_unfinished: without `finish`. -/
example (cap : Nat) (evs : List Ev) (j : Nat) : Unreadable ⟨false, 64, true⟩ Py.parse
    (kept ((NpyWriter.session ⟨false, 64, true⟩ f64 (.plain ⟨.little, .float, 8, none⟩) .c .oneD ([1#64, 2#64] : List f64.Val)).runBuf cap
      (fresh ⟨[], 0, true⟩ evs)).2 j) 0 := by
  obtain ⟨w, s1, hb⟩ := f8_begun .c (hint := .oneD) trivial (f8_dict .oneD (.inl rfl) .c)
  exact C77_unfinished (M' := ⟨false, 64, true⟩) (s := ⟨[], 0, true⟩) f8_wf rfl (by decide) (fun _ _ h => h) rfl (by decide +kernel) (by decide) hb (by simp)
    cap evs j

example : left77 0 [] 0 = (none, 0, some ([3], some 3)) := by decide +kernel
example : left77 10 [.short 2, .interrupted, .short 0] 0 = (none, 0, some ([3], some 3)) := by decide +kernel
example : left77 8192 [] 0 = (none, 0, some ([3], some 3)) := by decide +kernel
-- an error while the buffer is emptied, which is tried again when the writer is dropped
example : left77 8192 [.short 5, .short 100, .fail 7] 0 = (some 7, 0, some ([3], some 3)) := by decide +kernel
-- nothing works any more: part of the file is in the buffer, and lost
example : left77 8192 (.short 40 :: List.replicate 9 (.fail 7)) 0 = (some 7, 152, none) := by decide +kernel
-- the buffer of the final header is lost
example : left77 8192 (List.replicate 4 (.short 1000) ++ List.replicate 9 (.fail 7)) 3 = (some 7, 25, none) := by decide +kernel
-- only the second `finish_`, made by `drop`, fails; what is then in the buffer does not matter
example : left77 8192 (List.replicate 9 (.short 1000) ++ List.replicate 9 (.fail 7)) 3 = (none, 25, some ([3], some 3)) := by decide +kernel

end Npyz.Props
