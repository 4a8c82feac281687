import Verif.Proofs.Finish
/-!
Properties C39-C45, C48-C50: writing whole files.
`NpyWriter.begin` is `begin_nd`, `begin_1d`, `begin_2d` according to the shape hint; `save` starts a
writer, pushes all values (`extend`) and finishes; `pushAll` pushes value by value and carries on after
errors.  `solid` is a stream whose calls do not fail.
-/
namespace Npyz.Props
open Npyz Npyz.Spec Py

/-! ### C39, C40 -/

/-- C39: if writing `vs` with `begin_nd` and finishing succeeded, then there were product-of-shape many
values, and the file, opened at the position where it was started on any machine whose limits it
respects, has the given dtype, shape and order, and its elements are the written values (up to the
trailing NULs that fixed-size strings cannot represent, `readBack`; see C27, C30, C31). -/
theorem C39_round_trip {M M' : Machine} (hM' : M'.Wf) {py : PyParser} (hpy : py.ExtendsRef) {t : Ty} {d : DType} {size : Nat}
    (hd : d.Wf) (hn : exactBytes d = some size) (hm : size ≤ M.isizeMax) (hm' : size ≤ M'.isizeMax) (hf : AllFit M'.usizeLim d)
    (hp : ∃ p, t.reader M' d = .ok p) {o : Order} {dims : List Nat} (hdims : ∀ k ∈ dims, k < 2 ^ 64) (hprod : nonzeroProd dims < 2 ^ 64)
    (hmem : dictBytes d o (.nd dims) + 76 ≤ M'.isizeMax) {vs : List t.Val} (hc : vs.length < 2 ^ 64) {s s' : Sink}
    (h : NpyWriter.save M solid t d o (.nd dims) vs s = (.ok (), s')) :
    vs.length = dims.prod ∧ ReadsBack M' py t s'.data s.pos d dims o (vs.map (readBack t d)) := by
  obtain ⟨p, hp⟩ := hp
  obtain ⟨items, he, rfl, h1, h2, h3, -⟩ := save_ok hd hn hm hc (by intro h; cases h) h
  have h3 := h3 dims rfl
  rw [shapeProduct_exact (acc := 1) (by simpa using hprod), Out.ok.injEq, Nat.one_mul] at h3
  exact ⟨h3.symm, final_reads (hint := .nd dims) hM' hpy hd hp hn hm' hf hc h3.symm (fun _ e => by cases e; exact ⟨hdims, hprod⟩) (by simp) hmem h1 h2 he s⟩

/-- C39: for element types without padding the very same values come back. -/
theorem C39_exact {M M' : Machine} (hM' : M'.Wf) {py : PyParser} (hpy : py.ExtendsRef) {t : Ty} (ht : Exact t) {d : DType} {size : Nat}
    (hd : d.Wf) (hn : exactBytes d = some size) (hm : size ≤ M.isizeMax) (hm' : size ≤ M'.isizeMax) (hf : AllFit M'.usizeLim d)
    (hp : ∃ p, t.reader M' d = .ok p) {o : Order} {dims : List Nat} (hdims : ∀ k ∈ dims, k < 2 ^ 64) (hprod : nonzeroProd dims < 2 ^ 64)
    (hmem : dictBytes d o (.nd dims) + 76 ≤ M'.isizeMax) {vs : List t.Val} (hc : vs.length < 2 ^ 64) {s s' : Sink}
    (h : NpyWriter.save M solid t d o (.nd dims) vs s = (.ok (), s')) :
    ReadsBack M' py t s'.data s.pos d dims o vs := by
  have := (C39_round_trip hM' hpy hd hn hm hm' hf hp hdims hprod hmem hc h).2
  have e : vs.map (readBack t d) = vs := by
    conv => rhs; rw [← List.map_id vs]
    exact List.map_congr_left fun v _ => readBack_exact t d v ht
  rwa [e] at this

/-- C39, C40: writing succeeds: for an accepted dtype that is not an array dtype at top level, a header
of at most 65525 bytes and values that fit, of the right number. -/
theorem C39_succeeds {M : Machine} {t : Ty} {d : DType} {size : Nat} (hd : d.Wf) (hn : exactBytes d = some size) (hm : size ≤ M.isizeMax)
    (hna : d.NotArray) (hw : ∃ w, t.writer M d = .ok w) {o : Order} {hint : ShapeHint} (hh : hint.Fits) (hlen : dictBytes d o hint ≤ 65525)
    (hz : hint ≠ .twoD 0) {vs : List t.Val} (hc : vs.length < 2 ^ 64) (hfit : CountFits vs.length hint)
    (he : ∀ v ∈ vs, encode t d v ≠ none) {s : Sink} (hk : hint.seeks = true → s.seekable = true ∧ s.pos + dictBytes d o hint + 76 ≤ 2 ^ 64) :
    ∃ s', NpyWriter.save M solid t d o hint vs s = (.ok (), s') := by
  obtain ⟨prog, hw⟩ := hw
  obtain ⟨w, hb⟩ := begin_succeeds (s := s) hw hna hh (.inl hlen) (fun h => (hk h).1)
  obtain ⟨hst, -, -, -⟩ := begin_ok hb
  cases hi : encodeAll (encode t d) vs with
  | none => obtain ⟨v, hv, h⟩ := (encodeAll_none vs).mp hi; exact absurd h (he v hv)
  | some items =>
    rw [save_eq hd hn hm hc hb hi]
    rcases finish_cases (hst.toBegun.count vs.length) (fun h => (hk h).1) (fun h => (hk h).2) hc items with
      ⟨h1, -⟩ | ⟨-, hf, -⟩ | ⟨-, -, ⟨dims, n, rfl, h1, h2⟩ | ⟨r, rfl, h1⟩⟩
    · exact absurd h1 hz
    · exact ⟨_, hf⟩
    · exfalso
      have hh : nonzeroProd dims < 2 ^ 64 := hh
      have hfit : vs.length = dims.prod := hfit
      rw [shapeProduct_exact (acc := 1) (by simpa using hh), Out.ok.injEq, Nat.one_mul] at h1
      exact h2 (by simp only; omega)
    · exact absurd hfit h1

/-- C40: if writing `vs` with `begin_1d` or `begin_2d` and finishing succeeded, the file has the given
dtype and order, the shape `[n]`, or `[n / record_len, record_len]` (reversed for Fortran order), and
its elements are the written values. -/
theorem C40_round_trip {M M' : Machine} (hM' : M'.Wf) {py : PyParser} (hpy : py.ExtendsRef) {t : Ty} {d : DType} {size : Nat}
    (hd : d.Wf) (hn : exactBytes d = some size) (hm : size ≤ M.isizeMax) (hm' : size ≤ M'.isizeMax) (hf : AllFit M'.usizeLim d)
    (hp : ∃ p, t.reader M' d = .ok p) {o : Order} {hint : ShapeHint} (hhint : hint = .oneD ∨ ∃ r, hint = .twoD r ∧ r < 2 ^ 64)
    (hmem : dictBytes d o hint + 76 ≤ M'.isizeMax) {vs : List t.Val} (hc : vs.length < 2 ^ 64) {s s' : Sink}
    (hpos : s.pos + dictBytes d o hint + 76 ≤ 2 ^ 64) (h : NpyWriter.save M solid t d o hint vs s = (.ok (), s')) :
    CountFits vs.length hint ∧ ReadsBack M' py t s'.data s.pos d (finalShape o vs.length hint) o (vs.map (readBack t d)) := by
  obtain ⟨p, hp⟩ := hp
  obtain ⟨items, he, rfl, h1, h2, -, h4, -⟩ := save_ok hd hn hm hc (fun _ => hpos) h
  have hfit : CountFits vs.length hint := by
    rcases hhint with rfl | ⟨r, rfl, -⟩
    · trivial
    · exact (h4 r rfl).2
  refine ⟨hfit, final_reads hM' hpy hd hp hn hm' hf hc hfit ?_ ?_ hmem h1 h2 he s⟩
  · rcases hhint with rfl | ⟨r, rfl, -⟩ <;> simp
  · rcases hhint with rfl | ⟨r, rfl, hr⟩
    · simp
    · intro r' e; cases e; exact hr

/-- C40: for element types without padding the very same values come back. -/
theorem C40_exact {M M' : Machine} (hM' : M'.Wf) {py : PyParser} (hpy : py.ExtendsRef) {t : Ty} (ht : Exact t) {d : DType} {size : Nat}
    (hd : d.Wf) (hn : exactBytes d = some size) (hm : size ≤ M.isizeMax) (hm' : size ≤ M'.isizeMax) (hf : AllFit M'.usizeLim d)
    (hp : ∃ p, t.reader M' d = .ok p) {o : Order} {hint : ShapeHint} (hhint : hint = .oneD ∨ ∃ r, hint = .twoD r ∧ r < 2 ^ 64)
    (hmem : dictBytes d o hint + 76 ≤ M'.isizeMax) {vs : List t.Val} (hc : vs.length < 2 ^ 64) {s s' : Sink}
    (hpos : s.pos + dictBytes d o hint + 76 ≤ 2 ^ 64) (h : NpyWriter.save M solid t d o hint vs s = (.ok (), s')) :
    ReadsBack M' py t s'.data s.pos d (finalShape o vs.length hint) o vs := by
  have := (C40_round_trip hM' hpy hd hn hm hm' hf hp hhint hmem hc hpos h).2
  have e : vs.map (readBack t d) = vs := by
    conv => rhs; rw [← List.map_id vs]
    exact List.map_congr_left fun v _ => readBack_exact t d v ht
  rwa [e] at this

/-- C40: the same for `to_file_1d`, on a new file. -/
theorem C40_to_file_1d {M M' : Machine} (hM' : M'.Wf) {py : PyParser} (hpy : py.ExtendsRef) {t : Ty} {d : DType}
    (hdef : t.defaultDType M = some (.ok d)) {size : Nat} (hd : d.Wf) (hn : exactBytes d = some size) (hm : size ≤ M.isizeMax)
    (hm' : size ≤ M'.isizeMax) (hf : AllFit M'.usizeLim d) (hp : ∃ p, t.reader M' d = .ok p)
    (hmem : dictBytes d .c .oneD + 76 ≤ M'.isizeMax) {vs : List t.Val} (hc : vs.length < 2 ^ 64) {s' : Sink}
    (hpos : dictBytes d .c .oneD + 76 ≤ 2 ^ 64) (h : toFile1d M solid t vs ⟨[], 0, true⟩ = some (.ok (), s')) :
    ReadsBack M' py t s'.data 0 d [vs.length] .c (vs.map (readBack t d)) := by
  unfold toFile1d at h
  rw [hdef] at h
  simp only [Option.some.injEq] at h
  exact (C40_round_trip hM' hpy hd hn hm hm' hf hp (.inl rfl) hmem hc (by simp only; omega) h).2

/-- For the examples: 64-bit floats. -/
theorem f8_wf : (DType.plain ⟨.little, .float, 8, none⟩).Wf := wf_of_parse (s := "<f8".toList) (by decide)
theorem f8_fits (M : Machine) (h : 8 < M.usizeLim) : AllFit M.usizeLim (.plain ⟨.little, .float, 8, none⟩) := by
  intro n hn; cases hn; exact h
theorem f8_dict (hint : ShapeHint) (h : hint = .oneD ∨ hint = .twoD 2 ∨ hint = .twoD 0 ∨ hint = .nd [2]) (o : Order) :
    dictBytes (.plain ⟨.little, .float, 8, none⟩) o hint ≤ 100 := by
  rcases h with rfl | rfl | rfl | rfl <;> cases o <;> decide +kernel

/-- C39_succeeds, C39_round_trip, C39_exact: two floats with shape (2,), written to a pipe on a
little-endian 64-bit machine and read on a big-endian 32-bit one. -/
example : ∃ s', NpyWriter.save ⟨false, 64, true⟩ solid f64 (.plain ⟨.little, .float, 8, none⟩) .c (.nd [2]) [1#64, 2#64] ⟨[], 0, false⟩ = (.ok (), s') ∧
    ReadsBack ⟨true, 32, true⟩ Py.parse f64 s'.data 0 (.plain ⟨.little, .float, 8, none⟩) [2] .c
      (([1#64, 2#64] : List f64.Val).map (readBack f64 (.plain ⟨.little, .float, 8, none⟩))) ∧
    ReadsBack ⟨true, 32, true⟩ Py.parse f64 s'.data 0 (.plain ⟨.little, .float, 8, none⟩) [2] .c ([1#64, 2#64] : List f64.Val) := by
  have hl := f8_dict (.nd [2]) (.inr (.inr (.inr rfl))) .c
  obtain ⟨s', h⟩ := C39_succeeds (M := ⟨false, 64, true⟩) (t := f64) (o := .c) (hint := .nd [2]) (s := ⟨[], 0, false⟩) (vs := [1#64, 2#64]) f8_wf
    (size := 8) rfl (by decide) trivial ⟨_, rfl⟩ (show nonzeroProd [2] < 2 ^ 64 by decide) (by omega) nofun (by decide) rfl (fun v _ => nofun) nofun
  have hm : dictBytes (.plain ⟨.little, .float, 8, none⟩) .c (.nd [2]) + 76 ≤ (⟨true, 32, true⟩ : Machine).isizeMax :=
    Nat.le_trans (Nat.add_le_add_right hl 76) (by decide)
  exact ⟨s', h, (C39_round_trip (M' := ⟨true, 32, true⟩) (py := Py.parse) (.inl rfl) (fun _ _ h => h) f8_wf (size := 8) rfl (by decide) (by decide)
      (f8_fits _ (by decide)) ⟨_, rfl⟩ (by decide) (by decide) hm (by decide) h).2,
    C39_exact (M' := ⟨true, 32, true⟩) (py := Py.parse) (.inl rfl) (fun _ _ h => h) (t := f64) trivial f8_wf (size := 8) rfl (by decide) (by decide)
      (f8_fits _ (by decide)) ⟨_, rfl⟩ (by decide) (by decide) hm (by decide) h⟩

/-- C40_round_trip, C40_exact: four floats as rows of two, Fortran order, after two bytes of something else. -/
example : ∃ s', NpyWriter.save ⟨false, 64, true⟩ solid f64 (.plain ⟨.little, .float, 8, none⟩) .fortran (.twoD 2) [1#64, 2#64, 3#64, 4#64]
      ⟨[7, 7], 2, true⟩ = (.ok (), s') ∧
    ReadsBack ⟨true, 32, true⟩ Py.parse f64 s'.data 2 (.plain ⟨.little, .float, 8, none⟩) [2, 2] .fortran
      (([1#64, 2#64, 3#64, 4#64] : List f64.Val).map (readBack f64 (.plain ⟨.little, .float, 8, none⟩))) ∧
    ReadsBack ⟨true, 32, true⟩ Py.parse f64 s'.data 2 (.plain ⟨.little, .float, 8, none⟩) [2, 2] .fortran ([1#64, 2#64, 3#64, 4#64] : List f64.Val) := by
  have hl := f8_dict (.twoD 2) (.inr (.inl rfl)) .fortran
  have hp : 2 + dictBytes (.plain ⟨.little, .float, 8, none⟩) .fortran (.twoD 2) + 76 ≤ 2 ^ 64 := by omega
  obtain ⟨s', h⟩ := C39_succeeds (M := ⟨false, 64, true⟩) (t := f64) (o := .fortran) (hint := .twoD 2) (s := ⟨[7, 7], 2, true⟩)
    (vs := [1#64, 2#64, 3#64, 4#64]) f8_wf (size := 8) rfl (by decide) trivial ⟨_, rfl⟩ trivial (by omega) nofun (by decide) ⟨2, rfl⟩
    (fun v _ => nofun) (fun _ => ⟨rfl, hp⟩)
  have hm : dictBytes (.plain ⟨.little, .float, 8, none⟩) .fortran (.twoD 2) + 76 ≤ (⟨true, 32, true⟩ : Machine).isizeMax :=
    Nat.le_trans (Nat.add_le_add_right hl 76) (by decide)
  exact ⟨s', h, (C40_round_trip (M' := ⟨true, 32, true⟩) (py := Py.parse) (.inl rfl) (fun _ _ h => h) f8_wf (size := 8) rfl (by decide) (by decide)
      (f8_fits _ (by decide)) ⟨_, rfl⟩ (.inr ⟨2, rfl, by decide⟩) hm (by decide) hp h).2,
    C40_exact (M' := ⟨true, 32, true⟩) (py := Py.parse) (.inl rfl) (fun _ _ h => h) (t := f64) trivial f8_wf (size := 8) rfl (by decide) (by decide)
      (f8_fits _ (by decide)) ⟨_, rfl⟩ (.inr ⟨2, rfl, by decide⟩) hm (by decide) hp h⟩

/-- C40_to_file_1d: two floats. -/
example : ∃ s', toFile1d ⟨false, 64, true⟩ solid f64 [1#64, 2#64] ⟨[], 0, true⟩ = some (.ok (), s') ∧
    ReadsBack ⟨true, 32, true⟩ Py.parse f64 s'.data 0 (.plain ⟨.little, .float, 8, none⟩) [2] .c
      (([1#64, 2#64] : List f64.Val).map (readBack f64 (.plain ⟨.little, .float, 8, none⟩))) := by
  have hl := f8_dict .oneD (.inl rfl) .c
  have hp : dictBytes (.plain ⟨.little, .float, 8, none⟩) .c .oneD + 76 ≤ 2 ^ 64 := by omega
  have hdef : f64.defaultDType ⟨false, 64, true⟩ = some (.ok (.plain ⟨.little, .float, 8, none⟩)) := rfl
  obtain ⟨s', h⟩ := C39_succeeds (M := ⟨false, 64, true⟩) (t := f64) (o := .c) (hint := .oneD) (s := ⟨[], 0, true⟩) (vs := [1#64, 2#64]) f8_wf
    (size := 8) rfl (by decide) trivial ⟨_, rfl⟩ trivial (by omega) nofun (by decide) trivial (fun v _ => nofun)
    (fun _ => ⟨rfl, by simp only; omega⟩)
  have h' : toFile1d ⟨false, 64, true⟩ solid f64 [1#64, 2#64] ⟨[], 0, true⟩ = some (.ok (), s') := by
    unfold toFile1d; rw [hdef]; simp only [h]
  exact ⟨s', h', C40_to_file_1d (M' := ⟨true, 32, true⟩) (py := Py.parse) (.inl rfl) (fun _ _ h => h) hdef f8_wf (size := 8) rfl (by decide) (by decide)
    (f8_fits _ (by decide)) ⟨_, rfl⟩ (Nat.le_trans (Nat.add_le_add_right hl 76) (by decide)) (by decide) hp h'⟩

/-- For the examples: a session in progress. -/
theorem f8_begun (o : Order) {hint : ShapeHint} (hh : hint.Fits) (hl : dictBytes (.plain ⟨.little, .float, 8, none⟩) o hint ≤ 100) :
    ∃ (w : NpyWriter f64.Val) (s1 : Sink), (NpyWriter.begin ⟨false, 64, true⟩ f64 (.plain ⟨.little, .float, 8, none⟩) o hint).exec ⟨[], 0, true⟩ = (.ok w, s1) := by
  obtain ⟨w, hb⟩ := begin_succeeds (M := ⟨false, 64, true⟩) (t := f64) (d := .plain ⟨.little, .float, 8, none⟩) (o := o) (hint := hint)
    (s := ⟨[], 0, true⟩) rfl trivial hh (.inl (by omega)) (fun _ => rfl)
  exact ⟨w, _, hb⟩

/-- What a session leaves, as one Boolean test. -/
def savedAs (t : Ty) (d : DType) (o : Order) (hint : ShapeHint) (vs : List t.Val) (s : Sink) (pos : Nat) (text : String) : Bool :=
  match NpyWriter.save ⟨false, 64, true⟩ solid t d o hint vs s with
  | (.ok (), s') => s'.pos == pos && ((s'.data.drop (s.pos + 10)).take text.length == encodeUtf8 text.toList)
  | _ => false

-- the hypotheses are met: a file with three numbers, after two bytes of something else
example : savedAs f64 (.plain ⟨.little, .float, 8, none⟩) .c .oneD [1#64, 2#64, 3#64] ⟨[7, 7], 2, true⟩ 154
    "{'descr': '<f8', 'fortran_order': False, 'shape': (3,), }                   " = true := by decide +kernel
example : savedAs f64 (.plain ⟨.little, .float, 8, none⟩) .fortran (.twoD 2) [1#64, 2#64, 3#64, 4#64] ⟨[], 0, true⟩ 160
    "{'descr': '<f8', 'fortran_order': True, 'shape': (2, 2), }                   " = true := by decide +kernel
example : savedAs f64 (.plain ⟨.little, .float, 8, none⟩) .c (.nd [1, 2, 0]) [] ⟨[], 0, false⟩ 128
    "{'descr': '<f8', 'fortran_order': False, 'shape': (1, 2, 0, ), }" = true := by decide +kernel

/-! ### C41 -/

/-- C41: whatever values were pushed (also if some pushes failed) and however finishing ends: finishing
a `begin_1d` or `begin_2d` file leaves the position and the length of the file as they were, and changes
bytes only in a range inside the header that held the placeholder of the shape. -/
theorem C41_only_placeholder {M : Machine} {t : Ty} {d : DType} {size : Nat} (hd : d.Wf) (hn : exactBytes d = some size)
    (hm : size ≤ M.isizeMax) {o : Order} {hint : ShapeHint} (hs : hint.seeks = true) {s s1 s2 s3 : Sink} {w w' : NpyWriter t.Val}
    (hpos : s.pos + dictBytes d o hint + 76 ≤ 2 ^ 64) (hb : (NpyWriter.begin M t d o hint).exec s = (.ok w, s1))
    {vs : List t.Val} (hc : vs.length < 2 ^ 64) {rs : List (Res Unit)} (hpu : w.pushAll M solid vs s1 = (rs, w', s2)) {r : Res Unit}
    (hfi : w'.finish M solid s2 = (r, s3)) :
    s3.pos = s2.pos ∧ s3.data.length = s2.data.length ∧
    ∃ lo hi, s.pos ≤ lo ∧ lo ≤ hi ∧ hi ≤ s1.pos ∧ (s2.data.drop lo).take (hi - lo) = encodeUtf8 (placeholder o hint) ∧
      ∀ i, ¬ (lo ≤ i ∧ i < hi) → s3.data[i]? = s2.data[i]? := by
  obtain ⟨hst, h0, hk, rfl⟩ := begin_ok hb
  obtain ⟨bs, h1, -⟩ := pushAll_solid hd hn hm vs w hst.prog (by omega) (s.put (headerBytes (dictText d o hint)))
  rw [hpu, Sink.put_put] at h1
  simp only [Prod.mk.injEq] at h1
  obtain ⟨rfl, rfl⟩ := h1
  rw [(finish_eq _ (by simp only; omega) _).1] at hfi
  obtain ⟨a, b, lo, hi, c1, c2, c3, c4, c5⟩ := finish_bytes hs (hst.count (w.numItems + vs.length)) (hk hs) hpos (by simp only; omega) bs hfi
  exact ⟨by simp [a]; omega, b, lo, hi, c1, c2, by simpa using c3, c4, c5⟩

/-- C41: everything that was in the stream before the start position is still there, and after a
successful session the position is behind the last item: the header, whose length is a multiple of 64,
and `item_size` bytes per item. -/
theorem C41_position {M : Machine} {t : Ty} {d : DType} {size : Nat} (hd : d.Wf) (hn : exactBytes d = some size)
    (hm : size ≤ M.isizeMax) {o : Order} {hint : ShapeHint} {s s' : Sink}
    (hpos : s.pos + dictBytes d o hint + 76 ≤ 2 ^ 64) {vs : List t.Val} (hc : vs.length < 2 ^ 64)
    (h : NpyWriter.save M solid t d o hint vs s = (.ok (), s')) :
    (∀ i, i < s.pos → i < s.data.length → s'.data[i]? = s.data[i]?) ∧
    (∃ len, headerEnd (s'.data.drop s.pos) = len ∧ len % 64 = 0 ∧ s'.pos = s.pos + len + vs.length * size) := by
  obtain ⟨items, he, rfl, h1, h2, -, -, prog, hw⟩ := save_ok hd hn hm hc (fun _ => hpos) h
  have hne := headerBytes_ne_nil (finalDict d o hint vs.length)
  have hput := Sink.put_data s (b := headerBytes (finalDict d o hint vs.length) ++ items) (by simp [hne])
  have hfit := finalDict_fits hc h2
  obtain ⟨rest, hdrop⟩ := Sink.put_drop s (headerBytes (finalDict d o hint vs.length) ++ items) (by simp [hne])
  refine ⟨fun i hi hi' => ?_, _, rfl, ?_, ?_⟩
  · rw [hput, List.append_assoc, List.getElem?_append_left (by rw [Sink.before_length]; exact hi), Sink.before_get _ hi hi']
  · rw [hdrop, List.append_assoc, headerEnd_headerBytes hfit, headerBytes_length]
    exact padHeader_mod _ _
  · rw [hdrop, List.append_assoc, headerEnd_headerBytes hfit, Sink.put_pos, List.length_append,
      (encodeAll_item (size := size) (encode_length hd hn hm hw) vs he).1]
    omega

/-- C41_only_placeholder: two floats pushed one by one. -/
example : ∃ (w w' : NpyWriter f64.Val) (s1 s2 s3 : Sink) (rs : List (Res Unit)) (r : Res Unit),
    (NpyWriter.begin ⟨false, 64, true⟩ f64 (.plain ⟨.little, .float, 8, none⟩) .c .oneD).exec ⟨[], 0, true⟩ = (.ok w, s1) ∧
    w.pushAll ⟨false, 64, true⟩ solid ([1#64, 2#64] : List f64.Val) s1 = (rs, w', s2) ∧ w'.finish ⟨false, 64, true⟩ solid s2 = (r, s3) ∧
    s3.pos = s2.pos ∧ s3.data.length = s2.data.length := by
  have hl := f8_dict .oneD (.inl rfl) .c
  obtain ⟨w, s1, hb⟩ := f8_begun .c (hint := .oneD) trivial hl
  rcases hpu : w.pushAll ⟨false, 64, true⟩ solid ([1#64, 2#64] : List f64.Val) s1 with ⟨rs, w', s2⟩
  rcases hfi : w'.finish ⟨false, 64, true⟩ solid s2 with ⟨r, s3⟩
  obtain ⟨h1, h2, -⟩ := C41_only_placeholder (t := f64) f8_wf (size := 8) rfl (by decide) rfl (by simp only; omega) hb (by decide) hpu hfi
  exact ⟨w, w', s1, s2, s3, rs, r, hb, hpu, hfi, h1, h2⟩

/-- C41_position: a file that starts at offset 2. -/
example : ∃ s', NpyWriter.save ⟨false, 64, true⟩ solid f64 (.plain ⟨.little, .float, 8, none⟩) .c .oneD ([1#64, 2#64] : List f64.Val) ⟨[7, 7], 2, true⟩ =
      (.ok (), s') ∧ (∀ i, i < 2 → i < 2 → s'.data[i]? = ([7, 7] : Bytes)[i]?) ∧
    ∃ len, headerEnd (s'.data.drop 2) = len ∧ len % 64 = 0 ∧ s'.pos = 2 + len + 2 * 8 := by
  have hl := f8_dict .oneD (.inl rfl) .c
  obtain ⟨s', h⟩ := C39_succeeds (M := ⟨false, 64, true⟩) (t := f64) (o := .c) (hint := .oneD) (s := ⟨[7, 7], 2, true⟩) (vs := [1#64, 2#64]) f8_wf
    (size := 8) rfl (by decide) trivial ⟨_, rfl⟩ trivial (by omega) nofun (by decide) trivial (fun v _ => nofun)
    (fun _ => ⟨rfl, by simp only; omega⟩)
  exact ⟨s', h, C41_position (t := f64) f8_wf (size := 8) rfl (by decide) (by simp only; omega) (by decide) h⟩

/-! ### C42 -/

/-- C42: `finish`, including the drop it implies, has the result and the effect of rewriting the shape
once (`finish_`); so has dropping the writer, for every state of writer and stream. -/
theorem C42_finish_drop {M : Machine} {t : Ty} (w : NpyWriter t.Val) (hn : w.numItems < 2 ^ 64) (s : Sink) :
    w.finish M solid s = (w.finish_ M).exec s ∧ (w.drop M solid s).2 = ((w.finish_ M).exec s).2 ∧
    (w.drop M solid s).2 = (w.finish M solid s).2 := by
  obtain ⟨h1, h2⟩ := finish_eq (M := M) w hn s
  exact ⟨h1, h2, by rw [h1, h2]⟩

/-- C42_finish_drop: a session without any item. -/
example : ∃ (w : NpyWriter f64.Val) (s1 : Sink),
    (NpyWriter.begin ⟨false, 64, true⟩ f64 (.plain ⟨.little, .float, 8, none⟩) .c .oneD).exec ⟨[], 0, true⟩ = (.ok w, s1) ∧
    (w.drop ⟨false, 64, true⟩ solid s1).2 = (w.finish ⟨false, 64, true⟩ solid s1).2 := by
  obtain ⟨w, s1, hb⟩ := f8_begun .c (hint := .oneD) trivial (f8_dict .oneD (.inl rfl) .c)
  exact ⟨w, s1, hb, (C42_finish_drop w (by rw [(begin_ok hb).2.1]; decide) s1).2.2⟩

/-! ### C43, C44 -/

/-- C43: for `begin_2d` with a nonzero record length, after any pushes, `finish` fails exactly if the
number of pushed items is not a multiple of the record length; it does not panic. -/
theorem C43_two_d {M : Machine} {t : Ty} {d : DType} {size : Nat} (hd : d.Wf) (hn : exactBytes d = some size)
    (hm : size ≤ M.isizeMax) {o : Order} {r : Nat} (hr : r ≠ 0) {s s1 s2 : Sink} {w w' : NpyWriter t.Val}
    (hpos : s.pos + dictBytes d o (.twoD r) + 76 ≤ 2 ^ 64) (hb : (NpyWriter.begin M t d o (.twoD r)).exec s = (.ok w, s1))
    {vs : List t.Val} (hc : vs.length < 2 ^ 64) {rs : List (Res Unit)} (hpu : w.pushAll M solid vs s1 = (rs, w', s2)) :
    ((w'.finish M solid s2).1 = .ok () ↔ r ∣ vs.length) ∧ ((∃ e, (w'.finish M solid s2).1 = .err e) ↔ ¬ r ∣ vs.length) := by
  obtain ⟨hst, h0, hk, rfl⟩ := begin_ok hb
  obtain ⟨bs, h1, -⟩ := pushAll_solid hd hn hm vs w hst.prog (by omega) (s.put (headerBytes (dictText d o (.twoD r))))
  rw [hpu, Sink.put_put] at h1
  simp only [Prod.mk.injEq] at h1
  obtain ⟨rfl, rfl⟩ := h1
  rw [h0, Nat.zero_add]
  rw [(finish_eq _ (by simp only; omega) _).1]
  rcases finish_cases (hst.toBegun.count vs.length) hk (fun _ => hpos) hc bs with
    ⟨h1, -⟩ | ⟨-, hf, -, h1⟩ | ⟨-, ⟨e, hf⟩, ⟨dims, n, h1, -⟩ | ⟨r', h1, h2⟩⟩
  · simp only [ShapeHint.twoD.injEq] at h1; exact absurd h1 hr
  · rw [hf]
    have := h1 r rfl
    simp only at this
    simp [this]
  · cases h1
  · cases h1
    rw [hf]
    simp only at h2
    simp [h2]

/-- C43: for `begin_nd`, after any pushes, `finish` fails exactly if the number of pushed items is not the
product of the shape.  Missing: shapes whose product (leaving out zeros) exceeds `u64`; there the
property fails (`C43_violated`). -/
theorem C43_nd_partial {M : Machine} {t : Ty} {d : DType} {size : Nat} (hd : d.Wf) (hn : exactBytes d = some size)
    (hm : size ≤ M.isizeMax) {o : Order} {dims : List Nat} (hprod : nonzeroProd dims < 2 ^ 64) {s s1 s2 : Sink} {w w' : NpyWriter t.Val}
    (hb : (NpyWriter.begin M t d o (.nd dims)).exec s = (.ok w, s1))
    {vs : List t.Val} (hc : vs.length < 2 ^ 64) {rs : List (Res Unit)} (hpu : w.pushAll M solid vs s1 = (rs, w', s2)) :
    ((w'.finish M solid s2).1 = .ok () ↔ vs.length = dims.prod) ∧ ((∃ e, (w'.finish M solid s2).1 = .err e) ↔ vs.length ≠ dims.prod) := by
  obtain ⟨hst, h0, hk, rfl⟩ := begin_ok hb
  obtain ⟨bs, h1, -⟩ := pushAll_solid hd hn hm vs w hst.prog (by omega) (s.put (headerBytes (dictText d o (.nd dims))))
  rw [hpu, Sink.put_put] at h1
  simp only [Prod.mk.injEq] at h1
  obtain ⟨rfl, rfl⟩ := h1
  rw [h0, Nat.zero_add]
  rw [(finish_eq _ (by simp only; omega) _).1]
  obtain ⟨n, h1, h2⟩ := hst.info
  rw [shapeProduct_exact (acc := 1) (by simpa using hprod), Out.ok.injEq, Nat.one_mul] at h1
  subst h1
  rw [exec_finish_nd (w := { w with numItems := vs.length }) h2]
  by_cases he : dims.prod = vs.length
  · simp [he]
  · rw [if_neg he]
    have : vs.length ≠ dims.prod := fun h => he h.symm
    simp [this]

/-- C43_two_d, C44_nonzero_partial: three floats are not rows of two; C43_nd_partial: nor are they an
array of shape (2,). -/
example : (∃ (w w' : NpyWriter f64.Val) (s1 s2 : Sink) (rs : List (Res Unit)),
      (NpyWriter.begin ⟨false, 64, true⟩ f64 (.plain ⟨.little, .float, 8, none⟩) .c (.twoD 2)).exec ⟨[], 0, true⟩ = (.ok w, s1) ∧
      w.pushAll ⟨false, 64, true⟩ solid ([1#64, 2#64, 3#64] : List f64.Val) s1 = (rs, w', s2) ∧
      ∃ e, (w'.finish ⟨false, 64, true⟩ solid s2).1 = .err e) ∧
    ∃ (w w' : NpyWriter f64.Val) (s1 s2 : Sink) (rs : List (Res Unit)),
      (NpyWriter.begin ⟨false, 64, true⟩ f64 (.plain ⟨.little, .float, 8, none⟩) .c (.nd [2])).exec ⟨[], 0, true⟩ = (.ok w, s1) ∧
      w.pushAll ⟨false, 64, true⟩ solid ([1#64, 2#64, 3#64] : List f64.Val) s1 = (rs, w', s2) ∧
      ∃ e, (w'.finish ⟨false, 64, true⟩ solid s2).1 = .err e := by
  constructor
  · have hl := f8_dict (.twoD 2) (.inr (.inl rfl)) .c
    obtain ⟨w, s1, hb⟩ := f8_begun .c (hint := .twoD 2) trivial hl
    rcases hpu : w.pushAll ⟨false, 64, true⟩ solid ([1#64, 2#64, 3#64] : List f64.Val) s1 with ⟨rs, w', s2⟩
    exact ⟨w, w', s1, s2, rs, hb, hpu, (C43_two_d (t := f64) f8_wf (size := 8) rfl (by decide) (by decide) (by simp only; omega) hb (by decide) hpu).2.mpr
      (by decide)⟩
  · obtain ⟨w, s1, hb⟩ := f8_begun .c (hint := .nd [2]) (show nonzeroProd [2] < 2 ^ 64 by decide) (f8_dict _ (.inr (.inr (.inr rfl))) .c)
    rcases hpu : w.pushAll ⟨false, 64, true⟩ solid ([1#64, 2#64, 3#64] : List f64.Val) s1 with ⟨rs, w', s2⟩
    exact ⟨w, w', s1, s2, rs, hb, hpu, (C43_nd_partial (t := f64) f8_wf (size := 8) rfl (by decide) (by decide) hb (by decide) hpu).2.mpr (by decide)⟩

/-- Start an array of shape `(2^32, 2^32)` on a machine without overflow checks and finish it at once: the
position after success. -/
def hugeSession : Option Nat :=
  match (NpyWriter.begin ⟨false, 64, false⟩ f64 (.plain ⟨.little, .float, 8, none⟩) .c (.nd [2 ^ 32, 2 ^ 32])).exec ⟨[], 0, true⟩ with
  | (.ok w, s) =>
    match w.finish ⟨false, 64, false⟩ solid s with
    | (.ok (), s') => some s'.pos
    | _ => none
  | _ => none

/-- C43 is violated: without overflow checks the product of the shape wraps around, and an array of
shape `(2^32, 2^32)` is finished successfully without any item. -/
theorem C43_violated : hugeSession = some 128 ∧ [2 ^ 32, 2 ^ 32].prod ≠ 0 := by decide +kernel

/-- C44 is violated: with record length zero, whatever is pushed, `finish` panics and so does dropping
the writer (thus `finish` panics while unwinding). -/
theorem C44_zero_panics {M : Machine} {t : Ty} {d : DType} {size : Nat} (hd : d.Wf) (hn : exactBytes d = some size)
    (hm : size ≤ M.isizeMax) {o : Order} {s s1 s2 : Sink} {w w' : NpyWriter t.Val}
    (hb : (NpyWriter.begin M t d o (.twoD 0)).exec s = (.ok w, s1))
    {vs : List t.Val} (hc : vs.length < 2 ^ 64) {rs : List (Res Unit)} (hpu : w.pushAll M solid vs s1 = (rs, w', s2)) :
    w'.finish M solid s2 = (.panic, s2) ∧ w'.drop M solid s2 = (.panic, s2) := by
  obtain ⟨hst, h0, hk, rfl⟩ := begin_ok hb
  obtain ⟨bs, h1, -⟩ := pushAll_solid hd hn hm vs w hst.prog (by omega) (s.put (headerBytes (dictText d o (.twoD 0))))
  rw [hpu, Sink.put_put] at h1
  simp only [Prod.mk.injEq] at h1
  obtain ⟨rfl, rfl⟩ := h1
  rw [(finish_eq _ (by simp only; omega) _).1, exec_finish_zero (hst.count _).info]
  refine ⟨rfl, ?_⟩
  unfold NpyWriter.drop
  simp only [solid, exec_finish_zero (hst.count (w.numItems + vs.length)).info]

/-- C44 is violated: such a writer can be started on every seekable stream. -/
theorem C44_violated {M : Machine} (hM : M.Wf) (s : Sink) (hs : s.seekable = true) :
    ∃ (w : NpyWriter f64.Val) (s1 : Sink), (NpyWriter.begin M f64 (.plain ⟨.little, .float, 8, none⟩) .c (.twoD 0)).exec s = (.ok w, s1) ∧
      w.finish M solid s1 = (.panic, s1) ∧ w.drop M solid s1 = (.panic, s1) := by
  have hd : (DType.plain ⟨.little, .float, 8, none⟩).Wf := wf_of_parse (s := "<f8".toList) (by decide)
  obtain ⟨prog, hw⟩ := (writer_ok_iff hM f64 (.plain ⟨.little, .float, 8, none⟩)).mpr ⟨.inl ⟨rfl, rfl⟩, fits (by
    have : 2 ^ 16 ≤ M.usizeLim := by
      unfold Machine.usizeLim
      rcases hM with h | h <;> rw [h] <;> decide
    show 8 < M.usizeLim
    omega)⟩
  obtain ⟨w, hb⟩ := begin_succeeds (M := M) (t := f64) (o := .c) (hint := .twoD 0) (s := s) hw trivial trivial
    (.inl (by decide +kernel)) (fun _ => hs)
  obtain ⟨h1, h2⟩ := C44_zero_panics hd (by rfl) (small_isize hM (by decide)) hb (vs := []) (by decide) rfl
  exact ⟨w, _, hb, h1, h2⟩

example := C44_violated (M := ⟨false, 64, true⟩) (.inr rfl) ⟨[], 0, true⟩ rfl

/-- C44, the part that holds: with a nonzero record length neither `finish` nor dropping panics, after
any pushes. -/
theorem C44_nonzero_partial {M : Machine} {t : Ty} {d : DType} {size : Nat} (hd : d.Wf) (hn : exactBytes d = some size)
    (hm : size ≤ M.isizeMax) {o : Order} {r : Nat} (hr : r ≠ 0) {s s1 s2 : Sink} {w w' : NpyWriter t.Val}
    (hpos : s.pos + dictBytes d o (.twoD r) + 76 ≤ 2 ^ 64) (hb : (NpyWriter.begin M t d o (.twoD r)).exec s = (.ok w, s1))
    {vs : List t.Val} (hc : vs.length < 2 ^ 64) {rs : List (Res Unit)} (hpu : w.pushAll M solid vs s1 = (rs, w', s2)) :
    (w'.finish M solid s2).1 ≠ .panic ∧ (w'.drop M solid s2).1 ≠ .panic := by
  obtain ⟨h1, h2⟩ := C43_two_d hd hn hm hr hpos hb hc hpu
  have hf : (w'.finish M solid s2).1 ≠ .panic := by
    intro h
    by_cases hx : r ∣ vs.length
    · rw [h1.mpr hx] at h; cases h
    · obtain ⟨e, he⟩ := h2.mpr hx
      rw [he] at h; cases h
  refine ⟨hf, fun hdp => hf ?_⟩
  have hnum : w'.numItems < 2 ^ 64 := by
    obtain ⟨hst, h0, hk, rfl⟩ := begin_ok hb
    obtain ⟨bs, h1, -⟩ := pushAll_solid hd hn hm vs w hst.prog (by omega) (s.put (headerBytes (dictText d o (.twoD r))))
    rw [hpu] at h1
    simp only [Prod.mk.injEq] at h1
    rw [h1.1]
    simp only; omega
  rw [(finish_eq w' hnum s2).1]
  unfold NpyWriter.drop at hdp
  simp only [solid] at hdp
  rcases hx : (w'.finish_ M).exec s2 with ⟨(_ | _ | _), s'⟩ <;> rw [hx] at hdp <;> first | cases hdp | rfl

/-- C44_zero_panics: rows of length 0; C44_nonzero_partial: rows of length 2. -/
example : (∃ (w w' : NpyWriter f64.Val) (s1 s2 : Sink) (rs : List (Res Unit)),
      (NpyWriter.begin ⟨false, 64, true⟩ f64 (.plain ⟨.little, .float, 8, none⟩) .c (.twoD 0)).exec ⟨[], 0, true⟩ = (.ok w, s1) ∧
      w.pushAll ⟨false, 64, true⟩ solid ([1#64] : List f64.Val) s1 = (rs, w', s2) ∧ w'.finish ⟨false, 64, true⟩ solid s2 = (.panic, s2)) ∧
    ∃ (w w' : NpyWriter f64.Val) (s1 s2 : Sink) (rs : List (Res Unit)),
      (NpyWriter.begin ⟨false, 64, true⟩ f64 (.plain ⟨.little, .float, 8, none⟩) .c (.twoD 2)).exec ⟨[], 0, true⟩ = (.ok w, s1) ∧
      w.pushAll ⟨false, 64, true⟩ solid ([1#64] : List f64.Val) s1 = (rs, w', s2) ∧ (w'.finish ⟨false, 64, true⟩ solid s2).1 ≠ .panic := by
  constructor
  · obtain ⟨w, s1, hb⟩ := f8_begun .c (hint := .twoD 0) trivial (f8_dict _ (.inr (.inr (.inl rfl))) .c)
    rcases hpu : w.pushAll ⟨false, 64, true⟩ solid ([1#64] : List f64.Val) s1 with ⟨rs, w', s2⟩
    exact ⟨w, w', s1, s2, rs, hb, hpu, (C44_zero_panics (t := f64) f8_wf (size := 8) rfl (by decide) hb (by decide) hpu).1⟩
  · have hl := f8_dict (.twoD 2) (.inr (.inl rfl)) .c
    obtain ⟨w, s1, hb⟩ := f8_begun .c (hint := .twoD 2) trivial hl
    rcases hpu : w.pushAll ⟨false, 64, true⟩ solid ([1#64] : List f64.Val) s1 with ⟨rs, w', s2⟩
    exact ⟨w, w', s1, s2, rs, hb, hpu, (C44_nonzero_partial (t := f64) f8_wf (size := 8) rfl (by decide) (by decide) (by simp only; omega) hb (by decide) hpu).1⟩

/-! ### C45 -/

/-- C45: finishing a `begin_1d` file succeeds after any pushes, and the header then announces one item
for every push, whether it succeeded or not. -/
theorem C45_counts_attempts {M M' : Machine} {py : PyParser} (hpy : py.ExtendsRef) {t : Ty} {d : DType} {size : Nat} (hd : d.Wf)
    (hn : exactBytes d = some size) (hm : size ≤ M.isizeMax) (hf : AllFit M'.usizeLim d) {o : Order} {s s1 s2 : Sink} {w w' : NpyWriter t.Val}
    (hpos : s.pos + dictBytes d o .oneD + 76 ≤ 2 ^ 64) (hmem : dictBytes d o .oneD + 76 ≤ M'.isizeMax)
    (hb : (NpyWriter.begin M t d o .oneD).exec s = (.ok w, s1))
    {vs : List t.Val} (hc : vs.length < 2 ^ 64) {rs : List (Res Unit)} (hpu : w.pushAll M solid vs s1 = (rs, w', s2)) :
    ∃ s3 f, w'.finish M solid s2 = (.ok (), s3) ∧ (NpyFile.new M' py disk ⟨s3.data, s.pos⟩).1 = .ok f ∧ f.header.shape = [vs.length] := by
  obtain ⟨hst, h0, hk, rfl⟩ := begin_ok hb
  obtain ⟨bs, h1, -⟩ := pushAll_solid hd hn hm vs w hst.prog (by omega) (s.put (headerBytes (dictText d o .oneD)))
  rw [hpu, Sink.put_put] at h1
  simp only [Prod.mk.injEq] at h1
  obtain ⟨rfl, rfl⟩ := h1
  rw [h0, Nat.zero_add]
  rw [(finish_eq _ (by simp only; omega) _).1]
  rcases finish_cases (hst.toBegun.count vs.length) hk (fun _ => hpos) hc bs with
    ⟨h1, -⟩ | ⟨-, hfi, -⟩ | ⟨-, -, ⟨dims, n, h1, -⟩ | ⟨r', h1, h2⟩⟩
  · cases h1
  · obtain ⟨f, f1, -, f2, -⟩ := final_opens (M' := M') (hint := .oneD) (o := o) hpy hd hn hf hc trivial (by simp) (by simp) hmem hst.isArray hst.hdrFits
      bs s
    exact ⟨_, f, hfi, f1, f2⟩
  · cases h1
  · cases h1

/-- C45, the part that holds: if all pushes succeeded, the header counts the successes. -/
theorem C45_all_ok_partial {M M' : Machine} {py : PyParser} (hpy : py.ExtendsRef) {t : Ty} {d : DType} {size : Nat} (hd : d.Wf)
    (hn : exactBytes d = some size) (hm : size ≤ M.isizeMax) (hf : AllFit M'.usizeLim d) {o : Order} {s s1 s2 : Sink} {w w' : NpyWriter t.Val}
    (hpos : s.pos + dictBytes d o .oneD + 76 ≤ 2 ^ 64) (hmem : dictBytes d o .oneD + 76 ≤ M'.isizeMax)
    (hb : (NpyWriter.begin M t d o .oneD).exec s = (.ok w, s1))
    {vs : List t.Val} (hc : vs.length < 2 ^ 64) {rs : List (Res Unit)} (hpu : w.pushAll M solid vs s1 = (rs, w', s2))
    (hall : ∀ r ∈ rs, r = .ok ()) :
    ∃ s3 f, w'.finish M solid s2 = (.ok (), s3) ∧ (NpyFile.new M' py disk ⟨s3.data, s.pos⟩).1 = .ok f ∧ f.header.shape = [successes rs] := by
  have hl : rs.length = vs.length := by
    obtain ⟨hst, h0, hk, rfl⟩ := begin_ok hb
    obtain ⟨bs, -, h2, -⟩ := pushAll_solid hd hn hm vs w hst.prog (by omega) (s.put (headerBytes (dictText d o .oneD)))
    rw [hpu] at h2
    exact h2
  rw [successes_all hall, hl]
  exact C45_counts_attempts hpy hd hn hm hf hpos hmem hb hc hpu

/-- C45_counts_attempts: two floats. -/
example : ∃ (w w' : NpyWriter f64.Val) (s1 s2 s3 : Sink) (rs : List (Res Unit)) (f : NpyFile Src),
    (NpyWriter.begin ⟨false, 64, true⟩ f64 (.plain ⟨.little, .float, 8, none⟩) .c .oneD).exec ⟨[], 0, true⟩ = (.ok w, s1) ∧
    w.pushAll ⟨false, 64, true⟩ solid ([1#64, 2#64] : List f64.Val) s1 = (rs, w', s2) ∧ w'.finish ⟨false, 64, true⟩ solid s2 = (.ok (), s3) ∧
    (NpyFile.new ⟨true, 32, true⟩ Py.parse disk ⟨s3.data, 0⟩).1 = .ok f ∧ f.header.shape = [2] := by
  have hl := f8_dict .oneD (.inl rfl) .c
  obtain ⟨w, s1, hb⟩ := f8_begun .c (hint := .oneD) trivial hl
  rcases hpu : w.pushAll ⟨false, 64, true⟩ solid ([1#64, 2#64] : List f64.Val) s1 with ⟨rs, w', s2⟩
  obtain ⟨s3, f, h1, h2, h3⟩ := C45_counts_attempts (M' := ⟨true, 32, true⟩) (py := Py.parse) (fun _ _ h => h) (t := f64) f8_wf (size := 8) rfl
    (by decide) (f8_fits _ (by decide)) (by simp only; omega) (Nat.le_trans (Nat.add_le_add_right hl 76) (by decide)) hb (by decide) hpu
  exact ⟨w, w', s1, s2, s3, rs, f, hb, hpu, h1, h2, h3⟩

/-- C45_all_ok_partial: all pushes of two floats succeed. -/
example : ∃ (w w' : NpyWriter f64.Val) (s1 s2 s3 : Sink) (rs : List (Res Unit)) (f : NpyFile Src),
    (NpyWriter.begin ⟨false, 64, true⟩ f64 (.plain ⟨.little, .float, 8, none⟩) .c .oneD).exec ⟨[], 0, true⟩ = (.ok w, s1) ∧
    w.pushAll ⟨false, 64, true⟩ solid ([1#64, 2#64] : List f64.Val) s1 = (rs, w', s2) ∧ w'.finish ⟨false, 64, true⟩ solid s2 = (.ok (), s3) ∧
    (NpyFile.new ⟨true, 32, true⟩ Py.parse disk ⟨s3.data, 0⟩).1 = .ok f ∧ f.header.shape = [successes rs] := by
  have hl := f8_dict .oneD (.inl rfl) .c
  obtain ⟨w, s1, hb⟩ := f8_begun .c (hint := .oneD) trivial hl
  obtain ⟨hst, h0, -, -⟩ := begin_ok hb
  obtain ⟨bs, -, k1, k2, -⟩ := pushAll_solid (t := f64) (d := .plain ⟨.little, .float, 8, none⟩) (n := 8) f8_wf rfl (by decide) [1#64, 2#64] w hst.prog
    (by rw [h0]; decide) s1
  rcases hpu : w.pushAll ⟨false, 64, true⟩ solid ([1#64, 2#64] : List f64.Val) s1 with ⟨rs, w', s2⟩
  rw [hpu] at k1 k2
  have hall : ∀ r ∈ rs, r = .ok () := by
    intro r hr
    obtain ⟨i, hi, rfl⟩ := List.getElem_of_mem hr
    have hi' : i < 2 := by rw [k1] at hi; exact hi
    have := (k2 i hi').mpr rfl
    rw [List.getElem?_eq_getElem hi] at this
    exact Option.some.inj this
  obtain ⟨s3, f, h1, h2, h3⟩ := C45_all_ok_partial (M' := ⟨true, 32, true⟩) (py := Py.parse) (fun _ _ h => h) (t := f64) f8_wf (size := 8) rfl
    (by decide) (f8_fits _ (by decide)) (by simp only; omega) (Nat.le_trans (Nat.add_le_add_right hl 76) (by decide)) hb (by decide) hpu hall
  exact ⟨w, w', s1, s2, s3, rs, f, hb, hpu, h1, h2, h3⟩

/-- `|S1` -/
def oneByte : DType := .plain ⟨.irrelevant, .byteStr, 1, none⟩

/-- C45 is violated: pushing a two-byte string into an array of one-byte strings fails, yet the header
says that the file has one item. -/
theorem C45_violated {M : Machine} (hM : M.Wf) {py : PyParser} (hpy : py.ExtendsRef) :
    ∃ (w w' : NpyWriter Ty.vecU8.Val) (s1 s2 s3 : Sink) (rs : List (Res Unit)) (f : NpyFile Src),
      (NpyWriter.begin M .vecU8 oneByte .c .oneD).exec ⟨[], 0, true⟩ = (.ok w, s1) ∧
      w.pushAll M solid [[(1 : UInt8), 2]] s1 = (rs, w', s2) ∧ successes rs = 0 ∧ w'.finish M solid s2 = (.ok (), s3) ∧
      (NpyFile.new M py disk ⟨s3.data, 0⟩).1 = .ok f ∧ f.header.shape = [1] := by
  have hd : oneByte.Wf := ⟨⟨trivial, by simp [OrderMatters], by simp⟩, by decide, by simp⟩
  have hlim : 2 ^ 16 ≤ M.usizeLim := by
    unfold Machine.usizeLim
    rcases hM with h | h <;> rw [h] <;> decide
  have hlim2 : 2 ^ 16 ≤ M.isizeMax := by
    unfold Machine.isizeMax
    rcases hM with h | h <;> rw [h] <;> decide
  obtain ⟨prog, hw⟩ := (writer_ok_iff hM .vecU8 oneByte).mpr ⟨.inl (.inr rfl), fits (by show 1 < M.usizeLim; omega)⟩
  obtain ⟨w, hb⟩ := begin_succeeds (M := M) (t := .vecU8) (d := oneByte) (o := .c) (hint := .oneD) (s := ⟨[], 0, true⟩) hw trivial trivial
    (.inl (by decide +kernel)) (fun _ => rfl)
  rcases hpu : w.pushAll M solid [[(1 : UInt8), 2]] _ with ⟨rs, w', s2⟩
  have hdb : dictBytes oneByte .c .oneD ≤ 200 := by decide +kernel
  obtain ⟨s3, f, h1, h2, h3⟩ := C45_counts_attempts (M' := M) (t := .vecU8) (d := oneByte) (size := 1) hpy hd (by rfl) (by omega)
    (by intro n hn; cases hn; show 1 < M.usizeLim; omega) (by simp only; omega) (by omega) hb (vs := [[(1 : UInt8), 2]]) (by decide) hpu
  refine ⟨w, w', _, s2, s3, rs, f, hb, hpu, ?_, h1, h2, h3⟩
  obtain ⟨hst, h0, -, -⟩ := begin_ok hb
  obtain ⟨bs, -, k1, k2, -⟩ := pushAll_solid (t := .vecU8) (d := oneByte) (n := 1) hd (by rfl) (by omega) [[(1 : UInt8), 2]] w hst.prog
    (by rw [h0]; decide) (Sink.put ⟨[], 0, true⟩ (headerBytes (dictText oneByte .c .oneD)))
  rw [hpu] at k1 k2
  have k2 := k2 0 (by decide)
  match rs, k1, k2 with
  | [r], _, k2 =>
    rcases r with ⟨⟩ | e | _
    · exact absurd (k2.mp rfl) (by decide)
    · rfl
    · rfl

example := C45_violated (M := ⟨false, 64, true⟩) (.inr rfl) (py := Py.parse) fun _ _ h => h

/-! ### C48 -/

/-- C48, the part that holds: a writer whose element type does not support the dtype is not started: the
result is an error and no item is written.  Missing: the header has already been written. -/
theorem C48_refused_partial {M : Machine} (hM : M.Wf) {t : Ty} {d : DType} (hu : ¬ CanWrite t d) (hna : d.NotArray) {o : Order} {hint : ShapeHint}
    (hh : hint.Fits) (hlen : dictBytes d o hint ≤ 65525) {s : Sink} (hk : hint.seeks = true → s.seekable = true) :
    ∃ e hdr, (NpyWriter.begin M t d o hint).exec s = (.err e, s.put hdr) ∧ headerEnd hdr = hdr.length := by
  rcases hw : t.writer M d with w | e | _
  · exact absurd ((writer_ok_iff hM t d).mp ⟨w, hw⟩).1 hu
  · refine ⟨_, _, begin_refused hw hna hh (.inl hlen) hk, ?_⟩
    have := headerEnd_headerBytes ((headerText_fits d o hint).mpr (.inl hlen)) []
    rwa [List.append_nil] at this
  · exact absurd hw (C37_no_panic M t d).2

/-- C48 is violated: for every pair of element type and dtype that do not match (the header being short
enough), the header has been written when the error is returned: the stream is never left untouched. -/
theorem C48_violated {M : Machine} (hM : M.Wf) {t : Ty} {d : DType} (hu : ¬ CanWrite t d) (hna : d.NotArray) {o : Order} {hint : ShapeHint}
    (hh : hint.Fits) (hlen : dictBytes d o hint ≤ 65525) {s : Sink} (hk : hint.seeks = true → s.seekable = true) :
    ∃ e s', (NpyWriter.begin M t d o hint).exec s = (.err e, s') ∧ s.pos + 64 ≤ s'.pos ∧ (s'.data.drop s.pos).take 6 = magicBytes := by
  rcases hw : t.writer M d with w | e | _
  · exact absurd ((writer_ok_iff hM t d).mp ⟨w, hw⟩).1 hu
  · refine ⟨_, _, begin_refused hw hna hh (.inl hlen) hk, ?_, ?_⟩
    · rw [Sink.put_pos]
      have h1 : (headerBytes (dictText d o hint)).length % 64 = 0 := by rw [headerBytes_length]; exact padHeader_mod _ _
      have h2 := List.length_pos_iff.mpr (headerBytes_ne_nil (dictText d o hint))
      omega
    · obtain ⟨rest, h⟩ := Sink.put_drop s _ (headerBytes_ne_nil (dictText d o hint))
      rw [h]; rfl
  · exact absurd hw (C37_no_panic M t d).2

-- the hypotheses are met: strings as numbers

/-- C48_refused_partial, C48_violated: strings as 64-bit floats. -/
example : (∃ e hdr, (NpyWriter.begin ⟨false, 64, true⟩ .string (.plain ⟨.little, .float, 8, none⟩) .c .oneD).exec ⟨[], 0, true⟩ =
      (.err e, Sink.put ⟨[], 0, true⟩ hdr) ∧ headerEnd hdr = hdr.length) ∧
    ∃ e s', (NpyWriter.begin ⟨false, 64, true⟩ .string (.plain ⟨.little, .float, 8, none⟩) .c .oneD).exec ⟨[], 0, true⟩ = (.err e, s') ∧
      64 ≤ s'.pos := by
  have hu : ¬ CanWrite .string (.plain ⟨.little, .float, 8, none⟩) := by rintro ((h | h) | h) <;> cases h
  have hl := f8_dict .oneD (.inl rfl) .c
  obtain ⟨e, s', h1, h2, -⟩ := C48_violated (M := ⟨false, 64, true⟩) (.inr rfl) hu trivial (o := .c) (hint := .oneD) trivial (by omega) (s := ⟨[], 0, true⟩)
    (fun _ => rfl)
  exact ⟨C48_refused_partial (.inr rfl) hu trivial (hint := .oneD) trivial (by omega) (fun _ => rfl), e, s', h1, by simpa using h2⟩

example : ¬ CanWrite .string (.plain ⟨.little, .float, 8, none⟩) ∧ dictBytes (.plain ⟨.little, .float, 8, none⟩) .c .oneD ≤ 65525 := by
  refine ⟨?_, by decide +kernel⟩
  rintro ((h | h) | h) <;> cases h

/-! ### C50 -/

/-- C50: in a file the crate has written, opened at its start position, the header's length field gives
the start of the data, and the encoding of element `i` occupies the `item_size` bytes at
`data_start + i * item_size`. -/
theorem C50_element_offset {M : Machine} {t : Ty} {d : DType} {size : Nat} (hd : d.Wf) (hn : exactBytes d = some size)
    (hm : size ≤ M.isizeMax) {o : Order} {hint : ShapeHint} {s s' : Sink}
    (hpos : s.pos + dictBytes d o hint + 76 ≤ 2 ^ 64) {vs : List t.Val} (hc : vs.length < 2 ^ 64)
    (h : NpyWriter.save M solid t d o hint vs s = (.ok (), s')) (i : Nat) (hi : i < vs.length) :
    encode t d vs[i] = some ((s'.data.drop (s.pos + headerEnd (s'.data.drop s.pos) + i * size)).take size) := by
  obtain ⟨items, he, rfl, h1, h2, -, -, prog, hw⟩ := save_ok hd hn hm hc (fun _ => hpos) h
  obtain ⟨hl, hit⟩ := encodeAll_item (size := size) (encode_length hd hn hm hw) vs he
  obtain ⟨rest, hdrop⟩ := Sink.put_drop s (headerBytes (finalDict d o hint vs.length) ++ items) (by simp [headerBytes_ne_nil])
  have hle : (i + 1) * size ≤ vs.length * size := Nat.mul_le_mul_right _ (by omega)
  have e1 : (i + 1) * size = i * size + size := by rw [Nat.add_mul, Nat.one_mul]
  rw [hit i hi, Nat.add_assoc, ← List.drop_drop, hdrop, List.append_assoc, headerEnd_headerBytes (finalDict_fits hc h2), ← List.drop_drop,
    List.drop_left, List.drop_append_of_le_length (by omega), List.take_append_of_le_length (by simp; omega)]

/-- C50_element_offset: the second of two floats. -/
example : ∃ s', NpyWriter.save ⟨false, 64, true⟩ solid f64 (.plain ⟨.little, .float, 8, none⟩) .c .oneD ([1#64, 2#64] : List f64.Val) ⟨[7, 7], 2, true⟩ =
      (.ok (), s') ∧ encode f64 (.plain ⟨.little, .float, 8, none⟩) (2#64 : BitVec 64) = some ((s'.data.drop (2 + headerEnd (s'.data.drop 2) + 1 * 8)).take 8) := by
  have hl := f8_dict .oneD (.inl rfl) .c
  obtain ⟨s', h⟩ := C39_succeeds (M := ⟨false, 64, true⟩) (t := f64) (o := .c) (hint := .oneD) (s := ⟨[7, 7], 2, true⟩) (vs := [1#64, 2#64]) f8_wf
    (size := 8) rfl (by decide) trivial ⟨_, rfl⟩ trivial (by omega) nofun (by decide) trivial (fun v _ => nofun)
    (fun _ => ⟨rfl, by simp only; omega⟩)
  exact ⟨s', h, C50_element_offset (t := f64) f8_wf (size := 8) rfl (by decide) (by simp only; omega) (by decide) h 1 (by decide)⟩

end Npyz.Props
