import Verif.Props.User
import Verif.Props.Header
import Verif.Proofs.User
/-!
C89: the header of a file apart from its data.
-/
namespace Npyz.Props
set_option autoImplicit false
open Npyz.Spec

theorem run_leaves {α : Type} (p : RProg α) (bs : Bytes) : ∃ k, k ≤ bs.length ∧ (p.run bs).2 = bs.drop k := by
  induction p generalizing bs with
  | ret r => exact ⟨0, Nat.zero_le _, rfl⟩
  | read n eof k ih =>
    simp only [RProg.run]
    split
    · obtain ⟨j, h1, h2⟩ := ih (bs.take n) (bs.drop n)
      rw [List.length_drop] at h1
      exact ⟨n + j, by omega, by rw [h2, List.drop_drop]⟩
    · exact ⟨bs.length, Nat.le_refl _, by rw [List.drop_length]⟩

theorem exec_rest {α : Type} (p : RProg α) (s : Src) (hb : s.pos ≤ s.data.length) :
    (disk.exec p s).2.rest = (p.run s.rest).2 ∧ (disk.exec p s).2.pos ≤ (disk.exec p s).2.data.length := by
  obtain ⟨k, h1, h2⟩ := run_leaves p s.rest
  have : (disk.exec p s).2 = { s with pos := s.pos + k } := by
    show s.leave (p.run s.rest).2 = _
    rw [h2, Src.leave_rest _ _ h1]
  rw [this, h2]
  simp only [Src.rest, List.length_drop] at h1 ⊢
  exact ⟨by rw [List.drop_drop], by omega⟩

/-- The sources have the same `k` bytes, or the same fewer bytes, in front of them. -/
def SameFront (k : Nat) (s s' : Src) : Prop := s.rest.take k = s'.rest.take k

/-- C89: opening a file is reading the header with `from_reader` and combining it with the rest of the stream; `into_inner`
gives back the stream where `from_reader` left it.  This holds for every source, whatever it does. -/
theorem C89_new {σ : Type} {M : Machine} {py : PyParser} {S : Source σ} {src : σ} :
    (∀ h s, S.exec (NpyHeader.fromReader M py) src = (.ok h, s) → NpyFile.new M py S src = (.ok (NpyFile.withHeader h s), s)) ∧
    (∀ f s, NpyFile.new M py S src = (.ok f, s) → S.exec (NpyHeader.fromReader M py) src = (.ok f.header, s) ∧ f.intoInner = s) := by
  constructor
  · intro h s he
    unfold NpyFile.new
    rw [he]
    rfl
  · intro f s hn
    unfold NpyFile.new at hn
    rcases he : S.exec (NpyHeader.fromReader M py) src with ⟨_ | _ | _, s'⟩
    all_goals
      rw [he] at hn
      cases hn
    exact ⟨rfl, rfl⟩

/-- C89: the stream that `into_inner` gives back stands at the first byte behind the header. -/
theorem C89_position {M : Machine} {py : PyParser} {src : Src} {f : NpyFile Src}
    (hn : (NpyFile.new M py disk src).1 = .ok f) :
    f.intoInner = { src with pos := src.pos + headerEnd src.rest } ∧ src.pos + headerEnd src.rest ≤ src.data.length := by
  have h := C89_new.2 f (NpyFile.new M py disk src).2 (Prod.ext hn rfl)
  obtain ⟨h1, h2⟩ := h
  have h3 : (NpyHeader.fromReader M py).run src.rest = (.ok f.header, ((NpyHeader.fromReader M py).run src.rest).2) :=
    Prod.ext (show (disk.exec _ src).1 = _ from congrArg Prod.fst h1) rfl
  obtain ⟨-, hle, hrest⟩ := C10_consumes_header M py src.rest _ _ h3
  have hpos := hle
  rw [show src.rest.length = src.data.length - src.pos from List.length_drop] at hpos
  refine ⟨?_, ?_⟩
  · rw [h2, ← congrArg Prod.snd h1]
    show src.leave _ = _
    rw [hrest, Src.leave_rest _ _ hle]
  · by_cases hp : src.pos ≤ src.data.length
    · omega
    · exfalso
      have hg := (C10_consumes_header M py src.rest _ _ h3).1
      rw [Src.rest, List.drop_eq_nil_of_le (by omega)] at hg
      exact absurd hg.1 (by decide)

/-- The file of C18. -/
example : ∃ f : NpyFile Src, (NpyFile.new ⟨false, 64, true⟩ Py.parse disk ⟨twoFloats, 0⟩).1 = .ok f ∧
    f.intoInner = { (⟨twoFloats, 0⟩ : Src) with pos := 0 + headerEnd (Src.mk twoFloats 0).rest } :=
  let ⟨f, _, _, hn, _⟩ := twoFloats_reader
  have h : (NpyFile.new ⟨false, 64, true⟩ Py.parse disk ⟨twoFloats, 0⟩).1 = .ok f := by rw [hn]
  ⟨f, h, (C89_position h).1⟩

theorem itemAt_front {V : Type} {f : Bytes → Option V} {size n : Nat} {s s' : Src} (h : SameFront (n * size) s s')
    (hb : s.pos ≤ s.data.length) (hb' : s'.pos ≤ s'.data.length) {i : Nat} (hi : i < n) :
    itemAt f s.data s.pos size i = itemAt f s'.data s'.pos size i := by
  have hle : (i + 1) * size ≤ n * size := Nat.mul_le_mul_right size hi
  have e : (i + 1) * size = i * size + size := by rw [Nat.add_mul, Nat.one_mul]
  have hl : min (n * size) s.rest.length = min (n * size) s'.rest.length := by
    have := congrArg List.length h
    rwa [List.length_take, List.length_take] at this
  have ht : ∀ s : Src, (s.data.drop (s.pos + i * size)).take size = ((s.rest.take (n * size)).drop (i * size)).take size := by
    intro s
    rw [List.drop_take, List.take_take, Src.rest, List.drop_drop, Nat.min_eq_left (by omega)]
  have hs : ∀ s : Src, s.rest.length = s.data.length - s.pos := fun s => by rw [Src.rest, List.length_drop]
  unfold itemAt
  rw [ht s, ht s', h]
  rw [hs s, hs s'] at hl
  by_cases hc : s.pos + (i + 1) * size ≤ s.data.length
  · rw [if_pos hc, if_pos (by omega)]
  · rw [if_neg hc, if_neg (by omega)]

theorem expected_front {V : Type} {e e' : Nat → Option V} {n : Nat} (h : ∀ i, i < n → e i = e' i) (ops : List ROp)
    (hop : InRange n ops) (i : Nat) : expected e n ops i = expected e' n ops i := by
  induction ops generalizing i with
  | nil => rfl
  | cons op ops ih =>
    have ih := ih (fun o ho => hop o (List.mem_cons_of_mem _ ho))
    have hop := hop op List.mem_cons_self
    cases op with
    | next =>
      simp only [expected]
      by_cases hi : i < n
      · rw [if_pos hi, if_pos hi, ih, look, look, h i hi]
      · rw [if_neg hi, if_neg hi, ih]
    | seekTo j => simp only [expected, ih]
    | readAt j => simp only [expected, ih, look, h j (hop.2 j rfl)]

/-- C89: data readers of the same header show the same for every in-range history of calls, up to and including the first item
that does not decode, if the streams have the same data in front of them, no matter where it is in them. -/
theorem C89_same_data {V : Type} {M : Machine} {reader : DType → DRes (RProg V)} {header : NpyHeader} {size : Nat} {f : Bytes → Option V}
    (hp : ∀ p, reader header.dtype = .ok p → Decodes p size f) {s s' : Src} (hf : Fits s.pos size header) (hf' : Fits s'.pos size header)
    (hb : s.pos ≤ s.data.length) (hb' : s'.pos ≤ s'.data.length) (hs : SameFront (header.nRecords * size) s s')
    {r r' : NpyReader V Src} (hr : (NpyFile.withHeader header s).dataWith reader = .ok r)
    (hr' : (NpyFile.withHeader header s').dataWith reader = .ok r') (ops : List ROp) (hop : InRange header.nRecords ops)
    (hok : Seen.failed ∉ (expected (itemAt f s.data s.pos size) header.nRecords ops 0).dropLast) :
    (r.steps M disk ops).1.map seen = (r'.steps M disk ops).1.map seen := by
  have e : expected (itemAt f s.data s.pos size) header.nRecords ops 0 = expected (itemAt f s'.data s'.pos size) header.nRecords ops 0 :=
    expected_front (fun i hi => itemAt_front hs hb hb' hi) ops hop 0
  rw [C84_random_access hr hp hf hb ops hop hok, C84_random_access hr' hp hf' hb' ops hop (e ▸ hok)]
  exact congrArg _ e

theorem repeated_rest {V : Type} {p : RProg V} (k : Nat) {s s' : Src} (h : s.rest = s'.rest) (hb : s.pos ≤ s.data.length)
    (hb' : s'.pos ≤ s'.data.length) : repeated disk p k s = repeated disk p k s' := by
  induction k generalizing s s' with
  | zero => rfl
  | succ k ih =>
    simp only [repeated]
    have h1 := exec_rest p s hb
    have h2 := exec_rest p s' hb'
    rw [ih (by rw [h1.1, h2.1, h]) h1.2 h2.2]
    congr 1
    show (p.run s.rest).1 = (p.run s'.rest).1
    rw [h]

theorem next_rest {V : Type} {M : Machine} (header : NpyHeader) (p : RProg V) (k : Nat) {s s' : Src} (h : s.rest = s'.rest)
    (hb : s.pos ≤ s.data.length) (hb' : s'.pos ≤ s'.data.length) (cur : Nat) :
    (NpyReader.steps M disk (List.replicate k .next) ⟨header, p, s, cur⟩).1 =
      (NpyReader.steps M disk (List.replicate k .next) ⟨header, p, s', cur⟩).1 := by
  induction k generalizing s s' cur with
  | zero => rfl
  | succ k ih =>
    simp only [List.replicate_succ, NpyReader.steps, NpyReader.step, NpyReader.next]
    by_cases hc : cur < header.nRecords
    · simp only [if_pos hc]
      have h1 := exec_rest p s hb
      have h2 := exec_rest p s' hb'
      rw [ih (by rw [h1.1, h2.1, h]) h1.2 h2.2, show (disk.exec p s).1 = (disk.exec p s').1 by
        show (p.run s.rest).1 = (p.run s'.rest).1
        rw [h]]
    · simp only [if_neg hc]
      rw [ih h hb hb']

/-- C89: reading one element after the other gives the same, whatever `read_one` does and whatever happened before, if the
streams have the same bytes in front of them. -/
theorem C89_same_rest {V : Type} {M : Machine} {reader : DType → DRes (RProg V)} {header : NpyHeader} {s s' : Src}
    (hs : s.rest = s'.rest) (hb : s.pos ≤ s.data.length) (hb' : s'.pos ≤ s'.data.length)
    {r r' : NpyReader V Src} (hr : (NpyFile.withHeader header s).dataWith reader = .ok r)
    (hr' : (NpyFile.withHeader header s').dataWith reader = .ok r') :
    (∀ k, (r.steps M disk (List.replicate k .next)).1 = (r'.steps M disk (List.replicate k .next)).1) ∧
    ∀ vs, (r.collect disk).1 = .ok vs ↔ (r'.collect disk).1 = .ok vs := by
  obtain ⟨p, h1, h2, h3⟩ := C84_sequential (M := M) (S := disk) hr
  obtain ⟨p', h1', h2', h3'⟩ := C84_sequential (M := M) (S := disk) hr'
  obtain rfl : p = p' := Out.ok.inj (h1.symm.trans h1')
  have e : repeated disk p header.nRecords s = repeated disk p header.nRecords s' := repeated_rest _ hs hb hb'
  refine ⟨fun k => ?_, fun vs => ?_⟩
  · obtain ⟨-, q, h4, rfl⟩ := dataWith_ok_iff.mp hr
    obtain ⟨-, q', h4', rfl⟩ := dataWith_ok_iff.mp hr'
    obtain rfl : q = q' := Out.ok.inj (h4.symm.trans h4')
    exact next_rest header q k hs hb hb' 0
  · rw [h3 vs, h3' vs]
    show allOk (repeated disk p header.nRecords s) = _ ↔ allOk (repeated disk p header.nRecords s') = _
    rw [e]

/-- C89_same_data, C89_same_rest: the levels of a file, and the same bytes behind other ones. -/
example : ∃ (f : NpyFile Src) (r r' : NpyReader (Fin 10) Src), f.src = ⟨fourLevels, 66⟩ ∧ f.dataWith levelReader = .ok r ∧
    (NpyFile.withHeader f.header (⟨[9, 9, 3, 1, 4, 10], 2⟩ : Src)).dataWith levelReader = .ok r' ∧
    (r.steps ⟨false, 64, true⟩ disk [.readAt 2, .seekTo 0, .next]).1.map seen =
      (r'.steps ⟨false, 64, true⟩ disk [.readAt 2, .seekTo 0, .next]).1.map seen ∧
    ∀ k, (r.steps ⟨false, 64, true⟩ disk (List.replicate k .next)).1 = (r'.steps ⟨false, 64, true⟩ disk (List.replicate k .next)).1 := by
  obtain ⟨f, r, h1, h2, h3, h4, h5, h6, h7⟩ := fourLevels_reader
  have e0 : itemAt levelOf fourLevels 66 1 0 = some 3 := by decide +kernel
  have e2 : itemAt levelOf fourLevels 66 1 2 = some 4 := by decide +kernel
  have hb : f.src.pos ≤ f.src.data.length := by rw [h6, h7]; decide +kernel
  have hsrc : f.src = ⟨fourLevels, 66⟩ := by rw [← h6, ← h7]
  have hrest : f.src.rest = (⟨[9, 9, 3, 1, 4, 10], 2⟩ : Src).rest := by rw [hsrc]; decide +kernel
  obtain ⟨hpk, p, hp, -⟩ := dataWith_ok_iff.mp h2
  have hr' := dataWith_ok_iff (f := NpyFile.withHeader f.header (⟨[9, 9, 3, 1, 4, 10], 2⟩ : Src)).mpr ⟨hpk, p, hp, rfl⟩
  refine ⟨f, r, _, hsrc, h2, hr', ?_, (C89_same_rest (s := f.src) hrest hb (by decide) h2 hr').1⟩
  refine C89_same_data (s := f.src) h3 h4 ⟨h4.size, h4.count, h4.bytes, ?_⟩ hb (by decide) (congrArg _ hrest) h2 hr' _ ?_ ?_
  · have := h4.last
    rw [h7] at this
    show 2 + _ < _
    omega
  · rw [h5]; intro op hop; simp at hop; rcases hop with rfl | rfl | rfl <;> simp
  · rw [h5, h6, h7]; simp [expected, look, e0, e2]

/-- C89: a file can be cut behind its header: the header that was read from the first part alone, together with the second part
alone, reads as the file. -/
theorem C89_cut {V : Type} {M : Machine} {py : PyParser} {reader : DType → DRes (RProg V)} {bs : Bytes} {file : NpyFile Src}
    (h : (NpyFile.new M py disk ⟨bs, 0⟩).1 = .ok file) {r : NpyReader V Src} (hr : file.dataWith reader = .ok r) :
    ∃ h' s' r', disk.exec (NpyHeader.fromReader M py) ⟨bs.take (headerEnd bs), 0⟩ = (.ok h', s') ∧
      (NpyFile.withHeader h' (⟨bs.drop (headerEnd bs), 0⟩ : Src)).dataWith reader = .ok r' ∧ h' = file.header ∧
      (∀ k, (r.steps M disk (List.replicate k .next)).1 = (r'.steps M disk (List.replicate k .next)).1) ∧
      (∀ vs, (r.collect disk).1 = .ok vs ↔ (r'.collect disk).1 = .ok vs) ∧
      ∀ size f, (∀ p, reader file.header.dtype = .ok p → Decodes p size f) → Fits (headerEnd bs) size file.header → ∀ ops,
        InRange file.header.nRecords ops →
        Seen.failed ∉ (expected (itemAt f bs (headerEnd bs) size) file.header.nRecords ops 0).dropLast →
        (r.steps M disk ops).1.map seen = (r'.steps M disk ops).1.map seen := by
  obtain ⟨h1, h2⟩ := C89_position h
  have h0 := (C89_new.2 file (NpyFile.new M py disk ⟨bs, 0⟩).2 (Prod.ext h rfl)).1
  have h3 : (NpyHeader.fromReader M py).run bs = (.ok file.header, ((NpyHeader.fromReader M py).run bs).2) :=
    Prod.ext (show (disk.exec _ (⟨bs, 0⟩ : Src)).1 = _ from congrArg Prod.fst h0) rfl
  have h4 := C10_local M py bs _ _ h3 []
  rw [List.append_nil] at h4
  obtain ⟨h5, p, h6, rfl⟩ := dataWith_ok_iff.mp hr
  have hsrc : file.src = ⟨bs, headerEnd bs⟩ := by
    have : file.src = { (⟨bs, 0⟩ : Src) with pos := 0 + headerEnd bs } := h1
    rw [this, Nat.zero_add]
  have hle : headerEnd bs ≤ bs.length := by
    have : 0 + headerEnd bs ≤ bs.length := h2
    omega
  have hr' : (NpyFile.withHeader file.header (⟨bs.drop (headerEnd bs), 0⟩ : Src)).dataWith reader =
      .ok ⟨file.header, p, ⟨bs.drop (headerEnd bs), 0⟩, 0⟩ := dataWith_ok_iff.mpr ⟨h5, p, h6, rfl⟩
  have hf : NpyFile.withHeader file.header file.src = file := rfl
  have hsame : file.src.rest = (⟨bs.drop (headerEnd bs), 0⟩ : Src).rest := by rw [hsrc]; rfl
  have key := C89_same_rest (M := M) (header := file.header) hsame (by rw [hsrc]; exact hle) (Nat.zero_le _) hr hr'
  refine ⟨file.header, _, _, Prod.ext (show ((NpyHeader.fromReader M py).run (bs.take (headerEnd bs))).1 = _ by rw [h4]) rfl, hr', rfl,
    key.1, key.2, fun size f hp hfit ops hop hok => ?_⟩
  refine C89_same_data (s := file.src) hp (by rw [hsrc]; exact hfit)
    ⟨hfit.size, hfit.count, hfit.bytes, by have := hfit.last; show 0 + _ < _; omega⟩ (by rw [hsrc]; exact hle) (Nat.zero_le _)
    (congrArg _ hsame) hr hr' ops hop (by rw [hsrc]; exact hok)

example : ∃ h s' r', disk.exec (NpyHeader.fromReader ⟨false, 64, true⟩ Py.parse) ⟨fourLevels.take 66, 0⟩ = (.ok h, s') ∧
    (NpyFile.withHeader h (⟨[3, 1, 4, 10], 0⟩ : Src)).dataWith levelReader = .ok r' ∧
    (r'.steps ⟨false, 64, true⟩ disk [.readAt 2, .seekTo 0, .next]).1.map seen = [some (.value 4), some .moved, some (.value 3)] := by
  obtain ⟨f, r, h1, h2, h3, h4, h5, h6, h7⟩ := fourLevels_reader
  have e0 : itemAt levelOf fourLevels 66 1 0 = some 3 := by decide +kernel
  have e2 : itemAt levelOf fourLevels 66 1 2 = some 4 := by decide +kernel
  have hb : f.src.pos ≤ f.src.data.length := by rw [h6, h7]; decide +kernel
  have he : headerEnd fourLevels = 66 := by decide +kernel
  have hd : fourLevels.drop 66 = [3, 1, 4, 10] := by decide +kernel
  have hop : InRange f.header.nRecords [.readAt 2, .seekTo 0, .next] := by
    rw [h5]; intro op hop; simp at hop; rcases hop with rfl | rfl | rfl <;> simp
  obtain ⟨h', s', r', k1, k2, -, -, -, k3⟩ := C89_cut (congrArg Prod.fst h1) h2
  rw [he] at k1 k2 k3
  rw [hd] at k2
  refine ⟨h', s', r', k1, k2, ?_⟩
  rw [← k3 1 levelOf h3 (by rw [← h7]; exact h4) _ hop (by rw [h5]; simp [expected, look, e0, e2]),
    C84_random_access (M := ⟨false, 64, true⟩) h2 h3 h4 hb _ hop (by rw [h5, h6, h7]; simp [expected, look, e0, e2]), h5, h6, h7]
  simp [expected, look, e0, e2]

theorem extend_chunks {V : Type} {M : Machine} (vs : List V) (chunks : List Bytes) (w : NpyWriter V) (h : AllAppend w.prog vs chunks)
    (hc : w.numItems + vs.length < 2 ^ 64) (s : Sink) :
    w.extend M solid vs s = (.ok (), { w with numItems := w.numItems + vs.length }, s.put chunks.flatten) := by
  induction vs generalizing w s chunks with
  | nil =>
    cases chunks with
    | nil => simp [NpyWriter.extend, Sink.put_nil]
    | cons b chunks => cases h
  | cons v vs ih =>
    cases chunks with
    | nil => cases h
    | cons b chunks =>
      have hc' : w.numItems + (vs.length + 1) < 2 ^ 64 := hc
      have hp : w.push M solid v s = (.ok (), { w with numItems := w.numItems + 1 }, s.put b) := by
        unfold NpyWriter.push
        rw [counted_ok (by omega)]
        simp only [solid, h.1 s]
      rw [NpyWriter.extend, hp]
      simp only
      rw [ih chunks { w with numItems := w.numItems + 1 } h.2 (by simp only; omega), Sink.put_put]
      simp only [List.length_cons, List.flatten_cons]
      congr 3
      omega

/-- C89: the same for writing: `write_header_only` followed by the bytes of the items leaves the same stream as `begin_nd` and
`push`, for any element type whose values append these bytes; and `finish` succeeds if the number of items is that of the shape. -/
theorem C89_write {V : Type} {M : Machine} {writer : DType → DRes (V → WProg Unit)} {d : DType} {o : Order} {dims : List Nat}
    {prog : V → WProg Unit} {vs : List V} {chunks : List Bytes} (hw : writer d = .ok prog) (ha : AllAppend prog vs chunks)
    (hc : vs.length < 2 ^ 64) (hd : nonzeroProd dims < 2 ^ 64) {s s' : Sink} {r : ShapeInfo × VersionProps}
    (h : (writeHeader M d o (.nd dims)).exec s = (.ok r, s')) :
    (NpyWriter.saveWith M solid writer d o (.nd dims) vs s).2 = s'.put chunks.flatten ∧
    ((NpyWriter.saveWith M solid writer d o (.nd dims) vs s).1 = .ok () ↔ vs.length = dims.prod) := by
  have hb : solid.exec (NpyWriter.beginWith M writer d o (.nd dims)) s = (.ok ⟨none, r.1, 0, prog, r.2⟩, s') := by
    show (NpyWriter.beginWith M writer d o (.nd dims)).exec s = _
    unfold NpyWriter.beginWith
    rw [WProg.exec_bind_of_ok (show (startPosition (.nd dims)).exec s = (.ok none, s) from rfl), WProg.exec_bind_of_ok h, hw]
    rfl
  have hi : r.1 = .known dims.prod := by
    have := (exec_writeHeader_ok h).2.1
    simp only [createDict, shapeProduct_exact (acc := 1) (by simpa using hd)] at this
    have h2 : ShapeInfo.known (1 * dims.prod) = r.1 := congrArg Prod.snd (Out.ok.inj this)
    rw [← h2, Nat.one_mul]
  have hfin := exec_finish_nd (M := M) (w := (⟨none, r.1, 0 + vs.length, prog, r.2⟩ : NpyWriter V)) hi (s'.put chunks.flatten)
  have hx := extend_chunks (M := M) vs chunks ⟨none, r.1, 0, prog, r.2⟩ ha (by simpa using hc) s'
  unfold NpyWriter.saveWith
  rw [hb]
  simp only
  rw [hx]
  simp only
  rw [(finish_eq _ (by simp only; omega) _).1]
  rw [hfin]
  refine ⟨rfl, ?_⟩
  simp only [Nat.zero_add]
  by_cases hn : dims.prod = vs.length
  · rw [if_pos hn]; exact ⟨fun _ => hn.symm, fun _ => rfl⟩
  · rw [if_neg hn]; exact ⟨fun h => (by cases h), fun h => absurd h.symm hn⟩

example : ∃ r s1 s2, (writeHeader ⟨false, 64, true⟩ byteDType .fortran (.nd [2, 3])).exec ⟨[7], 1, false⟩ = (.ok r, s1) ∧
    s1.put [3, 1, 4, 1, 5, 9] = s2 ∧
    NpyWriter.saveWith ⟨false, 64, true⟩ solid levelWriter byteDType .fortran (.nd [2, 3]) [3, 1, 4, 1, 5, 9] ⟨[7], 1, false⟩ = (.ok (), s2) := by
  have hok : ∃ r s1, (writeHeader ⟨false, 64, true⟩ byteDType .fortran (.nd [2, 3])).exec ⟨[7], 1, false⟩ = (.ok r, s1) := by
    have : ∀ x : Res (ShapeInfo × VersionProps) × Sink, (match x.1 with | .ok _ => true | _ => false) = true → ∃ r s1, x = (.ok r, s1) := by
      rintro ⟨⟨⟩ | e | _, s⟩ h
      · exact ⟨_, _, rfl⟩
      · cases h
      · cases h
    exact this _ (by decide +kernel)
  obtain ⟨r, s1, h⟩ := hok
  have happ : ∀ v : Fin 10, Appends (WProg.put [UInt8.ofNat v.val]) [UInt8.ofNat v.val] := fun v s => WProg.exec_put _ _
  obtain ⟨h1, h2⟩ := C89_write (vs := [3, 1, 4, 1, 5, 9]) (chunks := [[3], [1], [4], [1], [5], [9]]) levelWriter_byte
    ⟨happ 3, happ 1, happ 4, happ 1, happ 5, happ 9, trivial⟩ (by decide) (by decide) h
  exact ⟨r, s1, _, h, rfl, Prod.ext (h2.mpr rfl) h1⟩

theorem sched_bind_err {α β : Type} (p : WProg α) (f : α → WProg β) {e : Err} : ∀ {s : Sink} {evs : List RProg.Ev} {x : Sink × List RProg.Ev},
    p.runSched s evs = (.err e, x) → (p >>= f).runSched s evs = (.err e, x) := by
  show ∀ {s : Sink} {evs : List RProg.Ev} {x : Sink × List RProg.Ev}, p.runSched s evs = (.err e, x) → (p.bind f).runSched s evs = (.err e, x)
  induction p with
  | ret r => intro s evs x h; cases h; rfl
  | write b k ih =>
    intro s evs x h
    simp only [WProg.bind, WProg.runSched] at h ⊢
    rcases hx : WProg.writeLoop evs b s with ⟨_ | c, s', evs'⟩ <;> rw [hx] at h
    · exact ih h
    · cases h; rfl
  | tell k ih =>
    intro s evs x h
    simp only [WProg.bind, WProg.runSched] at h ⊢
    by_cases hs : s.seekable = true
    · rw [if_pos hs] at h ⊢
      rcases hx : WProg.opEvent evs with ⟨_ | c, evs'⟩ <;> rw [hx] at h
      · exact ih _ h
      · cases h; rfl
    · rw [if_neg hs] at h; cases h
  | seek q k ih =>
    intro s evs x h
    simp only [WProg.bind, WProg.runSched] at h ⊢
    by_cases hs : s.seekable = true
    · rw [if_pos hs] at h ⊢
      rcases hx : WProg.opEvent evs with ⟨_ | c, evs'⟩ <;> rw [hx] at h
      · exact ih h
      · cases h; rfl
    · rw [if_neg hs] at h; cases h
  | flush k ih =>
    intro s evs x h
    simp only [WProg.bind, WProg.runSched] at h ⊢
    rcases hx : WProg.opEvent evs with ⟨_ | c, evs'⟩ <;> rw [hx] at h
    · exact ih h
    · cases h; rfl

/-- C89: if writing the header fails (which it does only if the stream fails), `begin_nd` fails in the same way, and leaves the same
part of the header. -/
theorem C89_write_failed {V : Type} {M : Machine} {writer : DType → DRes (V → WProg Unit)} {d : DType} {o : Order} {dims : List Nat}
    {vs : List V} {x y : Sink × List RProg.Ev} {e : Err} (h : shaky.exec (writeHeader M d o (.nd dims)) x = (.err e, y)) :
    NpyWriter.saveWith M shaky writer d o (.nd dims) vs x = (.err e, y) := by
  have hb : shaky.exec (NpyWriter.beginWith M writer d o (.nd dims)) x = (.err e, y) :=
    sched_bind_err (writeHeader M d o (.nd dims)) _ h
  unfold NpyWriter.saveWith
  rw [hb]

/-- A stream that fails after ten bytes, the sixth of which starts the version. -/
example : ∃ y, shaky.exec (writeHeader ⟨false, 64, true⟩ byteDType .c (.nd [2])) (⟨[], 0, true⟩, [.short 0, .short 8, .short 1, .fail 7]) =
      (.err (.source 7), y) ∧ y.1.data = magicBytes ++ [1, 0] ∧
    NpyWriter.saveWith ⟨false, 64, true⟩ shaky levelWriter byteDType .c (.nd [2]) [3, 1] (⟨[], 0, true⟩, [.short 0, .short 8, .short 1, .fail 7]) =
      (.err (.source 7), y) := by
  have key : ∀ x : Res (ShapeInfo × VersionProps) × Sink × List RProg.Ev, (match x with
      | (.err (.source 7), y) => y.1.data == magicBytes ++ [1, 0]
      | _ => false) = true → ∃ y, x = (.err (.source 7), y) ∧ y.1.data = magicBytes ++ [1, 0] := by
    intro x h
    split at h
    · exact ⟨_, rfl, by simpa using h⟩
    · cases h
  obtain ⟨y, h, hy⟩ := key (shaky.exec (writeHeader ⟨false, 64, true⟩ byteDType .c (.nd [2])) (⟨[], 0, true⟩, [.short 0, .short 8, .short 1, .fail 7])) (by decide +kernel)
  exact ⟨y, h, hy, C89_write_failed h⟩

/-- C89: if writing the header panics, so does `begin_nd`. -/
theorem C89_write_panics {V : Type} {M : Machine} {writer : DType → DRes (V → WProg Unit)} {d : DType} {o : Order} {dims : List Nat}
    {vs : List V} {s s' : Sink} (h : (writeHeader M d o (.nd dims)).exec s = (.panic, s')) :
    NpyWriter.saveWith M solid writer d o (.nd dims) vs s = (.panic, s') := by
  have hb : solid.exec (NpyWriter.beginWith M writer d o (.nd dims)) s = (.panic, s') := by
    show (NpyWriter.beginWith M writer d o (.nd dims)).exec s = _
    unfold NpyWriter.beginWith
    rw [WProg.exec_bind_of_ok (show (startPosition (.nd dims)).exec s = (.ok none, s) from rfl), WProg.exec_bind_of_panic h]
  unfold NpyWriter.saveWith
  rw [hb]

/-- An array as the outermost dtype. -/
example : NpyWriter.saveWith ⟨false, 64, true⟩ solid levelWriter (.array 3 byteDType) .c (.nd [2]) [3, 1] ⟨[], 0, true⟩ = (.panic, ⟨[], 0, true⟩) :=
  C89_write_panics rfl

end Npyz.Props
