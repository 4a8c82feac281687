import Verif.Props.IoError
import Verif.Props.BufRead
import Verif.Props.Resave
import Verif.Props.Iter
import Verif.Proofs.Mixed
import Verif.Proofs.Live
/-!
C119: reading a file while it is being written.
-/
namespace Npyz.Props
set_option autoImplicit false
open Npyz Spec Py RProg

/-! ### The moments of a session -/

theorem crash_bind {α β : Type} (p : WProg α) {s s2 : Sink} {a : α} (h : p.exec s = (.ok a, s2)) :
    ∃ k, ∀ (f : α → WProg β) n, (n < k → (p >>= f).crash n s = p.crash n s) ∧ (k ≤ n → (p >>= f).crash n s = (f a).crash (n - k) s2) := by
  induction p generalizing s with
  | ret r =>
    simp only [WProg.exec, Prod.mk.injEq] at h
    obtain ⟨rfl, rfl⟩ := h
    exact ⟨0, fun f n => ⟨fun h => by omega, fun _ => rfl⟩⟩
  | write b k ih =>
    simp only [WProg.exec] at h
    obtain ⟨m, hm⟩ := ih h
    refine ⟨b.length + m, fun f n => ?_⟩
    have hb : ((WProg.write b k) >>= f) = .write b (k >>= f) := rfl
    rw [hb]
    simp only [WProg.crash]
    by_cases hn : n < b.length
    · rw [if_pos hn, if_pos hn]
      exact ⟨fun _ => rfl, fun h => by omega⟩
    · rw [if_neg hn, if_neg hn]
      obtain ⟨h1, h2⟩ := hm f (n - b.length)
      exact ⟨fun h => h1 (by omega), fun h => by rw [h2 (by omega), Nat.sub_sub]⟩
  | tell k ih =>
    simp only [WProg.exec] at h
    by_cases hs : s.seekable = true
    · rw [if_pos hs] at h
      obtain ⟨m, hm⟩ := ih _ h
      refine ⟨m, fun f n => ?_⟩
      have hb : ((WProg.tell k) >>= f) = .tell fun p => k p >>= f := rfl
      rw [hb]
      simp only [WProg.crash, if_pos hs]
      exact hm f n
    · rw [if_neg hs] at h; cases h
  | seek p k ih =>
    simp only [WProg.exec] at h
    by_cases hs : s.seekable = true
    · rw [if_pos hs] at h
      obtain ⟨m, hm⟩ := ih h
      refine ⟨m, fun f n => ?_⟩
      have hb : ((WProg.seek p k) >>= f) = .seek p (k >>= f) := rfl
      rw [hb]
      simp only [WProg.crash, if_pos hs]
      exact hm f n
    · rw [if_neg hs] at h; cases h
  | flush k ih =>
    simp only [WProg.exec] at h
    obtain ⟨m, hm⟩ := ih h
    refine ⟨m, fun f n => ?_⟩
    have hb : ((WProg.flush k) >>= f) = .flush (k >>= f) := rfl
    rw [hb]
    simp only [WProg.crash]
    exact hm f n

theorem save_begins {M : Machine} {t : Ty} {d : DType} {o : Order} {hint : ShapeHint} {vs : List t.Val} {s s' : Sink}
    (h : NpyWriter.save M solid t d o hint vs s = (.ok (), s')) : ∃ w s1, (NpyWriter.begin M t d o hint).exec s = (.ok w, s1) := by
  unfold NpyWriter.save NpyWriter.saveWith at h
  rcases hb : (NpyWriter.begin M t d o hint).exec s with ⟨(w | e | _), s1⟩
  · exact ⟨w, s1, rfl⟩
  · have hb' : solid.exec (NpyWriter.beginWith M (t.writer M) d o hint) s = (.err e, s1) := hb
    rw [hb'] at h; cases h
  · have hb' : solid.exec (NpyWriter.beginWith M (t.writer M) d o hint) s = (.panic, s1) := hb
    rw [hb'] at h; cases h

theorem tornSuffix_full {o : Order} {hint : ShapeHint} {m : Nat} (hs : hint.seeks = true) (hm : m < 2 ^ 64) {n : Nat}
    (h : (encodeUtf8 (finishedSuffix o hint m)).length ≤ n) : tornSuffix o hint m n = finishedSuffix o hint m := by
  rw [encodeUtf8_length_ascii (finishedSuffix_ascii o hint m)] at h
  have := finishedSuffix_length (o := o) hs hm
  unfold tornSuffix
  rw [List.take_of_length_le (by omega), List.drop_eq_nil_of_le (by omega), List.append_nil]

/-- What the file holds after any number of bytes of a successful session. -/
theorem moments {M : Machine} {t : Ty} {d : DType} {o : Order} {hint : ShapeHint} {s s' : Sink} {size : Nat} (hd : d.Wf)
    (hn : exactBytes d = some size) (hm : size ≤ M.isizeMax) {vs : List t.Val} (hc : vs.length < 2 ^ 64)
    (hpos : s.pos + dictBytes d o hint + 76 ≤ 2 ^ 64) (h : NpyWriter.save M solid t d o hint vs s = (.ok (), s')) {items : Bytes}
    (he : encodeAll (encode t d) vs = some items) :
    ∃ K L, K ≤ L ∧ (∀ n, n < K → ((NpyWriter.saveProg M t d o hint vs).crash n s).data = (s.put ((headerBytes (dictText d o hint) ++ items).take n)).data) ∧
      (hint.seeks = true → ∀ n, K ≤ n → ∃ j, ((NpyWriter.saveProg M t d o hint vs).crash n s).data =
        (s.put (tornFileBytes d o hint (axisOf vs.length hint) j items)).data) ∧
      (hint.seeks = false → ∀ n, K ≤ n → ((NpyWriter.saveProg M t d o hint vs).crash n s).data = (s.put (headerBytes (dictText d o hint) ++ items)).data) ∧
      (∀ n, L ≤ n → ((NpyWriter.saveProg M t d o hint vs).crash n s).data = s'.data) := by
  have h0 := h
  obtain ⟨w, s1, hb⟩ := save_begins h
  obtain ⟨items', he', hs', hna, hfit, hdm, hr, -⟩ := save_ok hd hn hm hc (fun _ => hpos) h
  rw [he] at he'
  cases he'
  obtain ⟨hst, h0n, hk, hs1⟩ := begin_ok hb
  have hl := headerBytes_le d o hint
  obtain ⟨bs, hpa, -, -, -, hbs⟩ := pushAll_solid hd hn hm vs w hst.prog (by omega) s1
  rw [hbs items he, hs1, Sink.put_put, h0n, Nat.zero_add] at hpa
  obtain ⟨hex, -⟩ := C46_session hd hn hm hc hb (rs := (w.pushAll M solid vs s1).1) (w' := { w with numItems := vs.length })
    (s2 := s.put (headerBytes (dictText d o hint) ++ items)) (by rw [← hpa, ← hs1])
  obtain ⟨K, hK⟩ := crash_bind (β := Unit) _ hex
  have hK := hK (fun w => w.finish_ M >>= fun _ => w.finish_ M)
  obtain ⟨bs', hbs', hcr⟩ := session_crash hd hn hm hc hb
  rw [hbs' items he] at hcr
  rw [save_eq hd hn hm hc hb he] at h
  have hprog : ∀ n, (NpyWriter.saveProg M t d o hint vs).crash n s =
    (NpyWriter.session M t d o hint vs >>= fun w => w.finish_ M >>= fun _ => w.finish_ M).crash n s := fun _ => rfl
  obtain ⟨J, hJ⟩ := crash_bind (β := Unit) _ h
  have hJ := hJ (fun _ => ({ w with numItems := vs.length } : NpyWriter t.Val).finish_ M)
  by_cases hsk : hint.seeks = true
  · have hz : hint ≠ .twoD 0 := by rintro rfl; exact (hr 0 rfl).1 rfl
    have hcf : CountFits vs.length hint := by
      cases hint with
      | oneD => trivial
      | twoD r => exact (hr r rfl).2
      | nd => cases hsk
    have hax : axisOf vs.length hint < 2 ^ 64 := Nat.lt_of_le_of_lt (axisOf_le _ _) hc
    have hbg : Begun M d o hint s.pos ({ w with numItems := vs.length } : NpyWriter t.Val) := (hst.count vs.length).toBegun
    have htorn := finish_torn (w := ({ w with numItems := vs.length } : NpyWriter t.Val)) hsk (hk hsk) hbg (by omega) hc hz hcf items
    have hfp := finish_prog (w := ({ w with numItems := vs.length } : NpyWriter t.Val)) hsk hbg (by omega) hc hz hcf
    have hfd : finalDict d o hint vs.length = dictPrefix d o ++ finishedSuffix o hint (axisOf vs.length hint) := by
      unfold finalDict; rw [if_pos hsk]; rfl
    have hs'torn : ∀ n, (encodeUtf8 (finishedSuffix o hint (axisOf vs.length hint))).length ≤ n →
        s'.data = (s.put (tornFileBytes d o hint (axisOf vs.length hint) n items)).data := by
      intro n hn
      rw [hs', hfd, tornFileBytes, tornSuffix_full hsk hax hn]
    have hk' : s'.seekable = true := by rw [hs']; simpa using hk hsk
    have hq : s.pos + (usedProps (encodeUtf8 (dictText d o hint))).bytesBeforeText + (encodeUtf8 (dictPrefix d o)).length ≤ s'.data.length := by
      have hdt : dictText d o hint = dictPrefix d o ++ placeholder o hint := by rw [dictText_suffix hsk, suffixText_filler]
      obtain ⟨A, C, hA, -, h2⟩ := headerBytes_split (p := dictPrefix d o) (placeholder_ascii o hint) (finishedSuffix_ascii o hint (axisOf vs.length hint))
        (finishedSuffix_length (o := o) hsk hax).symm
      rw [← hdt] at hA
      rw [hs', hfd, Sink.put_data _ (by simp [headerBytes_ne_nil]), h2]
      simp only [List.length_append, s.before_length]
      omega
    have hagain : ∀ n, ((({ w with numItems := vs.length } : NpyWriter t.Val).finish_ M).crash n s').data = s'.data := by
      intro n
      rw [hfp, (rewrite_data hk' hq).1 n]
      have hover := torn_over (d := d) (o := o) hsk hax s items (encodeUtf8 (finishedSuffix o hint (axisOf vs.length hint))).length n
      rw [← hs'torn _ (Nat.le_refl _), ← hs'torn _ (Nat.le_max_left _ _)] at hover
      exact hover
    have hcase : ∀ n, K ≤ n → (n - K < J ∧ ((NpyWriter.saveProg M t d o hint vs).crash n s).data =
        (s.put (tornFileBytes d o hint (axisOf vs.length hint) (n - K) items)).data) ∨
        (J ≤ n - K ∧ ((NpyWriter.saveProg M t d o hint vs).crash n s).data = s'.data) := by
      intro n hn
      rw [hprog, (hK n).2 hn]
      by_cases hj : n - K < J
      · left
        rw [(hJ (n - K)).1 hj]
        exact ⟨hj, htorn _⟩
      · right
        rw [(hJ (n - K)).2 (by omega)]
        exact ⟨by omega, hagain _⟩
    refine ⟨K, K + J, by omega, fun n hn => by rw [hprog, (hK n).1 hn, hcr], fun _ n hn => ?_, fun hf => absurd (hsk.symm.trans hf) (by decide), fun n hn => ?_⟩
    · rcases hcase n hn with ⟨-, h⟩ | ⟨-, h⟩
      · exact ⟨_, h⟩
      · exact ⟨_, by rw [h]; exact hs'torn _ (Nat.le_refl _)⟩
    · rcases hcase n (by omega) with ⟨h, -⟩ | ⟨-, h⟩
      · omega
      · exact h
  · cases hint with
    | oneD => exact absurd rfl hsk
    | twoD r => exact absurd rfl hsk
    | nd dims =>
      obtain ⟨m, hm1, hm2⟩ := hst.info
      have hstay : ∀ n u, (({ w with numItems := vs.length } : NpyWriter t.Val).finish_ M >>= fun _ => ({ w with numItems := vs.length } : NpyWriter t.Val).finish_ M).crash n u = u := by
        intro n u
        unfold NpyWriter.finish_ NpyWriter.patch
        simp only [hm2]
        by_cases hx : m ≠ vs.length
        · rw [if_pos hx]; rfl
        · rw [if_neg hx]; rfl
      have hall : ∀ n, K ≤ n → (NpyWriter.saveProg M t d o (.nd dims) vs).crash n s = s.put (headerBytes (dictText d o (.nd dims)) ++ items) := by
        intro n hn
        rw [hprog, (hK n).2 hn, hstay]
      refine ⟨K, K, Nat.le_refl _, fun n hn => by rw [hprog, (hK n).1 hn, hcr], fun hf => absurd hf hsk, fun _ n hn => by rw [hall n hn],
        fun n hn => ?_⟩
      rw [hall n hn, hs']
      rfl

/-- A header of which every character of the shape is old or new is refused, or it is the complete one. -/
theorem mixed_run {M' : Machine} {py : PyParser} (hpy : py.ExtendsRef) {d : DType} {size : Nat} (hd : d.Wf)
    (hn : exactBytes d = some size) (hf : AllFit M'.usizeLim d) (hna : d.isArray = false) {o : Order} (hst : py.StrictAfter (dictPrefix d o))
    {hint : ShapeHint} (hs : hint.seeks = true) (hz : hint ≠ .twoD 0) (hr : ∀ r, hint = .twoD r → r < 2 ^ 64)
    (hfits : (headerText (dictText d o hint)).length ≤ (usedProps (encodeUtf8 (dictText d o hint))).maxLen)
    (hmem : dictBytes d o hint + 76 ≤ M'.isizeMax) {c : Nat} (hc : c < 2 ^ 64) (hcf : CountFits c hint) (hsmall : Below16 c o hint) {X : Text}
    (hX : Mixed (placeholder o hint) (finishedSuffix o hint (axisOf c hint)) X) :
    (∃ e, ∀ rest, ((NpyHeader.fromReader M' py).run (headerBytes (dictPrefix d o ++ X) ++ rest)).1 = .err e) ∨
    ∀ rest, (NpyHeader.fromReader M' py).run (headerBytes (dictPrefix d o ++ X) ++ rest) =
      (.ok ⟨d, finalShape o c hint, exactStrides o (finalShape o c hint), o, (finalShape o c hint).prod, some size, d.usesPickled⟩, rest) := by
  have hax : axisOf c hint < 2 ^ 64 := Nat.lt_of_le_of_lt (axisOf_le _ _) hc
  have hna := isArray_false.mp hna
  have hl := headerBytes_le d o hint
  have hdt : dictText d o hint = dictPrefix d o ++ placeholder o hint := by rw [dictText_suffix hs, suffixText_filler]
  have hht : (headerText (dictText d o hint)).length ≤ M'.isizeMax := by rw [headerBytes_length] at hl; omega
  have hXa : ∀ x ∈ X, x.toNat < 128 := fun x hx => (hX.mem x hx).elim (placeholder_ascii o hint x) (finishedSuffix_ascii o hint _ x)
  have hXl : (placeholder o hint).length = X.length := hX.lengths.1
  rw [hdt, headerText_congr (placeholder_ascii o hint) hXa hXl] at hfits hht
  rw [usedProps_congr (placeholder_ascii o hint) hXa hXl] at hfits
  obtain ⟨k, hk⟩ := run_headerBytes_any (M := M') (py := py) hfits hht
  have hch : ∀ x ∈ X ++ List.replicate k ' ', x.isDigit = true ∨ Punct x := by
    intro x hx
    rcases List.mem_append.mp hx with hx | hx
    · rcases hX.mem x hx with hx | hx
      · exact placeholder_chars o hint x hx
      · cases hint with
        | nd => cases hs
        | oneD =>
          have := (torn_oneD hna o hax (finishedSuffix o .oneD (axisOf c .oneD)).length 0).1 x
          apply this
          simp only [tornSuffix, List.take_length, List.replicate_zero, List.append_nil]
          exact List.mem_append_left _ hx
        | twoD r => exact finishedSuffix_shape _ _ _ x hx
    · rw [List.mem_replicate] at hx; rw [hx.2]; right; simp [Punct]
  have hpa : Py.parse (dictPrefix d o ++ (X ++ List.replicate k ' ')) = none ∨
      Py.parse (dictPrefix d o ++ (X ++ List.replicate k ' ')) =
        some (.dict (headerDict d o ((finalShape o c hint).map fun (x : Nat) => PyVal.int x))) := by
    cases hint with
    | nd => cases hs
    | oneD => exact mixed_oneD hna o hax hX k
    | twoD r =>
      cases o with
      | fortran => exact (mixed_fortran r hax hX k).parse hna _
      | c =>
        rcases hsmall with h | ⟨h1, h2⟩
        · cases h
        · exact (mixed_c (digits_sum (by rintro rfl; exact hz rfl) hcf h1 h2) hX k).parse hna _
  rw [List.append_assoc] at hk
  rcases hpa with hpa | hpa
  · left
    rw [hst _ (fun c hc => isDigit_or (hch c hc)) hpa] at hk
    exact ⟨_, fun rest => by rw [hk]; rfl⟩
  · right
    intro rest
    rw [hpy _ _ hpa] at hk
    have hno : ¬ HasObject d := fun h => by have := (exactBytes_none_iff d).mpr h; rw [hn] at this; cases this
    obtain ⟨f1, f2⟩ := finalShape_fits (o := o) (n := c) (hint := hint) hcf hc (by rintro dims rfl; cases hs) hr
    generalize finalShape o c hint = shape at *
    have := interpretHeader_headerDict (M := M') hna hd o (dims := shape) f1
    rw [fromParts_eq (shape := shape) f2 (itemSizeOf_ok_iff.mpr (.inr ⟨hno, hf, size, hn, rfl⟩))] at this
    have hpr : ∀ v, (parseResult (some v) >>= interpretHeader M') = interpretHeader M' v := fun _ => rfl
    rw [hk, hpr, this]

/-- A successful session of a writer on a new file (or at the end of one), and a program that opens the file, at any time. -/
structure Watched (M M' : Machine) (py : PyParser) (t : Ty) (d : DType) (size : Nat) (o : Order) (hint : ShapeHint) (vs : List t.Val) (s s' : Sink) : Prop where
  wf : d.Wf
  exact : exactBytes d = some size
  writable : size ≤ M.isizeMax
  readable : size ≤ M'.isizeMax
  count : vs.length < 2 ^ 64
  place : s.pos + dictBytes d o hint + 76 ≤ 2 ^ 64
  fresh : s.data.length ≤ s.pos
  saved : NpyWriter.save M solid t d o hint vs s = (.ok (), s')
  machine : M'.Wf
  parser : py.ExtendsRef
  strict : py.StrictAfter (dictPrefix d o)
  sizes : AllFit M'.usizeLim d
  reader : ∃ p, t.reader M' d = .ok p
  dims : ∀ dims, hint = .nd dims → (∀ k ∈ dims, k < 2 ^ 64) ∧ nonzeroProd dims < 2 ^ 64
  record : ∀ r, hint = .twoD r → r < 2 ^ 64
  memory : dictBytes d o hint + 76 ≤ M'.isizeMax
  small : Below16 vs.length o hint

/-- The file as a program sees it that starts to read it where the session starts to write it: each entry of the schedule says after how many bytes of the
session a call of `read` takes place, and how many bytes it returns at most; `last` says at which moment the calls after them take place. -/
def watch (M : Machine) (t : Ty) (d : DType) (o : Order) (hint : ShapeHint) (vs : List t.Val) (s : Sink) (evs : List (Nat × Nat)) (last : Nat) : LiveSrc :=
  ⟨[], s.pos, evs.map fun e => (((NpyWriter.saveProg M t d o hint vs).crash e.1 s).data, e.2), ((NpyWriter.saveProg M t d o hint vs).crash last s).data⟩

/-- The facts about the contents of the file during the session. -/
structure Seen1 (M M' : Machine) (py : PyParser) (t : Ty) (d : DType) (o : Order) (hint : ShapeHint) (vs : List t.Val) (s s' : Sink)
    (oldF hdrB items : Bytes) (hdr : NpyHeader) (K : Nat) : Prop where
  final : s'.data.drop s.pos = hdrB ++ items
  finalLen : s.pos ≤ s'.data.length
  len : oldF.length = (hdrB ++ items).length
  byte : ∀ n (i : Nat) x, ((NpyWriter.saveProg M t d o hint vs).crash n s).data[s.pos + i]? = some x →
    oldF[i]? = some x ∨ (hdrB ++ items)[i]? = some x
  early : ∀ n, n < K → ∀ (i : Nat) x, ((NpyWriter.saveProg M t d o hint vs).crash n s).data[s.pos + i]? = some x → oldF[i]? = some x
  late : ∀ n, K ≤ n → s'.data.length ≤ ((NpyWriter.saveProg M t d o hint vs).crash n s).data.length
  behind : ∀ i, hdrB.length ≤ i → oldF[i]? = (hdrB ++ items)[i]?
  run : ∀ rest, (NpyHeader.fromReader M' py).run (hdrB ++ rest) = (.ok hdr, rest)
  mixed : ∀ (bs : Bytes) r, (∀ (i : Nat) x, bs[i]? = some x → oldF[i]? = some x ∨ (hdrB ++ items)[i]? = some x) →
    (∀ rest, (NpyHeader.fromReader M' py).run (bs ++ rest) = (r, rest)) → (∃ e, r = .err e) ∨ (r = .ok hdr ∧ bs.length = hdrB.length)
  old : hint.seeks = true → ∀ (bs : Bytes) r, (∀ (i : Nat) x, bs[i]? = some x → oldF[i]? = some x) →
    (∀ rest, (NpyHeader.fromReader M' py).run (bs ++ rest) = (r, rest)) → ∃ e, r = .err e
  ne : hdrB ≠ []
  enc : encodeAll (encode t d) vs = some items
  unfinished : oldF = headerBytes (dictText d o hint) ++ items
  torn : hint.seeks = true → ∀ j (i : Nat) x, (tornFileBytes d o hint (axisOf vs.length hint) j items)[i]? = some x →
    oldF[i]? = some x ∨ (hdrB ++ items)[i]? = some x
  header : hdrB = headerBytes (finalDict d o hint vs.length)

theorem extend_mixed {bs oldF newF : Bytes} (hl : oldF.length = newF.length)
    (h : ∀ (i : Nat) x, bs[i]? = some x → oldF[i]? = some x ∨ newF[i]? = some x) :
    bs.length ≤ newF.length ∧ Mixed oldF newF (bs ++ newF.drop bs.length) := by
  have hle : bs.length ≤ newF.length := by
    apply Nat.le_of_not_lt
    intro hlt
    have := h newF.length _ (List.getElem?_eq_getElem hlt)
    rw [List.getElem?_eq_none (by omega), List.getElem?_eq_none (by omega)] at this
    rcases this with h | h <;> cases h
  have hlen : (bs ++ newF.drop bs.length).length = newF.length := by rw [List.length_append, List.length_drop]; omega
  refine ⟨hle, Mixed.of_getElem (by rw [hlen, hl]) hlen.symm fun i x hx => ?_⟩
  by_cases hi : i < bs.length
  · rw [List.getElem?_append_left hi] at hx
    exact h i x hx
  · rw [List.getElem?_append_right (by omega), List.getElem?_drop, show bs.length + (i - bs.length) = i by omega] at hx
    exact .inr hx

theorem put_byte {s : Sink} (hf : s.data.length ≤ s.pos) {b : Bytes} {c : Bytes} (hc : c = (s.put b).data) {i : Nat} {x : UInt8} (h : c[s.pos + i]? = some x) :
    b[i]? = some x := by
  rw [hc, ← List.getElem?_drop, Sink.put_fresh hf] at h
  exact h

variable {M M' : Machine} {py : PyParser} {t : Ty} {d : DType} {size : Nat} {o : Order} {hint : ShapeHint} {vs : List t.Val} {s s' : Sink}

theorem seen1 (h : Watched M M' py t d size o hint vs s s') :
    ∃ oldF hdrB items K, Seen1 M M' py t d o hint vs s s' oldF hdrB items
      ⟨d, finalShape o vs.length hint, exactStrides o (finalShape o vs.length hint), o, (finalShape o vs.length hint).prod, some size, d.usesPickled⟩ K := by
  obtain ⟨items, he, hs', hna, hfit, hdm, hr, -⟩ := save_ok h.wf h.exact h.writable h.count (fun _ => h.place) h.saved
  obtain ⟨K, L, -, hK1, hK2, hK3, -⟩ := moments h.wf h.exact h.writable h.count h.place h.saved he
  have hno : ¬ HasObject d := fun hh => by have := (exactBytes_none_iff d).mpr hh; rw [h.exact] at this; cases this
  have hfresh := h.fresh
  have hfinal : s'.data.drop s.pos = headerBytes (finalDict d o hint vs.length) ++ items := by rw [hs', Sink.put_fresh hfresh]
  have hne := headerBytes_ne_nil (finalDict d o hint vs.length)
  have hflen : s.pos ≤ s'.data.length := by
    rw [hs', Sink.put_data _ (by simp [hne])]; simp [s.before_length]
  have hcf : CountFits vs.length hint := by
    cases hint with
    | oneD => trivial
    | twoD r => exact (hr r rfl).2
    | nd dims =>
      have h1 := hdm dims rfl
      rw [shapeProduct_exact (by rw [Nat.one_mul]; exact (h.dims dims rfl).2), Nat.one_mul] at h1
      exact (Out.ok.inj h1).symm
  have hz : hint ≠ .twoD 0 := by rintro rfl; exact (hr 0 rfl).1 rfl
  obtain ⟨f1, f2⟩ := finalShape_fits (o := o) (n := vs.length) (hint := hint) hcf h.count h.dims h.record
  have hrun : ∀ rest, (NpyHeader.fromReader M' py).run (headerBytes (finalDict d o hint vs.length) ++ rest) =
      (.ok ⟨d, finalShape o vs.length hint, exactStrides o (finalShape o vs.length hint), o, (finalShape o vs.length hint).prod, some size, d.usesPickled⟩, rest) := by
    intro rest
    rw [run_final h.parser hna h.wf h.count f1 hfit h.memory rest,
      fromParts_eq f2 (itemSizeOf_ok_iff.mpr (.inr ⟨hno, h.sizes, size, h.exact, rfl⟩))]
  by_cases hsk : hint.seeks = true
  · have hax : axisOf vs.length hint < 2 ^ 64 := Nat.lt_of_le_of_lt (axisOf_le _ _) h.count
    have hdt : dictText d o hint = dictPrefix d o ++ placeholder o hint := by rw [dictText_suffix hsk, suffixText_filler]
    have hfd : finalDict d o hint vs.length = dictPrefix d o ++ finishedSuffix o hint (axisOf vs.length hint) := by
      unfold finalDict; rw [if_pos hsk]; rfl
    have hfl := finishedSuffix_length (o := o) hsk hax
    obtain ⟨A, C, hA, hsp1, hsp2⟩ := headerBytes_split (p := dictPrefix d o) (placeholder_ascii o hint) (finishedSuffix_ascii o hint (axisOf vs.length hint)) hfl.symm
    have hgen : ∀ X : Text, (∀ c ∈ X, c.toNat < 128) → (placeholder o hint).length = X.length →
        headerBytes (dictPrefix d o ++ X) = A ++ encodeUtf8 X ++ C := by
      intro X hX hXl
      obtain ⟨A', C', hA', h1, h2⟩ := headerBytes_split (p := dictPrefix d o) (placeholder_ascii o hint) hX hXl
      rw [hsp1] at h1
      have hAA : A.length = A'.length := by rw [hA, hA']
      rw [List.append_assoc, List.append_assoc] at h1
      obtain ⟨rfl, h3⟩ := List.append_inj h1 hAA
      obtain rfl := List.append_cancel_left h3
      exact h2
    have hlP := encodeUtf8_length_ascii (placeholder_ascii o hint)
    have hlN := encodeUtf8_length_ascii (finishedSuffix_ascii o hint (axisOf vs.length hint))
    have hOldB : headerBytes (dictText d o hint) = A ++ encodeUtf8 (placeholder o hint) ++ C := by rw [hdt, hsp1]
    have hNewB : headerBytes (finalDict d o hint vs.length) = A ++ encodeUtf8 (finishedSuffix o hint (axisOf vs.length hint)) ++ C := by rw [hfd, hsp2]
    have hHl : (headerBytes (dictText d o hint)).length = (headerBytes (finalDict d o hint vs.length)).length := by
      rw [hOldB, hNewB]; simp only [List.length_append]; omega
    -- mixtures of the two files
    have hmix : ∀ Mx : Bytes, Mixed (headerBytes (dictText d o hint) ++ items) (headerBytes (finalDict d o hint vs.length) ++ items) Mx →
        ∃ X, Mixed (placeholder o hint) (finishedSuffix o hint (axisOf vs.length hint)) X ∧ Mx = headerBytes (dictPrefix d o ++ X) ++ items := by
      intro Mx hM
      rw [hOldB, hNewB] at hM
      obtain ⟨y, z, rfl, hy, hz⟩ := hM.append_split (by simp only [List.length_append]; omega)
      obtain ⟨y1, y2, rfl, hy1, hy2⟩ := hy.append_split (by simp only [List.length_append]; omega)
      obtain ⟨y3, y4, rfl, hy3, hy4⟩ := hy1.append_split rfl
      rw [encodeUtf8_ascii (placeholder_ascii o hint), encodeUtf8_ascii (finishedSuffix_ascii o hint (axisOf vs.length hint))] at hy4
      obtain ⟨X, rfl, hX⟩ := hy4.map
      have hXa : ∀ x ∈ X, x.toNat < 128 := fun x hx => (hX.mem x hx).elim (placeholder_ascii o hint x) (finishedSuffix_ascii o hint _ x)
      refine ⟨X, hX, ?_⟩
      rw [hgen X hXa hX.lengths.1, hz.same, hy2.same, hy3.same, encodeUtf8_ascii hXa]
    -- the torn header
    have htornM : ∀ j, Mixed (placeholder o hint) (finishedSuffix o hint (axisOf vs.length hint)) (tornSuffix o hint (axisOf vs.length hint) j) := by
      intro j
      have hl := tornSuffix_length (o := o) hsk hax j
      refine Mixed.of_getElem hl (by omega) fun i c hc => ?_
      unfold tornSuffix at hc
      by_cases hi : i < ((finishedSuffix o hint (axisOf vs.length hint)).take j).length
      · rw [List.getElem?_append_left hi, List.getElem?_take] at hc
        split at hc
        · exact .inr hc
        · cases hc
      · rw [List.getElem?_append_right (by omega), List.getElem?_drop] at hc
        rw [List.length_take] at hi hc
        by_cases hj : j ≤ (finishedSuffix o hint (axisOf vs.length hint)).length
        · rw [Nat.min_eq_left hj, show j + (i - j) = i by omega] at hc
          exact .inl hc
        · rw [List.getElem?_eq_none (by omega)] at hc
          cases hc
    have htornB : ∀ j (i : Nat) x, (tornFileBytes d o hint (axisOf vs.length hint) j items)[i]? = some x →
        (headerBytes (dictText d o hint) ++ items)[i]? = some x ∨ (headerBytes (finalDict d o hint vs.length) ++ items)[i]? = some x := by
      intro j i x hx
      unfold tornFileBytes at hx
      have hl := tornSuffix_length (o := o) hsk hax j
      have hta := tornSuffix_ascii o hint (axisOf vs.length hint) j
      have hlT := encodeUtf8_length_ascii hta
      rw [hgen _ hta hl, List.append_assoc, List.append_assoc] at hx
      rw [hOldB, hNewB, List.append_assoc, List.append_assoc, List.append_assoc, List.append_assoc]
      rw [encodeUtf8_ascii hta] at hx
      rw [encodeUtf8_ascii (placeholder_ascii o hint), encodeUtf8_ascii (finishedSuffix_ascii o hint (axisOf vs.length hint))]
      exact ((Mixed.refl_new rfl).append (((htornM j).mapTo _).append (Mixed.refl_new rfl))).getElem i x hx
    have hlate : ∀ n, K ≤ n → s'.data.length ≤ ((NpyWriter.saveProg M t d o hint vs).crash n s).data.length := by
      intro n hn
      obtain ⟨j, hj⟩ := hK2 hsk n hn
      have hl := tornSuffix_length (o := o) hsk hax j
      have hta := tornSuffix_ascii o hint (axisOf vs.length hint) j
      have hlT := encodeUtf8_length_ascii hta
      rw [hj, hs', Sink.put_data _ (by simp [hne]), Sink.put_data _ (by simp [tornFileBytes, headerBytes_ne_nil]), hNewB, tornFileBytes, hgen _ hta hl]
      simp only [List.length_append, List.length_drop]
      omega
    have hmixed : ∀ (bs : Bytes) r, (∀ (i : Nat) x, bs[i]? = some x → (headerBytes (dictText d o hint) ++ items)[i]? = some x ∨
          (headerBytes (finalDict d o hint vs.length) ++ items)[i]? = some x) →
        (∀ rest, (NpyHeader.fromReader M' py).run (bs ++ rest) = (r, rest)) → (∃ e, r = .err e) ∨ (r =
          .ok ⟨d, finalShape o vs.length hint, exactStrides o (finalShape o vs.length hint), o, (finalShape o vs.length hint).prod, some size, d.usesPickled⟩ ∧
          bs.length = (headerBytes (finalDict d o hint vs.length)).length) := by
      intro bs r hb hrn
      obtain ⟨hle, hM⟩ := extend_mixed (by simp only [List.length_append]; omega) hb
      obtain ⟨X, hX, hMx⟩ := hmix _ hM
      have h1 := hrn ((headerBytes (finalDict d o hint vs.length) ++ items).drop bs.length)
      rw [hMx] at h1
      rcases mixed_run (M' := M') h.parser h.wf h.exact h.sizes hna h.strict hsk hz h.record hfit h.memory h.count hcf h.small hX with ⟨e, hE⟩ | hO
      · left
        have := hE items
        rw [h1] at this
        exact ⟨e, this⟩
      · right
        rw [hO items] at h1
        obtain ⟨h2, h3⟩ := Prod.mk.inj h1
        refine ⟨h2.symm, ?_⟩
        have := congrArg List.length h3
        rw [List.length_drop, List.length_append] at this
        rw [List.length_append] at hle
        omega
    refine ⟨headerBytes (dictText d o hint) ++ items, headerBytes (finalDict d o hint vs.length), items, K, hfinal, hflen,
      by simp only [List.length_append]; omega, ?_, ?_, hlate, ?_, hrun, hmixed, ?_, hne, he, rfl, fun _ => htornB, rfl⟩
    · intro n i x hx
      by_cases hn : n < K
      · left
        have := put_byte hfresh (hK1 n hn) hx
        rw [List.getElem?_take] at this
        split at this
        · exact this
        · cases this
      · obtain ⟨j, hj⟩ := hK2 hsk n (by omega)
        exact htornB j i x (put_byte hfresh hj hx)
    · intro n hn i x hx
      have := put_byte hfresh (hK1 n hn) hx
      rw [List.getElem?_take] at this
      split at this
      · exact this
      · cases this
    · intro i hi
      rw [List.getElem?_append_right (by omega), List.getElem?_append_right hi, hHl]
    · intro _ bs r hb hrn
      have hb' : ∀ (i : Nat) x, bs[i]? = some x → (headerBytes (dictText d o hint) ++ items)[i]? = some x ∨ (headerBytes (dictText d o hint) ++ items)[i]? = some x :=
        fun i x hx => .inl (hb i x hx)
      obtain ⟨hle, hM⟩ := extend_mixed rfl hb'
      have hMx := hM.same
      have h1 := hrn ((headerBytes (dictText d o hint) ++ items).drop bs.length)
      have hht : (headerText (dictText d o hint)).length ≤ M'.isizeMax := by
        have hl := headerBytes_le d o hint
        have := h.memory
        rw [headerBytes_length] at hl; omega
      obtain ⟨e, hE⟩ := run_rejected (M := M') (py := py) h.strict (placeholder_chars o hint) (placeholder_rejected (isArray_false.mp hna) o hsk)
        (hdt ▸ hfit) (hdt ▸ hht) items
      rw [hMx, hdt] at h1
      rw [h1] at hE
      exact ⟨e, hE⟩
  · have hfd : finalDict d o hint vs.length = dictText d o hint := by unfold finalDict; rw [if_neg hsk]
    have hsk' : hint.seeks = false := by simpa using hsk
    refine ⟨headerBytes (finalDict d o hint vs.length) ++ items, headerBytes (finalDict d o hint vs.length), items, K, hfinal, hflen, rfl, ?_, ?_, ?_,
      fun _ _ => rfl, hrun, ?_, fun hf => absurd hf hsk, hne, he, by rw [hfd], fun hf => absurd hf hsk, rfl⟩
    · intro n i x hx
      left
      by_cases hn : n < K
      · have := put_byte hfresh (hK1 n hn) hx
        rw [List.getElem?_take] at this
        split at this
        · rw [hfd]; exact this
        · cases this
      · rw [hfd]
        exact put_byte hfresh (hK3 hsk' n (by omega)) hx
    · intro n hn i x hx
      have := put_byte hfresh (hK1 n hn) hx
      rw [List.getElem?_take] at this
      split at this
      · rw [hfd]; exact this
      · cases this
    · intro n hn
      rw [hK3 hsk' n hn, hs', hfd]
      exact Nat.le_refl _
    · intro bs r hb hrn
      right
      obtain ⟨hle, hM⟩ := extend_mixed rfl hb
      have h1 := hrn ((headerBytes (finalDict d o hint vs.length) ++ items).drop bs.length)
      rw [hM.same, hrun items] at h1
      obtain ⟨h2, h3⟩ := Prod.mk.inj h1
      refine ⟨h2.symm, ?_⟩
      have := congrArg List.length h3
      rw [List.length_drop, List.length_append] at this
      rw [List.length_append] at hle
      omega

/-- Opening the file during the session: an error, or the header of the complete file, and the reader stands at its first item. -/
theorem watch_open (h : Watched M M' py t d size o hint vs s s') (cap : Nat) (evs : List (Nat × Nat)) (last : Nat) :
    ∃ g : NpyFile Src, NpyFile.new M' py disk ⟨s'.data, s.pos⟩ = (.ok g, g.src) ∧ g.header.dtype = d ∧ g.header.shape = finalShape o vs.length hint ∧
      g.header.order = o ∧ g.header.itemSize = some size ∧ g.header.nRecords = vs.length ∧ g.src.data = s'.data ∧
      g.intoVec M' disk t = (.ok (vs.map (readBack t d)), ⟨s'.data, s'.data.length⟩) ∧
      ((∃ e, (NpyFile.new M' py (live cap) (watch M t d o hint vs s evs last)).1 = .err e) ∨
       ∃ f, NpyFile.new M' py (live cap) (watch M t d o hint vs s evs last) = (.ok f, f.src) ∧ f.header = g.header ∧ Follows g.src.pos s'.data f.src g.src ∧
        (hint.seeks = true → s'.data.length < u64Lim → (evs.map (·.1) ++ [last]).Pairwise (· ≤ ·) → Settled g.src.pos s'.data f.src g.src)) := by
  obtain ⟨oldF, hdrB, items, K, hS⟩ := seen1 h
  obtain ⟨p, hp⟩ := h.reader
  have hno : ¬ HasObject d := fun hh => by have := (exactBytes_none_iff d).mpr hh; rw [h.exact] at this; cases this
  have hcf : CountFits vs.length hint := by
    obtain ⟨-, -, -, -, -, hdm, hr, -⟩ := save_ok h.wf h.exact h.writable h.count (fun _ => h.place) h.saved
    cases hint with
    | oneD => trivial
    | twoD r => exact (hr r rfl).2
    | nd dims =>
      have h1 := hdm dims rfl
      rw [shapeProduct_exact (by rw [Nat.one_mul]; exact (h.dims dims rfl).2), Nat.one_mul] at h1
      exact (Out.ok.inj h1).symm
  have hnew := new_ok (hS.run items) hS.final hS.finalLen
  obtain ⟨g, hg1, hg2, hg3, hg4, hg5⟩ := readsOn_of h.machine hp h.exact h.readable hS.run rfl (finalShape_prod hcf) rfl
    (by simpa using mt (usesPickled_iff d).mp hno) hS.enc hS.ne (show s'.data.drop s.pos = hdrB ++ items ++ [] by rw [List.append_nil]; exact hS.final)
  rw [hnew] at hg1
  obtain ⟨h1, -⟩ := Prod.mk.inj hg1
  cases h1
  have hlen := congrArg List.length hS.final
  rw [List.length_drop] at hlen
  have hend : s.pos + (hdrB ++ items).length = s'.data.length := by have := hS.finalLen; omega
  rw [hend] at hg5
  refine ⟨_, hnew, rfl, rfl, rfl, rfl, finalShape_prod hcf, rfl, hg5, ?_⟩
  obtain ⟨used, evs', bs, buf', r, e1, e2, e3, e4⟩ := RProg.runLive_cases (watch M t d o hint vs s evs last).now cap (NpyHeader.fromReader M' py)
    [] (watch M t d o hint vs s evs last).pos (watch M t d o hint vs s evs last).evs
  have hexec : (live cap).exec (NpyHeader.fromReader M' py) (watch M t d o hint vs s evs last) = (r, ⟨buf', s.pos + bs.length, evs', (watch M t d o hint vs s evs last).now⟩) := by
    have hb : (watch M t d o hint vs s evs last).buf = [] := rfl
    simp only [live, hb, e2]
    rfl
  have hmem : ∀ c ∈ (watch M t d o hint vs s evs last).evs.map (·.1), ∃ n, n ∈ evs.map (·.1) ∧ c = ((NpyWriter.saveProg M t d o hint vs).crash n s).data := by
    intro c hc
    obtain ⟨a, ha, rfl⟩ := List.mem_map.mp hc
    obtain ⟨ev, hev, rfl⟩ := List.mem_map.mp ha
    exact ⟨ev.1, List.mem_map_of_mem hev, rfl⟩
  have hagree : ∀ n, AgreesFrom (s.pos + hdrB.length) s'.data ((NpyWriter.saveProg M t d o hint vs).crash n s).data := by
    intro n i x hi hx
    obtain ⟨j, rfl⟩ : ∃ j, i = s.pos + j := ⟨i - s.pos, by omega⟩
    rw [← List.getElem?_drop, hS.final]
    rcases hS.byte n j x hx with hb | hb
    · rw [← hS.behind j (by omega)]; exact hb
    · exact hb
  rcases e4 with ⟨cs, hcs, e4⟩ | ⟨e, -, rfl, -⟩
  · rw [List.nil_append] at hcs
    have hsub : ∀ (i : Nat) x, cs[i]? = some x → bs[i]? = some x := by
      intro i x hx
      have := (List.getElem?_eq_some_iff.mp hx).1
      rw [hcs, List.getElem?_append_left this]
      exact hx
    have hb : ∀ (i : Nat) x, bs[i]? = some x → oldF[i]? = some x ∨ (hdrB ++ items)[i]? = some x := by
      intro i x hx
      rcases e3 i x hx with ⟨c, hc, hcx⟩ | ⟨-, hcx⟩
      · obtain ⟨n, -, rfl⟩ := hmem c (by rw [e1, List.map_append]; exact List.mem_append_left _ hc)
        exact hS.byte n i x hcx
      · exact hS.byte last i x hcx
    rcases hS.mixed cs r (fun i x hx => hb i x (hsub i x hx)) e4 with ⟨e, rfl⟩ | ⟨rfl, hl⟩
    · left
      exact ⟨e, by unfold NpyFile.new; rw [hexec]⟩
    · right
      have hfol : Follows (s.pos + hdrB.length) s'.data ⟨buf', s.pos + bs.length, evs', (watch M t d o hint vs s evs last).now⟩ ⟨s'.data, s.pos + hdrB.length⟩ := by
        refine ⟨rfl, by rw [hcs, List.length_append, hl, Nat.add_assoc], Nat.le_refl _, fun i x hx => ?_, fun c hc => ?_, hagree last⟩
        · have hbx : bs[hdrB.length + i]? = some x := by
            rw [hcs, List.getElem?_append_right (by omega), hl, Nat.add_sub_cancel_left]
            exact hx
          rw [Nat.add_assoc, ← List.getElem?_drop, hS.final]
          rcases hb _ x hbx with hb | hb
          · rw [← hS.behind _ (by omega)]; exact hb
          · exact hb
        obtain ⟨n, -, rfl⟩ := hmem c (by rw [e1, List.map_append]; exact List.mem_append_right _ hc)
        exact hagree n
      refine ⟨⟨_, ⟨buf', s.pos + bs.length, evs', (watch M t d o hint vs s evs last).now⟩⟩, by unfold NpyFile.new; rw [hexec], rfl, hfol, fun hsk hsm hso => ?_⟩
      obtain ⟨u, v, rfl, rfl, rfl⟩ := List.map_eq_append_iff.mp e1
      rw [List.map_append, List.append_assoc, List.pairwise_append] at hso
      obtain ⟨-, hv, huv⟩ := hso
      have hsome : ∃ n, K ≤ n ∧ (n ∈ u.map (·.1) ∨ (v = [] ∧ n = last)) := by
        apply Classical.byContradiction
        intro hcon
        obtain ⟨e, he⟩ := hS.old hsk cs _ (fun i x hx => by
          rcases e3 i x (hsub i x hx) with ⟨c, hc, hcx⟩ | ⟨hnil, hcx⟩
          · obtain ⟨a, ha, rfl⟩ := List.mem_map.mp hc
            obtain ⟨ev, hev, rfl⟩ := List.mem_map.mp ha
            refine hS.early ev.1 ?_ i x hcx
            apply Nat.lt_of_not_le
            exact fun hle => hcon ⟨ev.1, hle, .inl (List.mem_map_of_mem hev)⟩
          · refine hS.early last ?_ i x hcx
            apply Nat.lt_of_not_le
            exact fun hle => hcon ⟨last, hle, .inr ⟨List.map_eq_nil_iff.mp hnil, rfl⟩⟩) e4
        cases he
      obtain ⟨n, hn, hn2⟩ := hsome
      have hall : ∀ m ∈ v.map (·.1) ++ [last], K ≤ m := by
        rcases hn2 with hn2 | ⟨rfl, rfl⟩
        · exact fun m hm => Nat.le_trans hn (huv n hn2 m hm)
        · intro m hm
          rcases List.mem_append.mp hm with hm | hm
          · cases hm
          · rw [List.mem_singleton.mp hm]; exact hn
      refine ⟨hfol, fun c hc => ?_, hS.late last (hall last (by simp)), by rw [List.length_append] at hend; simp only; omega⟩
      obtain ⟨a, ha, rfl⟩ := List.mem_map.mp hc
      obtain ⟨ev, hev, rfl⟩ := List.mem_map.mp ha
      exact hS.late ev.1 (hall ev.1 (List.mem_append_left _ (List.mem_map_of_mem hev)))
  · left
    exact ⟨e, by unfold NpyFile.new; rw [hexec]⟩

/-! ### The property -/

/-- C119: opening the file at any time during the session, even if each part of the header is read at another moment, fails or gives the dtype, order and shape
of the complete file; never those of a part of it. -/
theorem C119_open (h : Watched M M' py t d size o hint vs s s') (cap : Nat) (evs : List (Nat × Nat)) (last : Nat) :
    (∃ e, (NpyFile.new M' py (live cap) (watch M t d o hint vs s evs last)).1 = .err e) ∨
    ∃ f, (NpyFile.new M' py (live cap) (watch M t d o hint vs s evs last)).1 = .ok f ∧ f.header.dtype = d ∧ f.header.shape = finalShape o vs.length hint ∧
      f.header.order = o ∧ f.header.nRecords = vs.length ∧
      ∃ g, (NpyFile.new M' py disk ⟨s'.data, s.pos⟩).1 = .ok g ∧ f.header = g.header := by
  obtain ⟨g, h1, h2, h3, h4, h5, h6, -, -, h7⟩ := watch_open h cap evs last
  rcases h7 with h7 | ⟨f, k1, k2, -⟩
  · exact .inl h7
  · refine .inr ⟨f, by rw [k1], ?_, ?_, ?_, ?_, g, by rw [h1], k2⟩ <;> rw [k2] <;> assumption

theorem alike_intoVec {σ : Type} {S : Source σ} {R : σ → Src → Prop} {G : Src → Prop} {F : Err → Prop} (hS : AlikeOrFails S R G F) {f : NpyFile σ}
    {g : NpyFile Src} (hh : f.header = g.header) (h : R f.src g.src) :
    (f.intoVec M' S t).1 = (g.intoVec M' disk t).1 ∨ ∃ e, F e ∧ (f.intoVec M' S t).1 = .err e := by
  simp only [NpyFile.intoVec]
  have hdata : ∀ {σ : Type} (f : NpyFile σ), f.data M' t =
      (f.header.forbidPickle >>= fun _ => t.reader M' f.header.dtype >>= fun prog => .ok ⟨f.header, prog, f.src, 0⟩) := fun _ => rfl
  rw [hdata, hdata, hh]
  cases g.header.forbidPickle with
  | err e => exact .inl rfl
  | panic => exact .inl rfl
  | ok _ =>
    simp only [Bind.bind, Out.bind]
    cases t.reader M' g.header.dtype with
    | err e => exact .inl rfl
    | panic => exact .inl rfl
    | ok p =>
      simp only [NpyReader.collect]
      rcases alike_collectLoop hS (g.header.nRecords - 0 + 1) (r := ⟨g.header, p, f.src, 0⟩) (q := ⟨g.header, p, g.src, 0⟩)
        ⟨rfl, rfl, rfl, h⟩ with ⟨j1, -⟩ | ⟨e, j1, j2⟩
      · exact .inl j1
      · exact .inr ⟨e, j1, j2⟩

/-- C119: reading the whole file during the session, whatever the session does between any two of the calls of `read`, fails or gives all the values that the
session pushes. -/
theorem C119_read_file (h : Watched M M' py t d size o hint vs s s') (cap : Nat) (evs : List (Nat × Nat)) (last : Nat) :
    readFile M' py (live cap) t (watch M t d o hint vs s evs last) = .ok (vs.map (readBack t d)) ∨
    ∃ e, readFile M' py (live cap) t (watch M t d o hint vs s evs last) = .err e := by
  obtain ⟨g, h1, -, -, -, -, -, -, h8, h7⟩ := watch_open h cap evs last
  unfold readFile
  rcases h7 with ⟨e, h7⟩ | ⟨f, k1, k2, k3, -⟩
  · rw [h7]
    exact .inr ⟨e, rfl⟩
  · rw [k1]
    rcases alike_intoVec (M' := M') (t := t) (live_alike cap _ _) k2 k3 with h9 | ⟨e, -, h9⟩
    · left
      simp only [h9, h8]
    · exact .inr ⟨e, h9⟩

theorem seekTo_out {V σ : Type} {S : Source σ} {r : NpyReader V σ} {i : Nat} (h : ¬ i ≤ r.header.nRecords) : (r.seekTo M' S i).2 = r := by
  unfold NpyReader.seekTo NpyReader.totalLen
  rw [if_neg h]

theorem readAt_out {V σ : Type} {S : Source σ} {r : NpyReader V σ} {i : Nat} (h : ¬ i < r.header.nRecords) : (r.readAt M' S i).2 = r := by
  unfold NpyReader.readAt NpyReader.totalLen
  rw [if_neg h]

theorem i64_zero : M'.i64 0 = .ok 0 := by
  unfold Machine.i64
  rw [if_pos (by decide)]

theorem seekTo_stay {V σ : Type} {S : Source σ} {r : NpyReader V σ} : (r.seekTo M' S r.cur).2 = r := by
  unfold NpyReader.seekTo NpyReader.totalLen
  by_cases h : r.cur ≤ r.header.nRecords
  · rw [if_pos h, Int.sub_self, i64_zero]
    rfl
  · rw [if_neg h]

/-- The reader of the complete file stays at or behind its first item. -/
theorem watch_inv (h : Watched M M' py t d size o hint vs s s') (hc : vs.length < 2 ^ 63) (hl : s'.data.length < 2 ^ 63) {g : NpyFile Src}
    (hg : NpyFile.new M' py disk ⟨s'.data, s.pos⟩ = (.ok g, g.src)) (hsz : g.header.itemSize = some size) (hnr : g.header.nRecords = vs.length)
    (hsd : g.src.data = s'.data) (hv : g.intoVec M' disk t = (.ok (vs.map (readBack t d)), ⟨s'.data, s'.data.length⟩))
    {q : NpyReader t.Val Src} (hq : g.data M' t = .ok q) :
    ∃ I : NpyReader t.Val Src → Prop, I q ∧ (∀ q op, I q → I (q.step M' disk op).2) ∧
      ∀ q i, I q → i ≤ q.header.nRecords → g.src.pos ≤ (q.seekTo M' disk i).2.src.pos := by
  obtain ⟨ho, hb⟩ := opened_of_new (by rw [hg] : (NpyFile.new M' py disk ⟨s'.data, s.pos⟩).1 = .ok g)
  by_cases hn0 : vs.length = 0
  · obtain ⟨-, p, -, rfl⟩ := data_ok_iff.mp hq
    have hseek : ∀ i, ((⟨g.header, p, g.src, 0⟩ : NpyReader t.Val Src).seekTo M' disk i).2 = ⟨g.header, p, g.src, 0⟩ := by
      intro i
      by_cases hi : i ≤ 0
      · obtain rfl : i = 0 := by omega
        exact seekTo_stay (r := ⟨g.header, p, g.src, 0⟩)
      · exact seekTo_out (r := ⟨g.header, p, g.src, 0⟩) (by simp only; omega)
    refine ⟨fun q => q = ⟨g.header, p, g.src, 0⟩, rfl, ?_, ?_⟩
    · rintro q op rfl
      cases op with
      | next =>
        simp only [NpyReader.step]
        rw [next_none (by simp only; omega)]
      | seekTo i => exact hseek i
      | readAt i =>
        exact readAt_out (by simp only; omega)
    · rintro q i rfl -
      rw [hseek]
      exact Nat.le_refl _
  · rcases C21_into_vec (t := t) ho hsz h.readable hb with ⟨ws, k1, k2, k3, k4⟩ | ⟨e, k1, -⟩
    · have hfit : Fits g.src.pos size g.header := by
        rw [hsd] at k3
        exact ⟨hsz, by omega, by omega, by omega⟩
      have hw0 : 0 < ws.length := by omega
      have hok : ∀ i, i < g.header.nRecords → elementAt t g.header.dtype g.src.data g.src.pos size i = some ((ws[i]?).getD ws[0]) := by
        intro i hi
        rw [k4 i (by omega), List.getElem?_eq_getElem (by omega)]
        rfl
      obtain ⟨hA, hat, hqh⟩ := allSound ho hq hfit h.readable hb (elem := fun i => (ws[i]?).getD ws[0]) hok
      refine ⟨fun x => ∃ i, i ≤ q.header.nRecords ∧ x = atItem g.src.pos size q i, ⟨0, Nat.zero_le _, hat.symm⟩, ?_, ?_⟩
      · rintro x op ⟨i, hi, rfl⟩
        cases op with
        | next =>
          simp only [NpyReader.step]
          by_cases hlt : i < q.header.nRecords
          · rw [next_at hA hlt]; exact ⟨_, hlt, rfl⟩
          · rw [next_end hlt]; exact ⟨i, hi, rfl⟩
        | seekTo j =>
          by_cases hj : j ≤ q.header.nRecords
          · simp only [NpyReader.step, seekTo_at hA hi hj]; exact ⟨_, hj, rfl⟩
          · exact ⟨i, hi, seekTo_out (r := atItem g.src.pos size q i) hj⟩
        | readAt j =>
          by_cases hj : j < q.header.nRecords
          · simp only [NpyReader.step, readAt_at hA hi hj]; exact ⟨_, hj, rfl⟩
          · exact ⟨i, hi, readAt_out (r := atItem g.src.pos size q i) hj⟩
      · rintro x j ⟨i, hi, rfl⟩ hj
        rw [seekTo_at hA hi hj]
        exact Nat.le_add_right _ _
    · rw [hv] at k1; cases k1

/-- C119: a reader that was opened during the session, used with any calls while the session goes on: as far as its calls succeed, they give what they give on the
complete file. -/
theorem C119_history (h : Watched M M' py t d size o hint vs s s') (hc : vs.length < 2 ^ 63) (hl : s'.data.length < 2 ^ 63) (cap : Nat) (evs : List (Nat × Nat)) (last : Nat)
    {f : NpyFile LiveSrc} (hf : (NpyFile.new M' py (live cap) (watch M t d o hint vs s evs last)).1 = .ok f) {r : NpyReader t.Val LiveSrc}
    (hr : f.data M' t = .ok r) (ops : List ROp) :
    ∃ g q, (NpyFile.new M' py disk ⟨s'.data, s.pos⟩).1 = .ok g ∧ g.data M' t = .ok q ∧
      ((r.steps M' (live cap) ops).1 = (q.steps M' disk ops).1 ∨
       ∃ k e out, k < ops.length ∧ (r.steps M' (live cap) ops).1.take k = (q.steps M' disk ops).1.take k ∧ (r.steps M' (live cap) ops).1[k]? = some out ∧
        FailsWith e out) := by
  obtain ⟨g, h1, -, -, -, h5, h6, h7, h8, h9⟩ := watch_open h cap evs last
  rcases h9 with ⟨e, h9⟩ | ⟨f', k1, k2, k3, -⟩
  · rw [hf] at h9; cases h9
  · rw [k1] at hf
    cases hf
    obtain ⟨j1, p, j2, rfl⟩ := data_ok_iff.mp hr
    rw [k2] at j1 j2
    have hq : g.data M' t = .ok ⟨g.header, p, g.src, 0⟩ := data_ok_iff.mpr ⟨j1, p, j2, rfl⟩
    refine ⟨g, _, by rw [h1], hq, ?_⟩
    obtain ⟨I, i1, i2, i3⟩ := watch_inv h hc hl h1 h5 h6 h7 h8 hq
    rcases alike_steps (M := M') (live_alike cap g.src.pos s'.data) I i2 i3 ops (r := ⟨f.header, p, f.src, 0⟩) ⟨k2, rfl, rfl, k3⟩ i1 with
      ⟨a1, -⟩ | ⟨k, e, out, a1, -, a2, a3, a4⟩
    · exact .inl a1
    · exact .inr ⟨k, e, out, a1, a2, a3, a4⟩

/-- C119: with `begin_1d` and `begin_2d`, once the file can be opened everything is there: reading it gives all the values, and every further call gives what it
gives on the complete file. -/
theorem C119_complete (h : Watched M M' py t d size o hint vs s s') (hsk : hint.seeks = true) (hc : vs.length < 2 ^ 63) (hl : s'.data.length < 2 ^ 63) (cap : Nat)
    {evs : List (Nat × Nat)} {last : Nat} (hin : (evs.map (·.1) ++ [last]).Pairwise (· ≤ ·))
    {f : NpyFile LiveSrc} (hf : (NpyFile.new M' py (live cap) (watch M t d o hint vs s evs last)).1 = .ok f) :
    (f.intoVec M' (live cap) t).1 = .ok (vs.map (readBack t d)) ∧
    ∃ g r q, (NpyFile.new M' py disk ⟨s'.data, s.pos⟩).1 = .ok g ∧ g.data M' t = .ok q ∧ f.data M' t = .ok r ∧
      ∀ ops, (r.steps M' (live cap) ops).1 = (q.steps M' disk ops).1 := by
  obtain ⟨g, h1, -, -, -, h5, h6, h7, h8, h9⟩ := watch_open h cap evs last
  rcases h9 with ⟨e, h9⟩ | ⟨f', k1, k2, -, k3⟩
  · rw [hf] at h9; cases h9
  · rw [k1] at hf
    cases hf
    have hl' : s'.data.length < u64Lim := Nat.lt_of_lt_of_le hl (by decide)
    have k3 := k3 hsk hl' hin
    refine ⟨?_, ?_⟩
    · rcases alike_intoVec (M' := M') (t := t) (settled_alike cap _ hl') k2 k3 with a | ⟨e, a, -⟩
      · rw [a, h8]
      · exact a.elim
    · cases hq : g.data M' t with
      | err e => simp only [NpyFile.intoVec, hq] at h8; cases h8
      | panic => simp only [NpyFile.intoVec, hq] at h8; cases h8
      | ok q =>
        obtain ⟨I, i1, i2, i3⟩ := watch_inv h hc hl h1 h5 h6 h7 h8 hq
        obtain ⟨j1, p, j2, rfl⟩ := data_ok_iff.mp hq
        refine ⟨g, ⟨f.header, p, f.src, 0⟩, _, by rw [h1], hq, data_ok_iff.mpr ⟨by rw [k2]; exact j1, p, by rw [k2]; exact j2, rfl⟩, fun ops => ?_⟩
        rcases alike_steps (M := M') (settled_alike cap g.src.pos hl') I i2 i3 ops (r := ⟨f.header, p, f.src, 0⟩) ⟨k2, rfl, rfl, k3⟩ i1 with
          ⟨a1, -⟩ | ⟨k, e, out, -, a1, -⟩
        · exact a1
        · exact a1.elim

/-- C119: from some moment of the session on (its end at the latest), opening and reading the file succeeds: a program that tries again after an error gets the
data in the end. -/
theorem C119_eventually (h : Watched M M' py t d size o hint vs s s') (hl : s'.data.length < 2 ^ 63) :
    ∃ L, ∀ cap (evs : List (Nat × Nat)) last, (∀ n ∈ evs.map (·.1) ++ [last], L ≤ n) →
      readFile M' py (live cap) t (watch M t d o hint vs s evs last) = .ok (vs.map (readBack t d)) := by
  obtain ⟨items, he, -⟩ := save_ok h.wf h.exact h.writable h.count (fun _ => h.place) h.saved
  obtain ⟨-, L, -, -, -, -, hL⟩ := moments h.wf h.exact h.writable h.count h.place h.saved he
  refine ⟨L, fun cap evs last hall => ?_⟩
  obtain ⟨g, h1, -, -, -, -, -, -, h8, -⟩ := watch_open h cap evs last
  have hl' : s'.data.length < u64Lim := Nat.lt_of_lt_of_le hl (by decide)
  have hev : ∀ c ∈ (watch M t d o hint vs s evs last).evs.map (·.1), c = s'.data := by
    intro c hc
    obtain ⟨a, ha, rfl⟩ := List.mem_map.mp hc
    obtain ⟨ev, hev, rfl⟩ := List.mem_map.mp ha
    exact hL _ (hall _ (List.mem_append_left _ (List.mem_map_of_mem hev)))
  have hnow : (watch M t d o hint vs s evs last).now = s'.data := hL _ (hall _ (by simp))
  have hp : s.pos < u64Lim := by have := h.place; simp only [u64Lim]; omega
  have hset : Settled s.pos s'.data (watch M t d o hint vs s evs last) ⟨s'.data, s.pos⟩ :=
    ⟨⟨rfl, rfl, Nat.le_refl _, by simp [watch], fun c hc => by rw [hev c hc]; exact fun _ _ _ hx => hx, by rw [hnow]; exact fun _ _ _ hx => hx⟩,
      fun c hc => by rw [hev c hc]; exact Nat.le_refl _, by rw [hnow]; exact Nat.le_refl _, hp⟩
  rcases alike_new (M := M') (settled_alike cap s.pos hl') py hset with (⟨f, g', k1, k2, k3, k4⟩ | ⟨e, s1, u1, -, k2, -⟩ | ⟨s1, u1, -, k2, -⟩) | ⟨e, k1, -⟩
  · rw [h1] at k2
    cases k2
    unfold readFile
    rw [k1]
    rcases alike_intoVec (M' := M') (t := t) (settled_alike cap s.pos hl') k3 k4 with a | ⟨e, a, -⟩
    · simp only [a, h8]
    · exact a.elim
  · rw [h1] at k2; cases k2
  · rw [h1] at k2; cases k2
  · exact k1.elim

/-- The same as `watch`, if the session writes through a `BufWriter` of capacity `capW`: the moments are those of the file behind it. -/
def watchBuf (capW : Nat) (M : Machine) (t : Ty) (d : DType) (o : Order) (hint : ShapeHint) (vs : List t.Val) (s : Sink) (evs : List (Nat × Nat)) (last : Nat) :
    LiveSrc :=
  ⟨[], s.pos, evs.map fun e => ((((NpyWriter.saveProg M t d o hint vs).throughBuf capW []).crash e.1 s).data, e.2),
    (((NpyWriter.saveProg M t d o hint vs).throughBuf capW []).crash last s).data⟩

/-- C119: the same if the session writes through a `BufWriter`: the other program can see the same contents, at moments counted in the same way, so all of the
above holds of `watchBuf` as well; in particular reading the file fails or gives all the values. -/
theorem C119_buffered_writer (capW : Nat) (evs : List (Nat × Nat)) (last : Nat) :
    watchBuf capW M t d o hint vs s evs last = watch M t d o hint vs s evs last ∧
    (Watched M M' py t d size o hint vs s s' → ∀ cap,
      readFile M' py (live cap) t (watchBuf capW M t d o hint vs s evs last) = .ok (vs.map (readBack t d)) ∨
      ∃ e, readFile M' py (live cap) t (watchBuf capW M t d o hint vs s evs last) = .err e) := by
  have h : watchBuf capW M t d o hint vs s evs last = watch M t d o hint vs s evs last := by
    unfold watchBuf watch
    simp only [WProg.throughBuf_crash, WProg.crash_write_nil]
  exact ⟨h, fun hw cap => by rw [h]; exact C119_read_file hw cap evs last⟩

/-- C119: and these are the moments of the `BufWriter`: its calls do what `throughBuf` does, and if one of them fails, the file holds what it held at one of these
moments. -/
theorem C119_buffered_moments {α : Type} (p : WProg α) (capW : Nat) (s : Sink) :
    (p.throughBuf capW []).exec s = ((p.runBuf capW ⟨[], s, []⟩).1, (p.runBuf capW ⟨[], s, []⟩).2.close) ∧
    ∀ (evs : List Ev) (j : Nat), ∃ n, ((p.runBuf capW ⟨[], s, evs⟩).2.inner.put ((p.runBuf capW ⟨[], s, evs⟩).2.buf.take j)).data =
      ((p.throughBuf capW []).crash n s).data := by
  refine ⟨WProg.throughBuf_exec capW p [] s, fun evs j => ?_⟩
  obtain ⟨m, hm⟩ := WProg.runBuf_kept capW p ⟨[], s, evs⟩ j
  exact ⟨m, by rw [WProg.throughBuf_crash]; exact hm⟩

/-! ### Concrete cases -/

/-- A session of four numbers in two rows, behind three other bytes. -/
def rowsSave : Res Unit × Sink :=
  NpyWriter.save ⟨false, 64, true⟩ solid f64 (.plain ⟨.little, .float, 8, none⟩) .c (.twoD 2) ([1#64, 2#64, 3#64, 4#64] : List f64.Val) ⟨[9, 9, 9], 3, true⟩

/-- What a program sees that opens and reads the file of that session. -/
def rowsSeen (cap : Nat) (evs : List (Nat × Nat)) (last : Nat) : Option (List Nat × Option (List Nat)) :=
  match (NpyFile.new ⟨false, 64, true⟩ Py.parse (live cap) (watch ⟨false, 64, true⟩ f64 (.plain ⟨.little, .float, 8, none⟩) .c (.twoD 2)
    ([1#64, 2#64, 3#64, 4#64] : List f64.Val) ⟨[9, 9, 9], 3, true⟩ evs last)).1 with
  | .ok f => some (f.header.shape, match (f.intoVec ⟨false, 64, true⟩ (live cap) f64).1 with
    | .ok xs => some (xs.map fun x : BitVec 64 => x.toNat)
    | _ => none)
  | _ => none

theorem rows_watched : ∃ s', Watched ⟨false, 64, true⟩ ⟨false, 64, true⟩ Py.parse f64 (.plain ⟨.little, .float, 8, none⟩) 8 .c (.twoD 2)
    ([1#64, 2#64, 3#64, 4#64] : List f64.Val) ⟨[9, 9, 9], 3, true⟩ s' ∧ s'.data.length = 163 := by
  have h1 : rowsSave.1 = .ok () := by decide +kernel
  have h2 : rowsSave.2.data.length = 163 := by decide +kernel
  rcases hx : rowsSave with ⟨x, s'⟩
  rw [hx] at h1 h2
  simp only at h1 h2
  subst h1
  unfold rowsSave at hx
  exact ⟨s', ⟨f8_wf, rfl, by decide, by decide, by decide, by decide +kernel, by decide, hx, .inr rfl, fun _ _ h => h, fun _ _ h => h, f8_fits _ (by decide),
    ⟨_, rfl⟩, by simp, by intro r hr; cases hr; decide, by decide +kernel, .inr (by decide)⟩, h2⟩

/-- C119_open, C119_read_file: for every schedule. -/
example (cap : Nat) (evs : List (Nat × Nat)) (last : Nat) :
    ((∃ e, (NpyFile.new ⟨false, 64, true⟩ Py.parse (live cap) (watch ⟨false, 64, true⟩ f64 (.plain ⟨.little, .float, 8, none⟩) .c (.twoD 2)
        ([1#64, 2#64, 3#64, 4#64] : List f64.Val) ⟨[9, 9, 9], 3, true⟩ evs last)).1 = .err e) ∨
      ∃ f, (NpyFile.new ⟨false, 64, true⟩ Py.parse (live cap) (watch ⟨false, 64, true⟩ f64 (.plain ⟨.little, .float, 8, none⟩) .c (.twoD 2)
        ([1#64, 2#64, 3#64, 4#64] : List f64.Val) ⟨[9, 9, 9], 3, true⟩ evs last)).1 = .ok f ∧ f.header.shape = [2, 2]) ∧
    (readFile ⟨false, 64, true⟩ Py.parse (live cap) f64 (watch ⟨false, 64, true⟩ f64 (.plain ⟨.little, .float, 8, none⟩) .c (.twoD 2)
        ([1#64, 2#64, 3#64, 4#64] : List f64.Val) ⟨[9, 9, 9], 3, true⟩ evs last) = .ok ([1#64, 2#64, 3#64, 4#64] : List f64.Val) ∨
      ∃ e, readFile ⟨false, 64, true⟩ Py.parse (live cap) f64 (watch ⟨false, 64, true⟩ f64 (.plain ⟨.little, .float, 8, none⟩) .c (.twoD 2)
        ([1#64, 2#64, 3#64, 4#64] : List f64.Val) ⟨[9, 9, 9], 3, true⟩ evs last) = .err e) := by
  obtain ⟨s', h, -⟩ := rows_watched
  refine ⟨?_, C119_read_file h cap evs last⟩
  rcases C119_open h cap evs last with h | ⟨f, h1, -, h2, -⟩
  · exact .inl h
  · exact .inr ⟨f, h1, h2⟩

/-- C119_eventually -/
example : ∃ L, ∀ cap (evs : List (Nat × Nat)) last, (∀ n ∈ evs.map (·.1) ++ [last], L ≤ n) →
    readFile ⟨false, 64, true⟩ Py.parse (live cap) f64 (watch ⟨false, 64, true⟩ f64 (.plain ⟨.little, .float, 8, none⟩) .c (.twoD 2)
      ([1#64, 2#64, 3#64, 4#64] : List f64.Val) ⟨[9, 9, 9], 3, true⟩ evs last) = .ok ([1#64, 2#64, 3#64, 4#64] : List f64.Val) := by
  obtain ⟨s', h, hl⟩ := rows_watched
  exact C119_eventually h (by rw [hl]; decide)

-- before the end of the session the file cannot be opened, although all its data are there
example : rowsSeen 0 [] 160 = none := by decide +kernel
example : rowsSeen 0 [] 186 = none := by decide +kernel
-- at the end it can, and the first bytes of the header may have been read before
example : rowsSeen 0 [] 300 = some ([2, 2], some [1, 2, 3, 4]) := by decide +kernel
example : rowsSeen 0 ((List.range 8).map fun k => (155 + 5 * k, 5)) 300 = some ([2, 2], some [1, 2, 3, 4]) := by decide +kernel
-- not if the shape was read before
example : rowsSeen 0 ((List.range 80).map fun k => (155 + k, 3)) 300 = none := by decide +kernel
-- a program that sees later contents first and then earlier ones gets an error, not wrong data
example : rowsSeen 0 (List.replicate 4 (300, 100)) 140 = some ([2, 2], none) := by decide +kernel
-- a reader with a buffer may have fetched the shape before
example : rowsSeen 16 [(130, 15)] 300 = some ([2, 2], some [1, 2, 3, 4]) := by decide +kernel
example : rowsSeen 300 [(160, 300)] 300 = none := by decide +kernel
example : rowsSeen 20 (List.replicate 17 (300, 7)) 140 = some ([2, 2], none) := by decide +kernel

/-- C119_history, C119_complete: a schedule in which the file is opened in several parts while the session goes on. -/
example : ∃ f r s', (NpyFile.new ⟨false, 64, true⟩ Py.parse (live 20) (watch ⟨false, 64, true⟩ f64 (.plain ⟨.little, .float, 8, none⟩) .c (.twoD 2)
      ([1#64, 2#64, 3#64, 4#64] : List f64.Val) ⟨[9, 9, 9], 3, true⟩ ((List.range 8).map fun k => (155 + 5 * k, 5)) 300)).1 = .ok f ∧
    f.data ⟨false, 64, true⟩ f64 = .ok r ∧ (f.intoVec ⟨false, 64, true⟩ (live 20) f64).1 = .ok ([1#64, 2#64, 3#64, 4#64] : List f64.Val) ∧
    ∀ ops, ∃ g q, (NpyFile.new ⟨false, 64, true⟩ Py.parse disk ⟨s', 3⟩).1 = .ok g ∧ g.data ⟨false, 64, true⟩ f64 = .ok q ∧
      ((r.steps ⟨false, 64, true⟩ (live 20) ops).1 = (q.steps ⟨false, 64, true⟩ disk ops).1 ∨
       ∃ k e out, k < ops.length ∧ (r.steps ⟨false, 64, true⟩ (live 20) ops).1.take k = (q.steps ⟨false, 64, true⟩ disk ops).1.take k ∧
        (r.steps ⟨false, 64, true⟩ (live 20) ops).1[k]? = some out ∧ FailsWith e out) := by
  obtain ⟨s', h, hl⟩ := rows_watched
  have h1 : rowsSeen 20 ((List.range 8).map fun k => (155 + 5 * k, 5)) 300 = some ([2, 2], some [1, 2, 3, 4]) := by decide +kernel
  unfold rowsSeen at h1
  rcases hf : (NpyFile.new ⟨false, 64, true⟩ Py.parse (live 20) (watch ⟨false, 64, true⟩ f64 (.plain ⟨.little, .float, 8, none⟩) .c (.twoD 2)
      ([1#64, 2#64, 3#64, 4#64] : List f64.Val) ⟨[9, 9, 9], 3, true⟩ ((List.range 8).map fun k => (155 + 5 * k, 5)) 300)).1 with f | e | _
  · have hl' : s'.data.length < 2 ^ 63 := by rw [hl]; decide
    obtain ⟨h2, g, r, q, h3, h4, h5, h6⟩ := C119_complete h rfl (by decide) hl' 20 (by decide +kernel) hf
    exact ⟨f, r, s'.data, rfl, h5, h2, fun ops => C119_history h (by decide) hl' 20 _ _ hf h5 ops⟩
  · rw [hf] at h1; cases h1
  · rw [hf] at h1; cases h1

/-- With `begin_nd` the file can be opened as soon as its header is written; what is not there yet is an error. -/
def flatSeen (cap : Nat) (last : Nat) : Option (List Nat × List (Option Nat)) :=
  match (NpyFile.new ⟨false, 64, true⟩ Py.parse (live cap) (watch ⟨false, 64, true⟩ f64 (.plain ⟨.little, .float, 8, none⟩) .c (.nd [3])
    ([1#64, 2#64, 3#64] : List f64.Val) ⟨[], 0, true⟩ [] last)).1 with
  | .ok f => match f.data ⟨false, 64, true⟩ f64 with
    | .ok r => some (f.header.shape, (r.steps ⟨false, 64, true⟩ (live cap) [.next, .next, .next]).1.map fun
      | .item (some (.ok (x : BitVec 64))) => some x.toNat
      | _ => none)
    | _ => none
  | _ => none

example : flatSeen 0 127 = none := by decide +kernel
example : flatSeen 0 140 = some ([3], [some 1, none, none]) := by decide +kernel
example : flatSeen 0 152 = some ([3], [some 1, some 2, some 3]) := by decide +kernel

end Npyz.Props
