import Verif.Proofs.IoError
import Verif.Props.Crash
import Verif.Props.Faults
/-!
C70: sessions that meet an I/O error.

As in C63-C65 the stream follows a schedule of short writes, interruptions and errors.  A session that meets
an error stops, and the writer is dropped on the way out, which tries to complete the header once more.
-/
namespace Npyz.Props
open Npyz Spec Py RProg

/-- A header completed up to some byte is refused, or it is the complete one. -/
theorem torn_run {M' : Machine} {py : PyParser} (hpy : py.ExtendsRef) {d : DType} {size : Nat} (hd : d.Wf)
    (hn : exactBytes d = some size) (hf : AllFit M'.usizeLim d) (hna : d.isArray = false) {o : Order} (hst : py.StrictAfter (dictPrefix d o))
    {hint : ShapeHint} (hs : hint.seeks = true) (hz : hint ≠ .twoD 0) (hr : ∀ r, hint = .twoD r → r < 2 ^ 64)
    (hfits : (headerText (dictText d o hint)).length ≤ (usedProps (encodeUtf8 (dictText d o hint))).maxLen)
    (hmem : dictBytes d o hint + 76 ≤ M'.isizeMax) {c : Nat} (hc : c < 2 ^ 64) (hcf : CountFits c hint) (hsmall : Below16 c o hint) (n : Nat) :
    (∃ e, ∀ rest, ((NpyHeader.fromReader M' py).run (headerBytes (dictPrefix d o ++ tornSuffix o hint (axisOf c hint) n) ++ rest)).1 = .err e) ∨
    ∀ rest, (NpyHeader.fromReader M' py).run (headerBytes (dictPrefix d o ++ tornSuffix o hint (axisOf c hint) n) ++ rest) =
      (.ok ⟨d, finalShape o c hint, exactStrides o (finalShape o c hint), o, (finalShape o c hint).prod, some size, d.usesPickled⟩, rest) := by
  have hax : axisOf c hint < 2 ^ 64 := Nat.lt_of_le_of_lt (axisOf_le _ _) hc
  have hna := isArray_false.mp hna
  have hl := headerBytes_le d o hint
  have hdt : dictText d o hint = dictPrefix d o ++ placeholder o hint := by rw [dictText_suffix hs, suffixText_filler]
  have hht : (headerText (dictText d o hint)).length ≤ M'.isizeMax := by rw [headerBytes_length] at hl; omega
  rw [hdt, headerText_congr (placeholder_ascii o hint) (tornSuffix_ascii o hint (axisOf c hint) n) (tornSuffix_length hs hax n)] at hfits hht
  rw [usedProps_congr (placeholder_ascii o hint) (tornSuffix_ascii o hint (axisOf c hint) n) (tornSuffix_length hs hax n)] at hfits
  obtain ⟨k, hk⟩ := run_headerBytes_any (M := M') (py := py) hfits hht
  have hpa : (∀ x ∈ tornSuffix o hint (axisOf c hint) n ++ List.replicate k ' ', x.isDigit = true ∨ Punct x) ∧
      (Py.parse (dictPrefix d o ++ (tornSuffix o hint (axisOf c hint) n ++ List.replicate k ' ')) = none ∨
      Py.parse (dictPrefix d o ++ (tornSuffix o hint (axisOf c hint) n ++ List.replicate k ' ')) =
        some (.dict (headerDict d o ((finalShape o c hint).map fun (x : Nat) => PyVal.int x)))) := by
    cases hint with
    | nd => cases hs
    | oneD => exact torn_oneD hna o hax n k
    | twoD r =>
      refine ⟨tornSuffix_shape o r (axisOf c (.twoD r)) n k, ?_⟩
      cases o with
      | fortran => exact (torn_fortran r hax n k).parse hna _
      | c =>
        rcases hsmall with h | ⟨h1, h2⟩
        · cases h
        · exact (torn_c (digits_sum (by rintro rfl; exact hz rfl) hcf h1 h2) n k).parse hna _
  obtain ⟨hch, hpa⟩ := hpa
  rw [List.append_assoc] at hk
  rcases hpa with hpa | hpa
  · left
    rw [hst _ (fun c hc => isDigit_or (hch c hc)) hpa] at hk
    exact ⟨_, fun rest => by rw [hk]; rfl⟩
  · right
    intro rest
    rw [hpy _ _ hpa] at hk
    have hno : ¬ HasObject d := fun h => by have := (exactBytes_none_iff d).mpr h; rw [hn] at this; cases this
    obtain ⟨f1, f2⟩ := finalShape_fits (o := o) (n := c) (hint := hint) hcf hc (by rintro dims rfl; cases hs) hr
    generalize finalShape o c hint = shape at *
    have := interpretHeader_headerDict (M := M') hna hd o (dims := shape) f1
    rw [fromParts_eq (shape := shape) f2 (itemSizeOf_ok_iff.mpr (.inr ⟨hno, hf, size, hn, rfl⟩))] at this
    have hpr : ∀ v, (parseResult (some v) >>= interpretHeader M') = interpretHeader M' v := fun _ => rfl
    rw [hk, hpr, this]

/-- C70: whatever errors the stream has, on whatever calls, a file that a session leaves behind is not
taken for something else: opening it is an error, or reading its elements is an error, or it is the complete
file with the dtype, shape, order and values that were to be written. -/
theorem C70_never_wrong {M M' : Machine} (hM' : M'.Wf) {py : PyParser} (hpy : py.ExtendsRef) {t : Ty} {d : DType} {size : Nat} (hd : d.Wf)
    (hn : exactBytes d = some size) (hm : size ≤ M.isizeMax) (hm' : size ≤ M'.isizeMax) (hf : AllFit M'.usizeLim d)
    (hp : ∃ p, t.reader M' d = .ok p) {o : Order} (hst : py.StrictAfter (dictPrefix d o)) {hint : ShapeHint} (hz : hint ≠ .twoD 0)
    (hdims : ∀ dims, hint = .nd dims → (∀ k ∈ dims, k < 2 ^ 64) ∧ nonzeroProd dims < 2 ^ 64) (hr : ∀ r, hint = .twoD r → r < 2 ^ 64)
    (hmem : dictBytes d o hint + 76 ≤ M'.isizeMax) {vs : List t.Val} (hc : vs.length < 2 ^ 64) (hcf : CountFits vs.length hint)
    (hsmall : Below16 vs.length o hint) (he : ∀ v ∈ vs, encode t d v ≠ none) {s s1 : Sink} {w : NpyWriter t.Val}
    (hpos : s.pos + dictBytes d o hint + 76 ≤ 2 ^ 64) (hfresh : s.data.length ≤ s.pos)
    (hb : (NpyWriter.begin M t d o hint).exec s = (.ok w, s1)) (evs : List Ev) :
    NeverWrong M' py t (NpyWriter.save M shaky t d o hint vs (s, evs)).2.1.data s.pos d (finalShape o vs.length hint) o (vs.map (readBack t d)) := by
  obtain ⟨p, hp⟩ := hp
  obtain ⟨hw, -, -, -⟩ := begin_ok hb
  obtain ⟨items, hit⟩ : ∃ items, encodeAll (encode t d) vs = some items := by
    cases hi : encodeAll (encode t d) vs with
    | none => obtain ⟨v, hv, h⟩ := (encodeAll_none vs).mp hi; exact absurd h (he v hv)
    | some items => exact ⟨items, rfl⟩
  have hl := headerBytes_le d o hint
  have hfits := hw.hdrFits
  have hht : (headerText (dictText d o hint)).length ≤ M'.isizeMax := by rw [headerBytes_length] at hl; omega
  have hno : ¬ HasObject d := fun h => by have := (exactBytes_none_iff d).mpr h; rw [hn] at this; cases this
  have hpk : d.usesPickled = false := by
    cases h : d.usesPickled with
    | false => rfl
    | true => exact absurd ((usesPickled_iff d).mp h) hno
  have hprod := finalShape_prod (o := o) hcf
  -- a header of too many items
  have short : ∀ (hdr tail : Bytes) (h : NpyHeader), hdr ≠ [] → (∀ rest, (NpyHeader.fromReader M' py).run (hdr ++ rest) = (.ok h, rest)) →
      h.itemSize = some size → tail.length < h.nRecords * size →
      ∃ f, (NpyFile.new M' py disk ⟨(s.put (hdr ++ tail)).data, s.pos⟩).1 = .ok f ∧ ∃ e, (f.intoVec M' disk t).1 = .err e := by
    intro hdr tail h hne hrun hsz hlt
    have hdrop := Sink.put_fresh hfresh (hdr ++ tail)
    have hle : s.pos ≤ (s.put (hdr ++ tail)).data.length := by
      rw [Sink.put_data _ (by simp [hne])]; simp [s.before_length]
    have hnew := new_ok (hrun tail) hdrop hle
    refine ⟨_, by rw [hnew], ?_⟩
    have hdl := congrArg List.length hdrop
    simp only [List.length_drop, List.length_append] at hdl
    have hnil : 0 < hdr.length := List.length_pos_iff.mpr hne
    refine C21_truncated (f := ⟨_, ⟨_, _⟩⟩) ⟨py, _, _, hrun tail⟩ hsz hm' ?_ ?_
    · simp only; omega
    · simp only; omega
  -- the header of an `nd` file
  have hnd : hint.seeks = false → ∀ rest, (NpyHeader.fromReader M' py).run (headerBytes (dictText d o hint) ++ rest) =
      (.ok ⟨d, finalShape o vs.length hint, exactStrides o (finalShape o vs.length hint), o, (finalShape o vs.length hint).prod, some size, d.usesPickled⟩, rest) := by
    intro hs rest
    cases hint with
    | oneD => cases hs
    | twoD r => cases hs
    | nd dims =>
      obtain ⟨hdims, hprod⟩ := hdims dims rfl
      have hrun := run_final (hint := .nd dims) (n := vs.length) (o := o) hpy hw.isArray hd hc hdims hfits hmem
      have hfd : finalDict d o (.nd dims) vs.length = dictText d o (.nd dims) := rfl
      rw [fromParts_eq (shape := finalShape o vs.length (.nd dims)) (o := o) hprod (itemSizeOf_ok_iff.mpr (.inr ⟨hno, hf, size, hn, rfl⟩)), hfd] at hrun
      exact hrun rest
  rcases save_shaky_leaves hd hn hm hz hc hcf hit (by omega) hb evs with ⟨m, h1, h2⟩ | ⟨k, m, h1, h2, h3, h4⟩ | ⟨k, m, n, h1, h2, h3, h4, h5⟩ | ⟨h1, h2⟩ | ⟨n, h1, h2⟩
  · -- part of the header
    left
    rw [h2]
    obtain ⟨e, he⟩ := run_headerBytes_cut (M := M') (py := py) hfits hht h1
    exact ⟨e, new_err (by rw [Sink.put_fresh hfresh]; exact he)⟩
  · rw [h4]
    by_cases hs : hint.seeks = true
    · -- the unfinished header
      left
      have hdt : dictText d o hint = dictPrefix d o ++ placeholder o hint := by rw [dictText_suffix hs, suffixText_filler]
      rw [hdt] at hfits hht
      obtain ⟨e, he⟩ := run_rejected (M := M') hst (placeholder_chars o hint) (placeholder_rejected (isArray_false.mp hw.isArray) o hs)
        hfits hht (items.take m)
      exact ⟨e, new_err (by rw [Sink.put_fresh hfresh, hdt]; exact he)⟩
    · -- a complete header without all the items
      right; left
      have hs : hint.seeks = false := by simpa using hs
      refine short _ _ _ (headerBytes_ne_nil _) (hnd hs) rfl ?_
      have : (k + 1) * size ≤ vs.length * size := Nat.mul_le_mul_right _ h1
      simp only [hprod, List.length_take]
      omega
  · -- a header of the items counted so far
    rw [h5]
    have hsm : Below16 (k + 1) o hint := by
      cases hint with
      | nd => trivial
      | oneD => trivial
      | twoD r =>
        rcases hsmall with h | ⟨h, h'⟩
        · exact .inl h
        · exact .inr ⟨by omega, h'⟩
    rcases torn_run hpy hd hn hf hw.isArray hst h3 hz hr hfits hmem (c := k + 1) (by omega) h4 hsm n with ⟨e, he⟩ | hrun
    · left
      exact ⟨e, new_err (by rw [Sink.put_fresh hfresh]; exact he _)⟩
    · right; left
      refine short _ _ _ (headerBytes_ne_nil _) hrun rfl ?_
      simp only [finalShape_prod (o := o) h4, List.length_take]
      omega
  · -- a complete `nd` file
    right; right
    rw [h2]
    exact readsBack_of (h := ⟨d, finalShape o vs.length hint, _, o, (finalShape o vs.length hint).prod, some size, d.usesPickled⟩)
      hM' hp hn hm' (hnd h1) rfl hprod rfl hpk hit (headerBytes_ne_nil _) (rest := []) (by rw [Sink.put_fresh hfresh, List.append_nil])
  · rw [h2]
    rcases torn_run hpy hd hn hf hw.isArray hst h1 hz hr hfits hmem hc hcf hsmall n with ⟨e, he⟩ | hrun
    · left
      exact ⟨e, new_err (by rw [Sink.put_fresh hfresh]; exact he _)⟩
    · right; right
      exact readsBack_of (h := ⟨d, finalShape o vs.length hint, _, o, (finalShape o vs.length hint).prod, some size, d.usesPickled⟩)
        hM' hp hn hm' hrun rfl hprod rfl hpk hit (headerBytes_ne_nil _) (rest := []) (by rw [Sink.put_fresh hfresh, List.append_nil]; rfl)

/-- C70: so everything that can be read from the file is what was to be written. -/
theorem C70_read {M' : Machine} {py : PyParser} {t : Ty} {data : Bytes} {pos : Nat} {d : DType} {shape : List Nat} {o : Order} {vs : List t.Val}
    (h : NeverWrong M' py t data pos d shape o vs) {f : NpyFile Src} {ws : List t.Val}
    (h1 : (NpyFile.new M' py disk ⟨data, pos⟩).1 = .ok f) (h2 : (f.intoVec M' disk t).1 = .ok ws) :
    f.header.dtype = d ∧ f.header.shape = shape ∧ f.header.order = o ∧ ws = vs := by
  rcases h with ⟨e, h⟩ | ⟨f', h, e, h'⟩ | ⟨f', h, h3, h4, h5, h6⟩
  · rw [h] at h1; cases h1
  · rw [h] at h1; cases h1; rw [h'] at h2; cases h2
  · rw [h] at h1; cases h1; rw [h6] at h2; cases h2; exact ⟨h3, h4, h5, rfl⟩

/-- C70_never_wrong, C70_read: four numbers in two rows, on a stream that fails in any way. -/
example : ∃ s : Sink, s.pos = 3 ∧ ∀ evs, NeverWrong ⟨true, 32, false⟩ Py.parse f64 (NpyWriter.save ⟨false, 64, true⟩ shaky f64 (.plain ⟨.little, .float, 8, none⟩)
    .c (.twoD 2) ([1#64, 2#64, 3#64, 4#64] : List f64.Val) (s, evs)).2.1.data s.pos (.plain ⟨.little, .float, 8, none⟩) [2, 2] .c [1#64, 2#64, 3#64, 4#64] := by
  refine ⟨⟨[9, 9, 9], 3, true⟩, rfl, fun evs => ?_⟩
  have h : (match ((NpyWriter.begin ⟨false, 64, true⟩ f64 (.plain ⟨.little, .float, 8, none⟩) .c (.twoD 2)).exec ⟨[9, 9, 9], 3, true⟩).1 with
    | .ok _ => true | _ => false) = true := by decide +kernel
  rcases hx : (NpyWriter.begin ⟨false, 64, true⟩ f64 (.plain ⟨.little, .float, 8, none⟩) .c (.twoD 2)).exec ⟨[9, 9, 9], 3, true⟩ with ⟨(w | e | _), s1⟩
  · exact C70_never_wrong (M' := ⟨true, 32, false⟩) (hint := .twoD 2) (vs := ([1#64, 2#64, 3#64, 4#64] : List f64.Val)) (o := .c) (py := Py.parse) (.inl rfl) (fun _ _ h => h) f8_wf rfl (by decide) (by decide) (f8_fits _ (by decide)) ⟨_, rfl⟩
      (fun _ _ h => h) (by simp) (by simp) (by intro r hr; cases hr; decide) (by decide +kernel) (by decide) (show 2 ∣ 4 by decide) (.inr (by decide))
      (fun v _ => nofun) (by decide +kernel) (by decide) hx evs
  · rw [hx] at h; cases h
  · rw [hx] at h; cases h

/-- A session of three values in records of `r` (0: one-dimensional) on a stream with a schedule: the result as in `faulty`, and what the
file reads as: `none` if it cannot be opened, otherwise the shape and the number of elements that can be read. -/
def left70 (r : Nat) (evs : List Ev) : Option Nat × Option (List Nat × Option Nat) :=
  match NpyWriter.save ⟨false, 64, true⟩ shaky f64 (.plain ⟨.little, .float, 8, none⟩) .c (if r = 0 then .oneD else .twoD r) [1#64, 2#64, 3#64] (⟨[], 0, true⟩, evs) with
  | (res, (s, _)) =>
    (match res with
      | .ok () => none
      | .err (.source c) => some c
      | _ => some 99,
     match (NpyFile.new ⟨false, 64, true⟩ Py.parse disk ⟨s.data, 0⟩).1 with
      | .ok f => some (f.header.shape, match (f.intoVec ⟨false, 64, true⟩ disk f64).1 with
        | .ok vs => some vs.length
        | _ => none)
      | _ => none)

-- an error in the header, in the second item, in the first rewrite of the header, and in both rewrites
example : left70 0 (List.replicate 4 (.short 1000) ++ [.fail 7]) = (some 7, none) := by decide +kernel
example : left70 0 (List.replicate 7 (.short 1000) ++ [.fail 7]) = (some 7, some ([2], none)) := by decide +kernel
example : left70 0 (List.replicate 11 (.short 1000) ++ [.fail 7]) = (some 7, some ([3], some 3)) := by decide +kernel
example : left70 0 (List.replicate 11 (.short 1000) ++ [.fail 7, .short 0, .short 0, .short 0, .fail 8]) = (some 7, none) := by decide +kernel
-- in the second item of a record of three
example : left70 3 (List.replicate 7 (.short 1000) ++ [.fail 7]) = (some 7, none) := by decide +kernel

-- the hypotheses about the dtype, the machine and the parser can be met
example : (∃ p, f64.reader ⟨false, 64, true⟩ (.plain ⟨.little, .float, 8, none⟩) = .ok p) ∧ Below16 4 .c (.twoD 2) ∧ CountFits 4 (.twoD 2) ∧
    (Py.parse).StrictAfter (dictPrefix (.plain ⟨.little, .float, 8, none⟩) .c) :=
  ⟨⟨_, rfl⟩, .inr (by decide), (by decide : 2 ∣ 4), fun _ _ h => h⟩

end Npyz.Props
