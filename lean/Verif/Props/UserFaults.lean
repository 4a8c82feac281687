import Verif.Props.User
import Verif.Props.Buffer
/-!
Property C86: writing arrays of a user-defined element type (see Spec/User.lean) when something fails:
the process dies, calls of the stream fail, or a buffer is lost.  The element types of the library are the case `writer = t.writer M`
(C46, C47, C63, C64, C66, C70, C75-C77).
-/
namespace Npyz.Props
open Npyz Npyz.Spec Py RProg
set_option autoImplicit false

theorem written_emits {α : Type} {p : WProg α} {bs : Bytes} {r : Res α} (h : written p = some (bs, r)) : p.Emits bs r := by
  induction p generalizing bs with
  | ret r' => simp only [written, Option.some.injEq, Prod.mk.injEq] at h; obtain ⟨rfl, rfl⟩ := h; exact .ret _
  | write b k ih =>
    simp only [written] at h
    cases hk : written k with
    | none => rw [hk] at h; cases h
    | some x =>
      rw [hk] at h
      obtain ⟨rfl, rfl⟩ := Prod.mk.inj (Option.some.inj h)
      exact .write (ih hk)
  | tell k _ => cases h
  | seek q k _ => cases h
  | flush k _ => cases h

theorem writesItems_all {V : Type} {prog : V → WProg Unit} {size : Nat} {enc : V → Option Bytes} (h : WritesItems prog size enc) :
    WritesAll prog size enc := by
  intro v
  have := h v
  cases he : enc v with
  | none =>
    rw [he] at this
    obtain ⟨bs, e, h⟩ := this
    exact ⟨bs, e, written_emits h⟩
  | some bs =>
    rw [he] at this
    exact ⟨this.1, written_emits this.2⟩

/-! ### What is there -/

/-- The header of a file of the given shape. -/
def plainHeader (d : DType) (shape : List Nat) (o : Order) (size : Nat) : NpyHeader :=
  ⟨d, shape, exactStrides o shape, o, shape.prod, some size, d.usesPickled⟩

theorem left_short {M : Machine} {py : PyParser} {d : DType} {shape' shape : List Nat} {o : Order} {size : Nat} {s : Sink}
    {hdr tail items : Bytes} (hfresh : s.data.length ≤ s.pos) (hne : hdr ≠ [])
    (hrun : ∀ rest, (NpyHeader.fromReader M py).run (hdr ++ rest) = (.ok (plainHeader d shape' o size), rest))
    (hlt : tail.length < shape'.prod * size) : LeftOver M py (s.put (hdr ++ tail)).data s.pos d shape o size items := by
  have hdrop := Sink.put_fresh hfresh (hdr ++ tail)
  have hle : s.pos ≤ (s.put (hdr ++ tail)).data.length := by
    rw [Sink.put_data _ (by simp [hne])]; simp [s.before_length]
  have hdl := congrArg List.length hdrop
  simp only [List.length_drop, List.length_append] at hdl
  have hnil : 0 < hdr.length := List.length_pos_iff.mpr hne
  refine .inr ⟨_, new_ok (hrun tail) hdrop hle, rfl, rfl, rfl, by simp only; omega, .inl ?_⟩
  simp only [plainHeader]
  omega

theorem left_full {M : Machine} {py : PyParser} {d : DType} {shape : List Nat} {o : Order} {size : Nat} {data : Bytes} {pos : Nat}
    {hdr rest items : Bytes} (hne : hdr ≠ []) (hdrop : data.drop pos = hdr ++ items ++ rest)
    (hrun : ∀ rest, (NpyHeader.fromReader M py).run (hdr ++ rest) = (.ok (plainHeader d shape o size), rest))
    (hl : items.length = shape.prod * size) : LeftOver M py data pos d shape o size items := by
  have hdl := congrArg List.length hdrop
  simp only [List.length_drop, List.length_append] at hdl
  have hnil : 0 < hdr.length := List.length_pos_iff.mpr hne
  rw [List.append_assoc] at hdrop
  refine .inr ⟨_, new_ok (hrun _) hdrop (by omega), rfl, rfl, rfl, by simp only; omega, .inr ⟨rfl, hl.symm, rest, ?_⟩⟩
  show data.drop (pos + hdr.length) = _
  rw [← List.drop_drop, hdrop, List.drop_left]

theorem enc_length {V : Type} {prog : V → WProg Unit} {size : Nat} {enc : V → Option Bytes} (h : WritesItems prog size enc) (v : V) (b : Bytes)
    (he : enc v = some b) : b.length = size := by
  have := h v
  rw [he] at this
  exact this.1

theorem encodeAll_of_all {V : Type} {enc : V → Option Bytes} {vs : List V} (he : ∀ v ∈ vs, enc v ≠ none) : ∃ items, encodeAll enc vs = some items := by
  cases hi : encodeAll enc vs with
  | none => obtain ⟨v, hv, h⟩ := (encodeAll_none vs).mp hi; exact absurd h (he v hv)
  | some items => exact ⟨items, rfl⟩

theorem nd_run {M' : Machine} {py : PyParser} (hpy : py.ExtendsRef) {d : DType} {size : Nat} (hd : d.Wf) (hn : exactBytes d = some size)
    (hf : AllFit M'.usizeLim d) {o : Order} {dims : List Nat} (hdims : ∀ k ∈ dims, k < 2 ^ 64) (hprod : nonzeroProd dims < 2 ^ 64)
    (hmem : dictBytes d o (.nd dims) + 76 ≤ M'.isizeMax) (hna : d.isArray = false)
    (hfits : (headerText (dictText d o (.nd dims))).length ≤ (usedProps (encodeUtf8 (dictText d o (.nd dims)))).maxLen) (rest : Bytes) :
    (NpyHeader.fromReader M' py).run (headerBytes (dictText d o (.nd dims)) ++ rest) = (.ok (plainHeader d dims o size), rest) := by
  have hno : ¬ HasObject d := fun h => by have := (exactBytes_none_iff d).mpr h; rw [hn] at this; cases this
  have hrun := run_final (hint := .nd dims) (n := 0) (o := o) hpy hna hd (by decide) hdims hfits hmem
  have hfd : finalDict d o (.nd dims) 0 = dictText d o (.nd dims) := rfl
  rw [fromParts_eq (shape := finalShape o 0 (.nd dims)) (o := o) hprod (itemSizeOf_ok_iff.mpr (.inr ⟨hno, hf, size, hn, rfl⟩)), hfd] at hrun
  exact hrun rest

/-! ### Interrupted writing -/

/-- C86: if writing a `begin_1d` or `begin_2d` file of any element type stops after any number of bytes before finishing,
opening what is there is an error. -/
theorem C86_unfinished {V : Type} {M M' : Machine} {py : PyParser} {writer : DType → DRes (V → WProg Unit)} {d : DType} {size : Nat}
    {enc : V → Option Bytes} (hw : ∀ prog, writer d = .ok prog → WritesItems prog size enc) {o : Order} (hpy : py.StrictAfter (dictPrefix d o))
    {hint : ShapeHint} (hs : hint.seeks = true) (hmem : dictBytes d o hint + 76 ≤ M'.isizeMax) {vs : List V} (hc : vs.length < 2 ^ 64)
    {s s1 : Sink} {w : NpyWriter V} (hb : (NpyWriter.beginWith M writer d o hint).exec s = (.ok w, s1)) (hfresh : s.data.length ≤ s.pos) (n : Nat) :
    Unreadable M' py ((NpyWriter.sessionWith M writer d o hint vs).crash n s).data s.pos := by
  obtain ⟨bs, -, hcr⟩ := sessionWith_crash (vs := vs) (fun prog h => writesItems_all (hw prog h)) hc hb
  obtain ⟨⟨hst, -⟩, -, -, -⟩ := beginWith_ok hb
  have hl := headerBytes_le d o hint
  have hfits := hst.hdrFits
  have hht : (headerText (dictText d o hint)).length ≤ M'.isizeMax := by
    rw [headerBytes_length] at hl; omega
  rw [hcr]
  have hdrop := Sink.put_fresh hfresh ((headerBytes (dictText d o hint) ++ bs).take n)
  by_cases hlt : n < (headerBytes (dictText d o hint)).length
  · rw [List.take_append_of_le_length (by omega)] at hdrop ⊢
    obtain ⟨e, he⟩ := run_headerBytes_cut (M := M') (py := py) hfits hht hlt
    exact ⟨e, new_err (by rw [hdrop]; exact he)⟩
  · rw [List.take_append, List.take_of_length_le (by omega)] at hdrop ⊢
    have hdt : dictText d o hint = dictPrefix d o ++ placeholder o hint := by rw [dictText_suffix hs, suffixText_filler]
    rw [hdt] at hfits hht
    obtain ⟨e, he⟩ := run_rejected (M := M') hpy (placeholder_chars o hint) (placeholder_rejected (isArray_false.mp hst.isArray) o hs)
      hfits hht (bs.take (n - (headerBytes (dictText d o hint)).length))
    exact ⟨e, new_err (by rw [hdrop, hdt]; rw [hdt] at he; exact he)⟩

/-- C86: if writing a `begin_nd` file of any element type stops after any number of bytes, opening what is there is an
error, or items are missing, or all items of the shape are there. -/
theorem C86_nd {V : Type} {M M' : Machine} {py : PyParser} (hpy : py.ExtendsRef) {writer : DType → DRes (V → WProg Unit)} {d : DType}
    {size : Nat} {enc : V → Option Bytes} (hw : ∀ prog, writer d = .ok prog → WritesItems prog size enc) (hd : d.Wf)
    (hn : exactBytes d = some size) (hpos : 0 < size) (hf : AllFit M'.usizeLim d) {o : Order} {dims : List Nat}
    (hdims : ∀ k ∈ dims, k < 2 ^ 64) (hprod : nonzeroProd dims < 2 ^ 64) (hmem : dictBytes d o (.nd dims) + 76 ≤ M'.isizeMax) {vs : List V}
    (hc : vs.length < 2 ^ 64) (he : ∀ v ∈ vs, enc v ≠ none) {s s1 : Sink} {w : NpyWriter V}
    (hb : (NpyWriter.beginWith M writer d o (.nd dims)).exec s = (.ok w, s1)) (hfresh : s.data.length ≤ s.pos) (n : Nat) :
    ∃ items, encodeAll enc (vs.take dims.prod) = some items ∧
      LeftOver M' py ((NpyWriter.sessionWith M writer d o (.nd dims) vs).crash n s).data s.pos d dims o size items := by
  obtain ⟨bs, hbs, hcr⟩ := sessionWith_crash (vs := vs) (fun prog h => writesItems_all (hw prog h)) hc hb
  obtain ⟨⟨hst, hpr⟩, -, -, hs1⟩ := beginWith_ok hb
  obtain ⟨items, hit⟩ := encodeAll_of_all he
  obtain rfl := hbs _ hit
  have hl := headerBytes_le d o (.nd dims)
  have hfits := hst.hdrFits
  have hel := enc_length (hw _ hpr)
  have hil := (encodeAll_item hel vs hit).1
  have ht := encodeAll_take hel vs hit dims.prod
  refine ⟨_, ht, ?_⟩
  rw [hcr]
  have hdrop := Sink.put_fresh hfresh ((headerBytes (dictText d o (.nd dims)) ++ bs).take n)
  by_cases hlt : n < (headerBytes (dictText d o (.nd dims))).length
  · left
    rw [List.take_append_of_le_length (by omega)] at hdrop ⊢
    obtain ⟨e, he⟩ := run_headerBytes_cut (M := M') (py := py) hfits (by rw [headerBytes_length] at hl; omega) hlt
    exact ⟨e, new_err (by rw [hdrop]; exact he)⟩
  · rw [List.take_append, List.take_of_length_le (l := headerBytes _) (by omega)] at hdrop ⊢
    generalize hx : bs.take (n - (headerBytes (dictText d o (.nd dims))).length) = X at hdrop ⊢
    have hXl : X.length ≤ bs.length := by rw [← hx]; simp; omega
    have hrun := nd_run hpy hd hn hf hdims hprod hmem hst.isArray hfits
    have hne := headerBytes_ne_nil (dictText d o (.nd dims))
    by_cases hall : dims.prod * size ≤ X.length
    · have hsplit : X = bs.take (dims.prod * size) ++ X.drop (dims.prod * size) := by
        rw [← hx] at hall ⊢
        have : (bs.take (n - (headerBytes (dictText d o (.nd dims))).length)).take (dims.prod * size) = bs.take (dims.prod * size) := by
          rw [List.take_take, Nat.min_eq_left]
          simp at hall; omega
        conv => lhs; rw [← List.take_append_drop (dims.prod * size) (bs.take _)]
        rw [this]
      refine left_full hne (rest := X.drop (dims.prod * size)) ?_ hrun ?_
      · rw [hdrop, List.append_assoc, ← hsplit]
      · rw [List.length_take]; omega
    · exact left_short hfresh hne hrun (by omega)

/-- C86: if the rewrite of the header in `finish` of a `begin_1d` or `begin_2d` file of any element type stops after any
number of bytes, opening the file is an error, or the file is complete (in C order with the limits of C66). -/
theorem C86_torn {V : Type} {M M' : Machine} {py : PyParser} (hpy : py.ExtendsRef) {writer : DType → DRes (V → WProg Unit)} {d : DType}
    {size : Nat} {enc : V → Option Bytes} (hw : ∀ prog, writer d = .ok prog → WritesItems prog size enc) (hd : d.Wf)
    (hn : exactBytes d = some size) (hf : AllFit M'.usizeLim d) {o : Order} (hst : py.StrictAfter (dictPrefix d o)) {hint : ShapeHint}
    (hs : hint.seeks = true) (hz : hint ≠ .twoD 0) (hr : ∀ r, hint = .twoD r → r < 2 ^ 64) (hmem : dictBytes d o hint + 76 ≤ M'.isizeMax)
    {vs : List V} (hc : vs.length < 2 ^ 64) (hcf : CountFits vs.length hint) (hsmall : Below16 vs.length o hint) {s s1 s2 : Sink}
    {w w' : NpyWriter V} (hpos : s.pos + dictBytes d o hint + 76 ≤ 2 ^ 64) (hb : (NpyWriter.beginWith M writer d o hint).exec s = (.ok w, s1))
    (he : w.extend M solid vs s1 = (.ok (), w', s2)) (n : Nat) :
    ∃ items, encodeAll enc vs = some items ∧
      (Unreadable M' py ((w'.finish_ M).crash n s2).data s.pos ∨
       ∃ f, NpyFile.new M' py disk ⟨((w'.finish_ M).crash n s2).data, s.pos⟩ = (.ok f, f.src) ∧ f.header.dtype = d ∧ f.header.order = o ∧
         f.header.shape = finalShape o vs.length hint ∧ ∃ rest, f.src.rest = items ++ rest) := by
  obtain ⟨⟨hw1, hpr⟩, h0, hk, hs1⟩ := beginWith_ok hb
  have hwa := writesItems_all (hw _ hpr)
  obtain ⟨items, hit⟩ := extendW_ok vs w hwa (by omega) s1 (by rw [he])
  rw [extendW vs w hwa (by omega) s1 hit, hs1, Sink.put_put, h0, Nat.zero_add] at he
  obtain ⟨hw', hs2⟩ := Prod.mk.inj (Prod.mk.inj he).2
  subst hw' hs2
  refine ⟨items, hit, ?_⟩
  have hl := headerBytes_le d o hint
  rw [finish_torn (w := { w with numItems := vs.length }) hs (hk hs) (hw1.count vs.length) (by omega) hc hz hcf items n]
  show _ ∨ _
  simp only
  have hne := headerBytes_ne_nil (dictPrefix d o ++ tornSuffix o hint (axisOf vs.length hint) n)
  obtain ⟨rest, hdrop⟩ := Sink.put_drop s (headerBytes (dictPrefix d o ++ tornSuffix o hint (axisOf vs.length hint) n) ++ items) (by simp [hne])
  rcases torn_run hpy hd hn hf hw1.isArray hst hs hz hr hw1.hdrFits hmem hc hcf hsmall n with ⟨e, he⟩ | hrun
  · left
    exact ⟨e, new_err (by rw [hdrop, List.append_assoc]; exact he _)⟩
  · right
    have hil := (encodeAll_item (enc_length (hw _ hpr)) vs hit).1
    have hprod := finalShape_prod (o := o) hcf
    have hdl := congrArg List.length hdrop
    simp only [List.length_drop, List.length_append] at hdl
    have hnil := List.length_pos_iff.mpr hne
    rw [List.append_assoc] at hdrop
    refine ⟨_, new_ok (hrun _) hdrop (by omega), rfl, rfl, rfl, rest, ?_⟩
    show List.drop (s.pos + _) _ = _
    rw [← List.drop_drop, hdrop, List.drop_left]

/-! ### Streams that fail -/

/-- C86: short writes and interrupted calls change nothing, for any element type and whatever `write_one` does. -/
theorem C86_transparent {V : Type} {M : Machine} {writer : DType → DRes (V → WProg Unit)} (d : DType) (o : Order) (hint : ShapeHint) (vs : List V)
    (s : Sink) {evs : List Ev} (h : ∀ c, Ev.fail c ∉ evs) :
    ∃ evs', NpyWriter.saveWith M shaky writer d o hint vs (s, evs) =
      ((NpyWriter.saveWith M solid writer d o hint vs s).1, ((NpyWriter.saveWith M solid writer d o hint vs s).2, evs')) := by
  obtain ⟨evs', h1, -⟩ := NpyWriter.saveWith_nofail (wr := writer) M d o hint vs s h
  exact ⟨evs', h1⟩

/-- C86: a session that reports success has written what it writes to a reliable stream, whatever `write_one` does. -/
theorem C86_success {V : Type} {M : Machine} {writer : DType → DRes (V → WProg Unit)} {d : DType} {o : Order} {hint : ShapeHint} {vs : List V}
    {s s' : Sink} {evs evs' : List Ev} (h : NpyWriter.saveWith M shaky writer d o hint vs (s, evs) = (.ok (), (s', evs'))) :
    ∃ s2, NpyWriter.saveWith M solid writer d o hint vs s = (.ok (), s2) ∧ s'.data = s2.data :=
  NpyWriter.saveWith_shaky_ok h

/-- C86: errors of the stream are reported, whatever `write_one` does. -/
theorem C86_reported {V : Type} {M : Machine} {writer : DType → DRes (V → WProg Unit)} {d : DType} {o : Order} {hint : ShapeHint}
    (hz : hint ≠ .twoD 0) {vs : List V} {s : Sink} (hpos : hint.seeks = true → s.pos + dictBytes d o hint + 76 ≤ 2 ^ 64) (evs : List Ev) :
    (NpyWriter.saveWith M shaky writer d o hint vs (s, evs)).1 = (NpyWriter.saveWith M solid writer d o hint vs s).1 ∨
    ∃ c, Ev.fail c ∈ evs ∧ (NpyWriter.saveWith M shaky writer d o hint vs (s, evs)).1 = .err (.source c) :=
  NpyWriter.saveWith_result hz hpos evs

/-- C86: whatever errors the stream has, on whatever calls, what a session leaves behind opens with an error, or has fewer items
than its shape says, or is the complete file. -/
theorem C86_left {V : Type} {M M' : Machine} {py : PyParser} (hpy : py.ExtendsRef) {writer : DType → DRes (V → WProg Unit)} {d : DType}
    {size : Nat} {enc : V → Option Bytes} (hw : ∀ prog, writer d = .ok prog → WritesItems prog size enc) (hd : d.Wf)
    (hn : exactBytes d = some size) (hf : AllFit M'.usizeLim d) {o : Order} (hst : py.StrictAfter (dictPrefix d o)) {hint : ShapeHint}
    (hz : hint ≠ .twoD 0) (hdims : ∀ dims, hint = .nd dims → (∀ k ∈ dims, k < 2 ^ 64) ∧ nonzeroProd dims < 2 ^ 64)
    (hr : ∀ r, hint = .twoD r → r < 2 ^ 64) (hmem : dictBytes d o hint + 76 ≤ M'.isizeMax) {vs : List V} (hc : vs.length < 2 ^ 64)
    (hcf : CountFits vs.length hint) (hsmall : Below16 vs.length o hint) {items : Bytes} (hit : encodeAll enc vs = some items) {s s1 : Sink}
    {w : NpyWriter V} (hpos : s.pos + dictBytes d o hint + 76 ≤ 2 ^ 64) (hfresh : s.data.length ≤ s.pos)
    (hb : (NpyWriter.beginWith M writer d o hint).exec s = (.ok w, s1)) (evs : List Ev) :
    LeftOver M' py (NpyWriter.saveWith M shaky writer d o hint vs (s, evs)).2.1.data s.pos d (finalShape o vs.length hint) o size items := by
  obtain ⟨⟨hw1, hpr⟩, -, -, -⟩ := beginWith_ok hb
  have hl := headerBytes_le d o hint
  have hfits := hw1.hdrFits
  have hht : (headerText (dictText d o hint)).length ≤ M'.isizeMax := by rw [headerBytes_length] at hl; omega
  have hprod := finalShape_prod (o := o) hcf
  have hil := (encodeAll_item (enc_length (hw _ hpr)) vs hit).1
  -- the header of an `nd` file
  have hnd : hint.seeks = false → ∀ rest, (NpyHeader.fromReader M' py).run (headerBytes (dictText d o hint) ++ rest) =
      (.ok (plainHeader d (finalShape o vs.length hint) o size), rest) := by
    intro hs rest
    cases hint with
    | oneD => cases hs
    | twoD r => cases hs
    | nd dims =>
      obtain ⟨h1, h2⟩ := hdims dims rfl
      exact nd_run hpy hd hn hf h1 h2 hmem hw1.isArray hfits rest
  rcases saveWith_shaky_leaves (fun prog h => writesItems_all (hw prog h)) hz hc hcf hit (by omega) hb evs with
    ⟨m, h1, h2⟩ | ⟨k, m, h1, h2, h3, h4⟩ | ⟨k, m, n, h1, h2, h3, h4, h5⟩ | ⟨h1, h2⟩ | ⟨n, h1, h2⟩
  · -- part of the header
    left
    rw [h2]
    obtain ⟨e, he⟩ := run_headerBytes_cut (M := M') (py := py) hfits hht h1
    exact ⟨e, new_err (by rw [Sink.put_fresh hfresh]; exact he)⟩
  · rw [h4]
    by_cases hs : hint.seeks = true
    · -- the unfinished header
      left
      have hdt : dictText d o hint = dictPrefix d o ++ placeholder o hint := by rw [dictText_suffix hs, suffixText_filler]
      rw [hdt] at hfits hht
      obtain ⟨e, he⟩ := run_rejected (M := M') hst (placeholder_chars o hint) (placeholder_rejected (isArray_false.mp hw1.isArray) o hs)
        hfits hht (items.take m)
      exact ⟨e, new_err (by rw [Sink.put_fresh hfresh, hdt]; exact he)⟩
    · -- a complete header without all the items
      have hs : hint.seeks = false := by simpa using hs
      refine left_short hfresh (headerBytes_ne_nil _) (hnd hs) ?_
      have : (k + 1) * size ≤ vs.length * size := Nat.mul_le_mul_right _ h1
      simp only [hprod, List.length_take]
      omega
  · -- a header of the items counted so far
    rw [h5]
    have hsm : Below16 (k + 1) o hint := by
      cases hint with
      | nd => trivial
      | oneD => trivial
      | twoD r =>
        rcases hsmall with h | ⟨h, h'⟩
        · exact .inl h
        · exact .inr ⟨by omega, h'⟩
    rcases torn_run hpy hd hn hf hw1.isArray hst h3 hz hr hfits hmem (c := k + 1) (by omega) h4 hsm n with ⟨e, he⟩ | hrun
    · left
      exact ⟨e, new_err (by rw [Sink.put_fresh hfresh]; exact he _)⟩
    · refine left_short hfresh (headerBytes_ne_nil _) hrun ?_
      simp only [finalShape_prod (o := o) h4, List.length_take]
      omega
  · -- a complete `nd` file
    rw [h2]
    exact left_full (headerBytes_ne_nil _) (rest := []) (by rw [Sink.put_fresh hfresh, List.append_nil]) (hnd h1) (by rw [hil, hprod])
  · rw [h2]
    rcases torn_run hpy hd hn hf hw1.isArray hst h1 hz hr hfits hmem hc hcf hsmall n with ⟨e, he⟩ | hrun
    · left
      exact ⟨e, new_err (by rw [Sink.put_fresh hfresh]; exact he _)⟩
    · exact left_full (headerBytes_ne_nil _) (rest := []) (by rw [Sink.put_fresh hfresh, List.append_nil]; rfl) hrun (by rw [hil, hprod])

/-! ### Buffered streams -/

/-- C86: a `BufWriter` in between changes nothing, if no call fails. -/
theorem C86_buffer_transparent {V : Type} {M : Machine} {writer : DType → DRes (V → WProg Unit)} (cap : Nat) (d : DType) (o : Order)
    (hint : ShapeHint) (vs : List V) (s : Sink) {evs : List Ev} (h : ∀ c, Ev.fail c ∉ evs) {r : Res Unit} {b : BufSink}
    (hs : NpyWriter.saveWith M (buffered cap) writer d o hint vs (fresh s evs) = (r, b)) :
    NpyWriter.saveWith M solid writer d o hint vs s = (r, b.close) := by
  obtain ⟨evs', h1, h2, h3⟩ := NpyWriter.saveWith_buf_shaky (wr := writer) M cap d o hint vs (fresh s evs)
  rw [hs, viewed, fresh, Sink.put_nil] at h3
  rw [hs] at h2
  obtain ⟨evs2, h4⟩ := C86_transparent (M := M) (writer := writer) d o hint vs s (evs := evs') (fun c hc => h c (h1 c hc))
  rw [h4] at h3
  simp only [Prod.mk.injEq] at h3
  have hcl : b.close = viewed b := by
    unfold BufSink.close
    rcases b.flushBuf_cases with ⟨e2, h5, -⟩ | ⟨n, c, e2, -, h5, -⟩
    · rw [h5]
    · exact absurd (h2 _ h5) (h c)
  rw [hcl]
  exact Prod.ext h3.1 h3.2.1

/-- C86: a session through a `BufWriter` that reports success has written everything, whatever happens to the buffer afterwards. -/
theorem C86_buffer_success {V : Type} {M : Machine} {writer : DType → DRes (V → WProg Unit)} {cap : Nat} {d : DType} {o : Order}
    {hint : ShapeHint} {vs : List V} {s : Sink} {evs : List Ev} {b : BufSink}
    (h : NpyWriter.saveWith M (buffered cap) writer d o hint vs (fresh s evs) = (.ok (), b)) :
    ∃ s2, NpyWriter.saveWith M solid writer d o hint vs s = (.ok (), s2) ∧ ∀ j, kept b j = s2.data := by
  obtain ⟨s2, h1, h2⟩ := NpyWriter.saveWith_buf_ok h
  exact ⟨s2, by simpa [viewed, fresh, Sink.put_nil] using h1, h2⟩

/-- C86: the same for a session through a `BufWriter`, whatever errors the inner stream has, on whatever calls, and whatever part of
the buffer is lost in the end. -/
theorem C86_buffer_left {V : Type} {M M' : Machine} {py : PyParser} (hpy : py.ExtendsRef) {writer : DType → DRes (V → WProg Unit)} {d : DType}
    {size : Nat} {enc : V → Option Bytes} (hw : ∀ prog, writer d = .ok prog → WritesItems prog size enc) (hd : d.Wf)
    (hn : exactBytes d = some size) (hf : AllFit M'.usizeLim d) {o : Order} (hst : py.StrictAfter (dictPrefix d o)) {hint : ShapeHint}
    (hz : hint ≠ .twoD 0) (hdims : ∀ dims, hint = .nd dims → (∀ k ∈ dims, k < 2 ^ 64) ∧ nonzeroProd dims < 2 ^ 64)
    (hr : ∀ r, hint = .twoD r → r < 2 ^ 64) (hmem : dictBytes d o hint + 76 ≤ M'.isizeMax) {vs : List V} (hc : vs.length < 2 ^ 64)
    (hcf : CountFits vs.length hint) (hsmall : Below16 vs.length o hint) {items : Bytes} (hit : encodeAll enc vs = some items) {s s1 : Sink}
    {w : NpyWriter V} (hpos : s.pos + dictBytes d o hint + 76 ≤ 2 ^ 64) (hfresh : s.data.length ≤ s.pos)
    (hb : (NpyWriter.beginWith M writer d o hint).exec s = (.ok w, s1)) (cap : Nat) (evs : List Ev) (j : Nat) :
    LeftOver M' py (kept (NpyWriter.saveWith M (buffered cap) writer d o hint vs (fresh s evs)).2 j) s.pos d (finalShape o vs.length hint) o
      size items := by
  obtain ⟨evs', h⟩ := NpyWriter.saveWith_buf_kept (wr := writer) M cap d o hint vs s evs j
  rw [h]
  exact C86_left hpy hw hd hn hf hst hz hdims hr hmem hc hcf hsmall hit hpos hfresh hb evs'

/-! ### Reading what is left -/

/-- C86: so a reader whose `read_one` consumes one item, and decodes what was written for a value to that value, is never wrong about
what is left: opening is an error, or reading all elements is an error, or they are the values that were to be written. -/
theorem C86_never_wrong {V : Type} {M : Machine} {py : PyParser} {reader : DType → DRes (RProg V)} {d : DType} {size : Nat}
    {enc : V → Option Bytes} {dec : Bytes → Option V} (hp : ∀ p, reader d = .ok p → Decodes p size dec)
    (henc : ∀ v b, enc v = some b → b.length = size ∧ dec b = some v) {shape : List Nat} {o : Order} {vs : List V} {items : Bytes}
    (hit : encodeAll enc vs = some items) (hpos : 0 < size) {data : Bytes} {pos : Nat} (h : LeftOver M py data pos d shape o size items) :
    NeverWrongWith M py reader data pos d shape o vs := by
  rcases h with h | ⟨f, h1, h2, h3, h4, h5, h6⟩
  · exact .inl h
  · refine .inr ⟨f, by rw [h1], h2, h3, ?_⟩
    rcases h6 with h6 | ⟨h6, h7, rest, h8⟩
    · left
      intro r hr
      rcases C84_collect hr (by rw [h2]; exact hp) (by rw [h4]; exact h5) with ⟨vs', g1, g2, g3⟩ | ⟨e, g1, -⟩
      · exfalso
        by_cases h0 : f.header.nRecords = 0
        · rw [h0] at h6; omega
        · have := g3 (f.header.nRecords - 1) (by omega)
          unfold itemAt at this
          have e1 : (f.header.nRecords - 1 + 1) * size = f.header.nRecords * size := by congr 1; omega
          rw [e1, h4, if_neg (by omega)] at this
          cases this
      · exact ⟨e, g1⟩
    · right
      refine ⟨h6, fun r hr => ?_⟩
      obtain ⟨hil, hei⟩ := encodeAll_item (fun v b hv => (henc v b hv).1) vs hit
      have hnr : f.header.nRecords = vs.length := Nat.eq_of_mul_eq_mul_right hpos (by rw [h7, hil])
      have hrl := congrArg List.length h8
      simp only [Src.rest, List.length_drop, List.length_append, h4] at hrl
      have hitem : ∀ i (hi : i < vs.length), itemAt dec f.src.data f.src.pos size i = some vs[i] := by
        intro i hi
        have hle : (i + 1) * size ≤ vs.length * size := Nat.mul_le_mul_right _ (by omega)
        have e1 : (i + 1) * size = i * size + size := by rw [Nat.add_mul, Nat.one_mul]
        have h8' : f.src.data.drop f.src.pos = items ++ rest := h8
        unfold itemAt
        rw [if_pos (by rw [h4]; omega), ← List.drop_drop, h8', List.drop_append_of_le_length (by omega),
          List.take_append_of_le_length (by simp; omega)]
        exact (henc _ _ (hei i hi)).2
      rcases C84_collect hr (by rw [h2]; exact hp) (by rw [h4]; exact h5) with ⟨vs', g1, g2, g3⟩ | ⟨e, g1, i, g2, g3⟩
      · rw [g1]
        congr 1
        apply List.ext_getElem (by omega)
        intro i hi hi'
        have a := g3 i hi
        rw [hitem i hi'] at a
        exact (Option.some.inj a).symm
      · rw [hitem i (by omega)] at g3; cases g3

/-! ### A user-defined type that meets the hypotheses -/

/-- The bytes of a level. -/
def levelBytes (v : Fin 10) : Option Bytes := some [UInt8.ofNat v.val]

theorem levelWriter_items : ∀ prog, levelWriter byteDType = .ok prog → WritesItems prog 1 levelBytes := by
  intro prog h
  rw [levelWriter_byte] at h
  cases h
  intro v
  exact ⟨rfl, rfl⟩

theorem levelBytes_levelOf (v : Fin 10) (b : Bytes) (h : levelBytes v = some b) : b.length = 1 ∧ levelOf b = some v := by
  have key : ∀ v : Fin 10, levelOf [UInt8.ofNat v.val] = some v := by decide +kernel
  cases h
  exact ⟨rfl, key v⟩

theorem levels_begun (hint : ShapeHint) (h : (match ((NpyWriter.beginWith ⟨false, 64, true⟩ levelWriter byteDType .c hint).exec ⟨[], 0, true⟩).1 with
    | .ok _ => true
    | _ => false) = true) : ∃ w s1, (NpyWriter.beginWith ⟨false, 64, true⟩ levelWriter byteDType .c hint).exec ⟨[], 0, true⟩ = (.ok w, s1) := by
  rcases hx : (NpyWriter.beginWith ⟨false, 64, true⟩ levelWriter byteDType .c hint).exec ⟨[], 0, true⟩ with ⟨(w | e | _), s1⟩
  · exact ⟨w, s1, rfl⟩
  · rw [hx] at h; cases h
  · rw [hx] at h; cases h

-- levels 3, 1, 4, written through a `BufWriter` of four bytes to a stream with any errors: what is left is never read as something else

/-- C86_unfinished: levels 3, 1, 4, and the process dies anywhere. -/
example (n : Nat) : Unreadable ⟨false, 64, true⟩ Py.parse
    ((NpyWriter.sessionWith ⟨false, 64, true⟩ levelWriter byteDType .c .oneD [3, 1, 4]).crash n ⟨[], 0, true⟩).data 0 := by
  obtain ⟨w, s1, hb⟩ := levels_begun .oneD (by decide +kernel)
  exact C86_unfinished (M' := ⟨false, 64, true⟩) (py := Py.parse) (s := ⟨[], 0, true⟩) levelWriter_items (fun _ _ h => h) rfl (by decide +kernel) (by simp) hb (by simp) n

/-- C86_left: a stream with any errors. -/
example (evs : List Ev) : LeftOver ⟨false, 64, true⟩ Py.parse
    (NpyWriter.saveWith ⟨false, 64, true⟩ shaky levelWriter byteDType .c .oneD [3, 1, 4] (⟨[], 0, true⟩, evs)).2.1.data 0 byteDType [3] .c 1 [3, 1, 4] := by
  obtain ⟨w, s1, hb⟩ := levels_begun .oneD (by decide +kernel)
  exact C86_left (M' := ⟨false, 64, true⟩) (py := Py.parse) (enc := levelBytes) (vs := [3, 1, 4]) (hint := .oneD) (o := .c) (s := ⟨[], 0, true⟩) (fun _ _ h => h) levelWriter_items
    (wf_of_parse (s := "|u1".toList) (by decide)) rfl (by intro n hn; cases hn; decide)
    (fun _ _ h => h) (by simp) (by simp) (by simp) (by decide +kernel) (by simp) trivial trivial (by decide +kernel) (by decide +kernel) (by simp) hb evs

/-- C86_transparent, C86_reported, C86_buffer_transparent: short writes and interruptions; any errors. -/
example := C86_transparent (M := ⟨false, 64, true⟩) (writer := levelWriter) byteDType .c .oneD [3, 1, 4] ⟨[], 0, true⟩ (evs := [.short 0, .interrupted]) (by simp)
example (evs : List Ev) := C86_reported (M := ⟨false, 64, true⟩) (writer := levelWriter) (d := byteDType) (o := .c) (hint := .oneD) (by simp) (vs := [3, 1, 4])
  (s := ⟨[], 0, true⟩) (fun _ => by decide +kernel) evs
example := C86_buffer_transparent (M := ⟨false, 64, true⟩) (writer := levelWriter) 16 byteDType .c .oneD [3, 1, 4] ⟨[], 0, true⟩ (evs := [.short 0, .interrupted])
  (by simp) (Prod.eta _).symm

def levelsSave (s : Sink) (evs : List Ev) : Res Unit × Sink × List Ev :=
  NpyWriter.saveWith ⟨false, 64, true⟩ shaky levelWriter byteDType .c .oneD [3, 1, 4] (s, evs)

def levelsBufSave (s : Sink) (evs : List Ev) : Res Unit × BufSink :=
  NpyWriter.saveWith ⟨false, 64, true⟩ (buffered 16) levelWriter byteDType .c .oneD [3, 1, 4] (fresh s evs)

/-- C86_success, C86_buffer_success. -/
example : ∃ s s' evs', levelsSave s [.short 0, .interrupted] = (.ok (), (s', evs')) ∧
    ∃ s2, NpyWriter.saveWith ⟨false, 64, true⟩ solid levelWriter byteDType .c .oneD [3, 1, 4] s = (.ok (), s2) ∧ s'.data = s2.data := by
  have h : (match (levelsSave ⟨[], 0, true⟩ [.short 0, .interrupted]).1 with | .ok () => true | _ => false) = true := by decide +kernel
  rcases hx : levelsSave ⟨[], 0, true⟩ [.short 0, .interrupted] with ⟨(⟨⟩ | e | _), s', evs'⟩
  · exact ⟨_, s', evs', hx, C86_success hx⟩
  · rw [hx] at h; cases h
  · rw [hx] at h; cases h

example : ∃ s b, levelsBufSave s [.short 0, .interrupted] = (.ok (), b) ∧
    ∃ s2, NpyWriter.saveWith ⟨false, 64, true⟩ solid levelWriter byteDType .c .oneD [3, 1, 4] s = (.ok (), s2) ∧ ∀ j, kept b j = s2.data := by
  have h : (match (levelsBufSave ⟨[], 0, true⟩ [.short 0, .interrupted]).1 with | .ok () => true | _ => false) = true := by decide +kernel
  rcases hx : levelsBufSave ⟨[], 0, true⟩ [.short 0, .interrupted] with ⟨(⟨⟩ | e | _), b⟩
  · exact ⟨_, b, hx, C86_buffer_success hx⟩
  · rw [hx] at h; cases h
  · rw [hx] at h; cases h

/-- C86_torn: the process dies while the header is completed. -/
example : ∃ (w' : NpyWriter (Fin 10)) (s2 : Sink), ∀ n, ∃ items, encodeAll levelBytes [3, 1, 4] = some items ∧
      (Unreadable ⟨false, 64, true⟩ Py.parse ((w'.finish_ ⟨false, 64, true⟩).crash n s2).data 0 ∨
       ∃ f, NpyFile.new ⟨false, 64, true⟩ Py.parse disk ⟨((w'.finish_ ⟨false, 64, true⟩).crash n s2).data, 0⟩ = (.ok f, f.src) ∧ f.header.dtype = byteDType ∧
         f.header.order = .c ∧ f.header.shape = [3] ∧ ∃ rest, f.src.rest = items ++ rest) := by
  obtain ⟨w, s1, hb⟩ := levels_begun .oneD (by decide +kernel)
  have h : (match ((NpyWriter.beginWith ⟨false, 64, true⟩ levelWriter byteDType .c .oneD).exec ⟨[], 0, true⟩) with
    | (.ok w, s1) => (match (w.extend ⟨false, 64, true⟩ solid [3, 1, 4] s1).1 with | .ok () => true | _ => false)
    | _ => false) = true := by decide +kernel
  rw [hb] at h
  rcases hx : w.extend ⟨false, 64, true⟩ solid [3, 1, 4] s1 with ⟨(⟨⟩ | e | _), w', s2⟩
  · exact ⟨w', s2, fun n => C86_torn (M' := ⟨false, 64, true⟩) (py := Py.parse) (enc := levelBytes) (vs := [3, 1, 4]) (hint := .oneD) (o := .c) (s := ⟨[], 0, true⟩)
      (fun _ _ h => h) levelWriter_items (wf_of_parse (s := "|u1".toList) (by decide)) rfl (by intro n hn; cases hn; decide)
      (fun _ _ h => h) rfl (by simp) (by simp) (by decide +kernel) (by simp) trivial trivial (by decide +kernel) hb hx n⟩
  · simp only [hx] at h; cases h
  · simp only [hx] at h; cases h

example (evs : List Ev) (j : Nat) :
    NeverWrongWith ⟨false, 64, true⟩ Py.parse levelReader
      (kept (NpyWriter.saveWith ⟨false, 64, true⟩ (buffered 4) levelWriter byteDType .c .oneD [3, 1, 4] (fresh ⟨[], 0, true⟩ evs)).2 j) 0 byteDType
      [3] .c [3, 1, 4] := by
  obtain ⟨w, s1, hb⟩ := levels_begun .oneD (by decide +kernel)
  refine C86_never_wrong (enc := levelBytes) (dec := levelOf) (items := [3, 1, 4]) (size := 1) (fun p hp => ?_) levelBytes_levelOf (by decide +kernel) (by decide) ?_
  · have : levelReader byteDType = .ok readLevel := rfl
    rw [this] at hp
    cases hp
    exact readLevel_decodes
  · exact C86_buffer_left (M' := ⟨false, 64, true⟩) (py := Py.parse) (vs := [3, 1, 4]) (hint := .oneD) (o := .c) (s := ⟨[], 0, true⟩) (fun _ _ h => h) levelWriter_items (wf_of_parse (s := "|u1".toList) (by decide)) rfl (by intro n hn; cases hn; decide)
      (fun _ _ h => h) (by simp) (by simp) (by simp) (by decide +kernel) (by simp) trivial trivial (by decide +kernel) (by decide +kernel) (by simp) hb 4 evs j

-- the same for a process that dies while it writes a file of known shape
example (n : Nat) : ∃ items, encodeAll levelBytes [3, 1, 4] = some items ∧
    LeftOver ⟨false, 64, true⟩ Py.parse ((NpyWriter.sessionWith ⟨false, 64, true⟩ levelWriter byteDType .c (.nd [3]) [3, 1, 4]).crash n ⟨[], 0, true⟩).data 0
      byteDType [3] .c 1 items := by
  obtain ⟨w, s1, hb⟩ := levels_begun (.nd [3]) (by decide +kernel)
  exact C86_nd (M' := ⟨false, 64, true⟩) (py := Py.parse) (vs := [3, 1, 4]) (dims := [3]) (o := .c) (s := ⟨[], 0, true⟩) (fun _ _ h => h) levelWriter_items (wf_of_parse (s := "|u1".toList) (by decide)) rfl (by decide) (by intro n hn; cases hn; decide)
    (by decide) (by decide) (by decide +kernel) (by simp) (by simp [levelBytes]) hb (by simp) n

end Npyz.Props
