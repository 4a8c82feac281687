import Verif.Proofs.Writer
import Verif.Props.Read
/-! Whole files: writing, finishing and reading back. -/
namespace Npyz
open Spec Py

/-! ### Items -/

theorem encodeAll_cons {α : Type} {f : α → Option Bytes} {v : α} {vs : List α} {data : Bytes} (h : encodeAll f (v :: vs) = some data) :
    ∃ b bs, f v = some b ∧ encodeAll f vs = some bs ∧ data = b ++ bs := by
  simp only [encodeAll] at h
  cases hf : f v with
  | none => rw [hf] at h; cases h
  | some b =>
    cases hs : encodeAll f vs with
    | none => rw [hf, hs] at h; cases h
    | some bs => rw [hf, hs] at h; cases h; exact ⟨b, bs, rfl, rfl, rfl⟩

theorem encodeAll_item {α : Type} {f : α → Option Bytes} {size : Nat} (hl : ∀ v b, f v = some b → b.length = size) (vs : List α)
    {data : Bytes} (h : encodeAll f vs = some data) : data.length = vs.length * size ∧
      ∀ i (hi : i < vs.length), f vs[i] = some ((data.drop (i * size)).take size) := by
  induction vs generalizing data with
  | nil => cases h; simp
  | cons v vs ih =>
    obtain ⟨b, bs, h1, h2, rfl⟩ := encodeAll_cons h
    obtain ⟨h3, h4⟩ := ih h2
    have hb := hl v b h1
    refine ⟨by simp [h3, hb, Nat.succ_mul]; omega, fun i hi => ?_⟩
    cases i with
    | zero => simp [h1, ← hb]
    | succ i =>
      simp only [List.getElem_cons_succ]
      rw [h4 i (by simpa using hi), Nat.succ_mul, Nat.add_comm, ← List.drop_drop, List.drop_left' hb]

theorem encodeAll_none {α : Type} {f : α → Option Bytes} (vs : List α) : encodeAll f vs = none ↔ ∃ v ∈ vs, f v = none := by
  induction vs with
  | nil => simp [encodeAll]
  | cons v vs ih =>
    simp only [encodeAll, List.mem_cons]
    cases hf : f v with
    | none => simp [both]; exact .inl (by simp [hf])
    | some b =>
      cases hs : encodeAll f vs with
      | none => simp [both]; exact .inr (ih.mp hs)
      | some bs =>
        simp [both]
        refine ⟨by simp [hf], fun v hv hn => ?_⟩
        rw [ih.mpr ⟨v, hv, hn⟩] at hs; cases hs

/-- `extend` succeeds exactly if every value fits. -/
theorem extendW_ok {M : Machine} {V : Type} {size : Nat} {enc : V → Option Bytes}
    (vs : List V) (w : NpyWriter V) (hw : WritesAll w.prog size enc) (hc : w.numItems + vs.length < 2 ^ 64) (s : Sink)
    (h : (w.extend M solid vs s).1 = .ok ()) : ∃ data, encodeAll enc vs = some data := by
  induction vs generalizing w s with
  | nil => exact ⟨[], rfl⟩
  | cons v vs ih =>
    have hc' : w.numItems + (vs.length + 1) < 2 ^ 64 := hc
    obtain ⟨b, r, hp, hr⟩ := pushW (M := M) hw (by omega) v s
    unfold NpyWriter.extend at h
    rw [hp] at h
    rcases hr with ⟨he, rfl, -⟩ | ⟨he, why, rfl⟩
    · simp only at h
      obtain ⟨data, hda⟩ := ih { w with numItems := w.numItems + 1 } hw (by simp only; omega) _ h
      exact ⟨b ++ data, by simp [encodeAll, he, hda, both]⟩
    · cases h

theorem extend_solid_ok {M : Machine} {t : Ty} {d : DType} {n : Nat} (hd : d.Wf) (hn : exactBytes d = some n) (hm : n ≤ M.isizeMax)
    (vs : List t.Val) (w : NpyWriter t.Val) (hw : t.writer M d = .ok w.prog) (hc : w.numItems + vs.length < 2 ^ 64) (s : Sink)
    (h : (w.extend M solid vs s).1 = .ok ()) : ∃ data, encodeAll (encode t d) vs = some data :=
  extendW_ok vs w (writer_writesAll hw hd hn hm) hc s h

/-! ### Reading -/

theorem readsOn_of {M : Machine} (hM : M.Wf) {py : PyParser} {t : Ty} {d : DType} {size : Nat} {p : RProg t.Val}
    (hp : t.reader M d = .ok p) (hn : exactBytes d = some size) (hm : size ≤ M.isizeMax)
    {hdr : Bytes} {h : NpyHeader} (hrun : ∀ rest, (NpyHeader.fromReader M py).run (hdr ++ rest) = (.ok h, rest)) (hdt : h.dtype = d)
    {vs : List t.Val} (hnr : h.nRecords = vs.length) (hsz : h.itemSize = some size) (hpk : h.usesPickled = false) {items : Bytes}
    (he : encodeAll (encode t d) vs = some items) {data : Bytes} {pos : Nat} {rest : Bytes} (hne : hdr ≠ [])
    (hdrop : data.drop pos = hdr ++ items ++ rest) :
    ReadsOn M py t ⟨data, pos⟩ d h.shape h.order (vs.map (readBack t d)) ⟨data, pos + (hdr ++ items).length⟩ := by
  have hlt : pos < data.length := by
    apply Classical.byContradiction
    intro hge
    rw [List.drop_eq_nil_of_le (by omega)] at hdrop
    simp at hdrop
    exact hne hdrop.1
  have hlen : data.length = pos + hdr.length + items.length + rest.length := by
    have := congrArg List.length hdrop
    simp at this; omega
  have hc := ((reader_ok_iff hM t d).mp ⟨p, hp⟩).1
  obtain ⟨hil, hit⟩ := encodeAll_item (size := size) (fun v b hv => (encode_decode t d size v b hc hn hv).1) vs he
  have hnew : NpyFile.new M py disk ⟨data, pos⟩ = (.ok ⟨h, ⟨data, pos + hdr.length⟩⟩, ⟨data, pos + hdr.length⟩) := by
    unfold NpyFile.new
    have : disk.exec (NpyHeader.fromReader M py) ⟨data, pos⟩ = (.ok h, ⟨data, pos + hdr.length⟩) := by
      have hr := hrun (items ++ rest)
      rw [← List.append_assoc, ← hdrop] at hr
      simp only [disk, Src.rest, Src.leave, hr]
      congr 2
      rw [List.length_drop]; simp; omega
    rw [this]
  refine ⟨_, hnew, hdt, rfl, rfl, ?_⟩
  have hdrop2 : data.drop (pos + hdr.length) = items ++ rest := by
    rw [← List.drop_drop, hdrop, List.append_assoc, List.drop_left]
  have hel : ∀ i (hi : i < vs.length), elementAt t d data (pos + hdr.length) size i = some (readBack t d vs[i]) := by
    intro i hi
    have hle : (i + 1) * size ≤ vs.length * size := Nat.mul_le_mul_right _ (by omega)
    have e1 : (i + 1) * size = i * size + size := by rw [Nat.add_mul, Nat.one_mul]
    unfold elementAt itemAt
    rw [if_pos (by omega), ← List.drop_drop, hdrop2, List.drop_append_of_le_length (by omega),
      List.take_append_of_le_length (by simp; omega)]
    exact (encode_decode t d size vs[i] _ hc hn (hit i hi)).2
  have ho : Opened M h := ⟨py, hdr ++ [], [], hrun []⟩
  rcases Props.C21_into_vec (t := t) (f := ⟨h, ⟨data, pos + hdr.length⟩⟩) ho hsz hm (by simp only; omega) with
    ⟨ws, h1, h2, -, h4⟩ | ⟨e, h1, ⟨why, h2⟩ | ⟨i, h2, h3⟩⟩
  · rw [h1]
    simp only at h2 h4
    refine Prod.ext ?_ (by simp only [hnr, List.length_append, ← hil, Nat.add_assoc])
    show Out.ok ws = Out.ok _
    congr 1
    apply List.ext_getElem (by simp [h2, hnr])
    intro i hi hi'
    have a := h4 i hi
    rw [hdt, hel i (by simpa using hi')] at a
    simp only [Option.some.injEq] at a
    simp [a]
  · exfalso
    simp only [NpyFile.data, NpyFile.dataWith, NpyHeader.forbidPickle, hpk, hdt, hp] at h2
    cases h2
  · exfalso
    simp only at h2 h3
    rw [hdt, hel i (by omega)] at h3
    cases h3

theorem readsOn_back {M : Machine} {py : PyParser} {t : Ty} {data : Bytes} {pos : Nat} {d : DType} {shape : List Nat} {o : Order}
    {vs : List t.Val} {src' : Src} (h : ReadsOn M py t ⟨data, pos⟩ d shape o vs src') : ReadsBack M py t data pos d shape o vs := by
  obtain ⟨f, h1, h2, h3, h4, h5⟩ := h
  exact ⟨f, by rw [h1], h2, h3, h4, by rw [h5]⟩

theorem readsBack_of {M : Machine} (hM : M.Wf) {py : PyParser} {t : Ty} {d : DType} {size : Nat} {p : RProg t.Val}
    (hp : t.reader M d = .ok p) (hn : exactBytes d = some size) (hm : size ≤ M.isizeMax)
    {hdr : Bytes} {h : NpyHeader} (hrun : ∀ rest, (NpyHeader.fromReader M py).run (hdr ++ rest) = (.ok h, rest)) (hdt : h.dtype = d)
    {vs : List t.Val} (hnr : h.nRecords = vs.length) (hsz : h.itemSize = some size) (hpk : h.usesPickled = false) {items : Bytes}
    (he : encodeAll (encode t d) vs = some items) {data : Bytes} {pos : Nat} {rest : Bytes} (hne : hdr ≠ [])
    (hdrop : data.drop pos = hdr ++ items ++ rest) :
    ReadsBack M py t data pos d h.shape h.order (vs.map (readBack t d)) :=
  readsOn_back (readsOn_of hM hp hn hm hrun hdt hnr hsz hpk he hne hdrop)

/-- Reading a header the crate completed. -/
theorem run_finished {M : Machine} {py : PyParser} (hpy : py.ExtendsRef) {d : DType} (hna : d.NotArray) (hw : d.Wf) {o : Order}
    {hint : ShapeHint} (hs : hint.seeks = true) {n : Nat} (hax : axisOf n hint < 2 ^ 64) (hdims : ∀ k ∈ finalShape o n hint, k < 2 ^ 64)
    (hlen : (headerText (dictText d o hint)).length ≤ (usedProps (encodeUtf8 (dictText d o hint))).maxLen)
    (ha : (headerBytes (dictText d o hint)).length ≤ M.isizeMax) (rest : Bytes) :
    (NpyHeader.fromReader M py).run (headerBytes (finishedText d o hint (axisOf n hint)) ++ rest) =
      (NpyHeader.fromParts M d (finalShape o n hint) o, rest) := by
  have hd : dictText d o hint = dictPrefix d o ++ placeholder o hint := by rw [dictText_suffix hs, suffixText_filler]
  have hl1 := headerText_congr (p := dictPrefix d o) (finishedSuffix_ascii o hint (axisOf n hint)) (placeholder_ascii o hint)
    (finishedSuffix_length hs hax)
  have hl2 := usedProps_congr (p := dictPrefix d o) (finishedSuffix_ascii o hint (axisOf n hint)) (placeholder_ascii o hint)
    (finishedSuffix_length hs hax)
  rw [headerBytes_length] at ha
  rw [hd] at hlen ha
  rw [← hl1, ← hl2] at hlen
  rw [← hl1] at ha
  obtain ⟨k, hk⟩ := run_headerBytes_any (M := M) (py := py) (dict := finishedText d o hint (axisOf n hint)) hlen
    (by unfold finishedText; omega)
  rw [hk]
  congr 1
  have hp := parse_of_lit (lit_suffix hna o hs n) (20 - (Nat.toDigits 10 (axisOf n hint)).length + k)
  have e : finishedText d o hint (axisOf n hint) ++ List.replicate k ' ' = dictPrefix d o ++ suffixText o hint (Nat.toDigits 10 (axisOf n hint))
      ++ List.replicate (20 - (Nat.toDigits 10 (axisOf n hint)).length + k) ' ' := by
    simp [finishedText, finishedSuffix, ← List.replicate_append_replicate]
  rw [e, hpy _ _ hp]
  exact interpretHeader_headerDict hna hw o hdims

/-! ### Finishing twice -/

theorem overwrite_idem (data : Bytes) (pos : Nat) (b : Bytes) : overwrite (overwrite data pos b) pos b = overwrite data pos b := by
  unfold overwrite
  have hl := length_overwrite_head data pos
  generalize (data ++ List.replicate (pos - data.length) 0).take pos = hd at hl
  have h1 : (hd ++ b ++ data.drop (pos + b.length)).length ≥ pos := by simp; omega
  rw [Nat.sub_eq_zero_of_le h1, List.replicate_zero, List.append_nil, List.drop_left' (by simp [hl]), List.append_assoc hd b _,
    List.take_left' hl, List.append_assoc]

/-- What a rewrite does to any stream. -/
theorem rewrite_cases {M : Machine} {V : Type} (w : NpyWriter V) (offset : Nat) (text : Text) :
    (∀ s, (w.rewrite M offset (.ok text)).exec s = (.panic, s)) ∨
    (∃ q, ∀ s : Sink, (w.rewrite M offset (.ok text)).exec s = if s.seekable = true then
      (.ok (), if encodeUtf8 text = [] then s else { s with data := overwrite s.data q (encodeUtf8 text) }) else (.panic, s)) := by
  unfold NpyWriter.rewrite NpyWriter.unwrapStart
  cases w.startPos with
  | none => left; intro s; rfl
  | some p =>
    rcases addU64_np M p w.props.bytesBeforeText with ⟨a, ha⟩ | ha
    · rcases addU64_np M a offset with ⟨q, hq⟩ | hq
      · right
        refine ⟨q, fun s => ?_⟩
        rw [WProg.exec_bind_of_ok (WProg.exec_lift _ _), ha, WProg.exec_bind_of_ok (WProg.exec_lift _ _), hq,
          WProg.exec_bind_of_ok (WProg.exec_lift _ _)]
        by_cases hk : s.seekable = true
        · have h1 : WProg.position.exec s = (.ok s.pos, s) := by
            unfold WProg.position; rw [WProg.exec, if_pos hk]; rfl
          have h2 : ∀ (q : Nat) (s : Sink), s.seekable = true → (WProg.seekTo q).exec s = (.ok (), { s with pos := q }) := by
            intro q s hk
            unfold WProg.seekTo; rw [WProg.exec, if_pos hk]; rfl
          rw [WProg.exec_bind_of_ok h1, WProg.exec_bind_of_ok (h2 _ _ hk), WProg.exec_bind_of_ok (WProg.exec_lift _ _),
            WProg.exec_bind_of_ok (WProg.exec_put _ _), h2 _ _ (by simp [hk]), if_pos hk]
          unfold Sink.put
          by_cases hne : encodeUtf8 text = []
          · rw [if_pos hne, if_pos hne]
          · rw [if_neg hne, if_neg hne]
        · rw [if_neg hk]
          have h1 : WProg.position.exec s = (.panic, s) := by
            unfold WProg.position; rw [WProg.exec, if_neg hk]
          exact WProg.exec_bind_of_panic h1
      · left; intro s
        rw [WProg.exec_bind_of_ok (WProg.exec_lift _ _), ha, WProg.exec_bind_of_ok (WProg.exec_lift _ _), hq]
        exact WProg.exec_bind_of_panic (WProg.exec_lift _ _)
    · left; intro s
      rw [WProg.exec_bind_of_ok (WProg.exec_lift _ _), ha]
      exact WProg.exec_bind_of_panic (WProg.exec_lift _ _)

theorem rewrite_twice {M : Machine} {V : Type} (w : NpyWriter V) (offset : Nat) (text : Text) (s : Sink) :
    (w.rewrite M offset (.ok text)).exec ((w.rewrite M offset (.ok text)).exec s).2 = (w.rewrite M offset (.ok text)).exec s := by
  rcases rewrite_cases (M := M) w offset text with h | ⟨q, h⟩
  · rw [h s, h s]
  · rw [h s]
    by_cases hk : s.seekable = true
    · rw [if_pos hk]
      by_cases hne : encodeUtf8 text = []
      · rw [if_pos hne, h s, if_pos hk, if_pos hne]
      · rw [if_neg hne, h, if_pos hk, if_neg hne, overwrite_idem]
    · rw [if_neg hk, h, if_neg hk]

/-- Running `finish_` again changes nothing. -/
theorem finish_twice {M : Machine} {V : Type} (w : NpyWriter V) (hn : w.numItems < 2 ^ 64) (s : Sink) :
    (w.finish_ M).exec ((w.finish_ M).exec s).2 = (w.finish_ M).exec s := by
  have key : ∀ s, (w.finish_ M).exec s = (w.patch M).exec s := fun s => exec_flush rfl
  rw [key, key]
  unfold NpyWriter.patch
  cases w.info with
  | known n => rfl
  | auto1 off =>
    simp only [shapeSuffix1d, fillerPadding_ok (toDigits_length_le hn), Out.bind_ok]
    exact rewrite_twice w off _ s
  | auto2 off r o =>
    simp only
    cases hr : NpyWriter.rows w.numItems r with
    | ok m =>
      have hm : m < 2 ^ 64 := by
        unfold NpyWriter.rows at hr
        split at hr
        · cases hr
        · split at hr
          · cases hr
          · cases hr; exact Nat.lt_of_le_of_lt (Nat.div_le_self _ _) hn
      simp only [shapeSuffix2d]
      have e : ∀ s, (WProg.lift (.ok m) >>= fun n => w.rewrite M off
          (fillerPadding (Nat.toDigits 10 n).length >>= fun pad => .ok (axes2d o r (Nat.toDigits 10 n) ++ txt "), }" ++ pad))).exec s =
          (w.rewrite M off (.ok (axes2d o r (Nat.toDigits 10 m) ++ txt "), }" ++ List.replicate (20 - (Nat.toDigits 10 m).length) ' '))).exec s := by
        intro s
        rw [WProg.exec_bind_of_ok (WProg.exec_lift _ _), fillerPadding_ok (toDigits_length_le hm)]
        rfl
      rw [e, e]
      exact rewrite_twice w off _ s
    | err e => rfl
    | panic => rfl

theorem finish_eq {M : Machine} {V : Type} (w : NpyWriter V) (hn : w.numItems < 2 ^ 64) (s : Sink) :
    w.finish M solid s = (w.finish_ M).exec s ∧ (w.drop M solid s).2 = ((w.finish_ M).exec s).2 := by
  have h2 := finish_twice (M := M) w hn s
  constructor
  · unfold NpyWriter.finish NpyWriter.drop
    simp only [solid]
    rw [h2]
    rcases (w.finish_ M).exec s with ⟨(_ | _ | _), s'⟩ <;> rfl
  · unfold NpyWriter.drop
    simp only [solid]
    rcases (w.finish_ M).exec s with ⟨(_ | _ | _), s'⟩ <;> rfl

end Npyz
