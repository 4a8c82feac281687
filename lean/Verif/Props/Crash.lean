import Verif.Proofs.Torn2
import Verif.Props.Writer
/-!
C46, C47, C66: interrupted writers.

`NpyWriter.session` is the program that starts a writer and pushes values; `WProg.crash n` interrupts a
program after `n` bytes have been written.  The file is new, or is appended to something:
`s.data.length ≤ s.pos`.
-/
namespace Npyz.Props
open Npyz Spec Py

/-! ### C46 -/

/-- The interrupted session is the one the other theorems speak about: not interrupted, it leaves the
same file and the same writer as `begin` and a sequence of `push`es. -/
theorem C46_session {M : Machine} {t : Ty} {d : DType} {size : Nat} (hd : d.Wf) (hn : exactBytes d = some size) (hm : size ≤ M.isizeMax)
    {o : Order} {hint : ShapeHint} {vs : List t.Val} (hc : vs.length < 2 ^ 64) {s s1 s2 : Sink} {w w' : NpyWriter t.Val} {rs : List (Res Unit)}
    (hb : (NpyWriter.begin M t d o hint).exec s = (.ok w, s1)) (hp : w.pushAll M solid vs s1 = (rs, w', s2)) :
    (NpyWriter.session M t d o hint vs).exec s = (.ok w', s2) ∧
    ∃ total, ∀ n, total ≤ n → (NpyWriter.session M t d o hint vs).crash n s = s2 := by
  obtain ⟨hst, h0, hk, hs1⟩ := begin_ok hb
  have key : ∀ (vs : List t.Val) (w : NpyWriter t.Val) (s1 : Sink), t.writer M d = .ok w.prog → w.numItems + vs.length < 2 ^ 64 →
      (w.pushSession M vs).exec s1 = (.ok (w.pushAll M solid vs s1).2.1, (w.pushAll M solid vs s1).2.2) := by
    intro vs
    induction vs with
    | nil => intro w s1 _ _; rfl
    | cons v vs ih =>
      intro w s1 hw hc
      have hc' : w.numItems + (vs.length + 1) < 2 ^ 64 := hc
      have hp : ∃ b r, (w.prog v).Emits b r ∧ r ≠ .panic := by
        have hwr := writer_writes t hw hd hn hm v
        cases he : encode t d v with
        | none =>
          rw [he] at hwr
          obtain ⟨b, why, -, hx⟩ := hwr
          exact ⟨b, _, hx, by simp⟩
        | some b =>
          rw [he] at hwr
          exact ⟨b, _, hwr.2, by simp⟩
      obtain ⟨b, r, hb, hr⟩ := hp
      have e1 : w.push M solid v s1 = (r, { w with numItems := w.numItems + 1 }, s1.put b) := by
        unfold NpyWriter.push
        rw [counted_ok (by omega)]
        simp only [solid, hb.exec]
      unfold NpyWriter.pushSession NpyWriter.pushAll
      rw [counted_ok (by omega), WProg.exec_bind_of_ok (WProg.exec_lift _ _), WProg.exec_bind_of_ok ((catchErr_emits hb hr).exec s1),
        ih { w with numItems := w.numItems + 1 } _ hw (by simp only; omega), e1]
  have hex : (NpyWriter.session M t d o hint vs).exec s = (.ok w', s2) := by
    show (NpyWriter.begin M t d o hint >>= fun w => w.pushSession M vs).exec s = _
    rw [WProg.exec_bind_of_ok hb, key vs w s1 hst.prog (by omega), hp]
  refine ⟨hex, ?_⟩
  obtain ⟨bs, -, hcr⟩ := session_crash (vs := vs) hd hn hm hc hb
  obtain ⟨bs', w'', h1, h2⟩ := pushSession_emits hd hn hm vs w hst.prog (by omega)
  obtain ⟨bs2, hp2, -⟩ := pushAll_solid hd hn hm vs w hst.prog (by omega) s1
  refine ⟨(headerBytes (dictText d o hint) ++ bs).length, fun n hle => ?_⟩
  rw [hcr, List.take_of_length_le hle]
  have h3 := hcr ((headerBytes (dictText d o hint) ++ bs).length + (headerBytes (dictText d o hint) ++ bs').length)
  rw [List.take_of_length_le (by omega)] at h3
  rw [← h3]
  -- the program that is interrupted late enough is the whole program
  have late : ∀ {α : Type} (p : WProg α) (bs : Bytes) (r : Res α), p.Emits bs r → ∀ n, bs.length ≤ n → p.crash n s = (p.exec s).2 := by
    intro α p bs r he n hle
    rw [he.crash, he.exec, List.take_of_length_le hle]
  have hall : ∀ n, (headerBytes (dictText d o hint) ++ bs').length ≤ n → (NpyWriter.session M t d o hint vs).crash n s =
      ((NpyWriter.session M t d o hint vs).exec s).2 := by
    intro n hle
    have hk2 : ∀ st, (beginRest M (t.writer M) d o hint st).exec s = (.ok w, s1) → (beginRest M (t.writer M) d o hint st).Emits (headerBytes (dictText d o hint)) (.ok w) := by
      intro st h
      obtain ⟨x, r, hx⟩ := beginRest_straight M (t.writer M) d o hint st
      have he := hx.exec s
      rw [h, hs1] at he
      obtain rfl := (Prod.mk.inj he).1
      rwa [← Sink.put_inj (Prod.mk.inj he).2] at hx
    unfold NpyWriter.session NpyWriter.sessionWith
    have hb : (NpyWriter.beginWith M (t.writer M) d o hint).exec s = (.ok w, s1) := hb
    by_cases hh : hint.seeks = true
    · rw [begin_seeks hh, WProg.exec, if_pos (hk hh)] at hb
      rw [begin_seeks hh]
      show (WProg.tell fun n => beginRest M (t.writer M) d o hint (some n) >>= fun w => w.pushSession M vs).crash n s =
        ((WProg.tell fun n => beginRest M (t.writer M) d o hint (some n) >>= fun w => w.pushSession M vs).exec s).2
      rw [WProg.crash, if_pos (hk hh), WProg.exec, if_pos (hk hh)]
      exact late _ _ _ ((hk2 _ hb).bindOk h1) n hle
    · cases hint with
      | nd dims => exact late _ _ _ ((hk2 _ hb).bindOk h1) n hle
      | oneD => exact absurd rfl hh
      | twoD r => exact absurd rfl hh
  rw [hall _ (by omega), hex]

/-- C46: if writing a `begin_1d` or `begin_2d` file stops after any number of bytes before finishing,
opening what is there is an error, for every parser of Python literals that rejects the unfinished text. -/
theorem C46_unfinished {M M' : Machine} {py : PyParser} {t : Ty} {d : DType} {size : Nat} (hd : d.Wf) (hn : exactBytes d = some size)
    (hm : size ≤ M.isizeMax) {o : Order} (hpy : py.StrictAfter (dictPrefix d o)) {hint : ShapeHint} (hs : hint.seeks = true)
    (hmem : dictBytes d o hint + 76 ≤ M'.isizeMax) {vs : List t.Val} (hc : vs.length < 2 ^ 64) {s s1 : Sink} {w : NpyWriter t.Val}
    (hb : (NpyWriter.begin M t d o hint).exec s = (.ok w, s1)) (hfresh : s.data.length ≤ s.pos) (n : Nat) :
    Unreadable M' py ((NpyWriter.session M t d o hint vs).crash n s).data s.pos := by
  obtain ⟨bs, -, hcr⟩ := session_crash (vs := vs) hd hn hm hc hb
  obtain ⟨hst, -, -, -⟩ := begin_ok hb
  have hl := headerBytes_le d o hint
  have hfits := hst.hdrFits
  have hht : (headerText (dictText d o hint)).length ≤ M'.isizeMax := by
    rw [headerBytes_length] at hl; omega
  rw [hcr]
  have hdrop := Sink.put_fresh hfresh ((headerBytes (dictText d o hint) ++ bs).take n)
  by_cases hlt : n < (headerBytes (dictText d o hint)).length
  · rw [List.take_append_of_le_length (by omega)] at hdrop ⊢
    obtain ⟨e, he⟩ := run_headerBytes_cut (M := M') (py := py) hfits hht hlt
    exact ⟨e, new_err (by rw [hdrop]; exact he)⟩
  · rw [List.take_append, List.take_of_length_le (by omega)] at hdrop ⊢
    have hdt : dictText d o hint = dictPrefix d o ++ placeholder o hint := by rw [dictText_suffix hs, suffixText_filler]
    rw [hdt] at hfits hht
    obtain ⟨e, he⟩ := run_rejected (M := M') hpy (placeholder_chars o hint) (placeholder_rejected (isArray_false.mp hst.isArray) o hs)
      hfits hht (bs.take (n - (headerBytes (dictText d o hint)).length))
    exact ⟨e, new_err (by rw [hdrop, hdt]; rw [hdt] at he; exact he)⟩

theorem encodeAll_take {α : Type} {f : α → Option Bytes} {size : Nat} (hl : ∀ v b, f v = some b → b.length = size) (vs : List α)
    {data : Bytes} (h : encodeAll f vs = some data) (n : Nat) : encodeAll f (vs.take n) = some (data.take (n * size)) := by
  induction vs generalizing data n with
  | nil => cases h; simp [encodeAll]
  | cons v vs ih =>
    obtain ⟨b, bs, h1, h2, rfl⟩ := encodeAll_cons h
    cases n with
    | zero => simp [encodeAll]
    | succ n =>
      have := hl v b h1
      have e : (n + 1) * size - b.length = n * size := by rw [Nat.add_mul, Nat.one_mul]; omega
      rw [List.take_succ_cons, encodeAll, h1, ih h2 n, List.take_append, e, List.take_of_length_le (l := b) (by rw [Nat.add_mul]; omega)]
      rfl

/-- C46: if writing a `begin_nd` file stops after any number of bytes (before or after all items were
written), then opening what is there is an error, or reading its elements is an error, or all items of
the shape had been written and they are read back. -/
theorem C46_nd {M M' : Machine} (hM' : M'.Wf) {py : PyParser} (hpy : py.ExtendsRef) {t : Ty} {d : DType} {size : Nat} (hd : d.Wf)
    (hn : exactBytes d = some size) (hpos : 0 < size) (hm : size ≤ M.isizeMax) (hm' : size ≤ M'.isizeMax) (hf : AllFit M'.usizeLim d)
    (hp : ∃ p, t.reader M' d = .ok p) {o : Order} {dims : List Nat} (hdims : ∀ k ∈ dims, k < 2 ^ 64) (hprod : nonzeroProd dims < 2 ^ 64)
    (hmem : dictBytes d o (.nd dims) + 76 ≤ M'.isizeMax) {vs : List t.Val} (hc : vs.length < 2 ^ 64)
    (he : ∀ v ∈ vs, encode t d v ≠ none) {s s1 : Sink} {w : NpyWriter t.Val}
    (hb : (NpyWriter.begin M t d o (.nd dims)).exec s = (.ok w, s1)) (hfresh : s.data.length ≤ s.pos) (n : Nat) :
    Unreadable M' py ((NpyWriter.session M t d o (.nd dims) vs).crash n s).data s.pos ∨
    (∃ f, (NpyFile.new M' py disk ⟨((NpyWriter.session M t d o (.nd dims) vs).crash n s).data, s.pos⟩).1 = .ok f ∧
      ∃ e, (f.intoVec M' disk t).1 = .err e) ∨
    (dims.prod ≤ vs.length ∧ s1.pos + dims.prod * size ≤ s.pos + n ∧
      ReadsBack M' py t ((NpyWriter.session M t d o (.nd dims) vs).crash n s).data s.pos d dims o ((vs.take dims.prod).map (readBack t d))) := by
  obtain ⟨p, hp⟩ := hp
  obtain ⟨bs, hbs, hcr⟩ := session_crash (vs := vs) hd hn hm hc hb
  obtain ⟨hst, -, -, hs1⟩ := begin_ok hb
  obtain ⟨items, hit⟩ : ∃ items, encodeAll (encode t d) vs = some items := by
    cases hi : encodeAll (encode t d) vs with
    | none => obtain ⟨v, hv, h⟩ := (encodeAll_none vs).mp hi; exact absurd h (he v hv)
    | some items => exact ⟨items, rfl⟩
  obtain rfl := hbs _ hit
  have hl := headerBytes_le d o (.nd dims)
  have hfits := hst.hdrFits
  have hel := encode_length hd hn hm hst.prog
  have hil := (encodeAll_item hel vs hit).1
  have hs1p : s1.pos = s.pos + (headerBytes (dictText d o (.nd dims))).length := by rw [hs1]; simp
  rw [hcr]
  have hdrop := Sink.put_fresh hfresh ((headerBytes (dictText d o (.nd dims)) ++ bs).take n)
  by_cases hlt : n < (headerBytes (dictText d o (.nd dims))).length
  · left
    rw [List.take_append_of_le_length (by omega)] at hdrop ⊢
    obtain ⟨e, he⟩ := run_headerBytes_cut (M := M') (py := py) hfits (by rw [headerBytes_length] at hl; omega) hlt
    exact ⟨e, new_err (by rw [hdrop]; exact he)⟩
  · right
    rw [List.take_append, List.take_of_length_le (l := headerBytes _) (by omega)] at hdrop ⊢
    generalize hx : bs.take (n - (headerBytes (dictText d o (.nd dims))).length) = X at hdrop ⊢
    have hXl : X.length ≤ n - (headerBytes (dictText d o (.nd dims))).length ∧ X.length ≤ bs.length := by rw [← hx]; simp; omega
    have hno : ¬ HasObject d := fun h => by have := (exactBytes_none_iff d).mpr h; rw [hn] at this; cases this
    have hrun := run_final (hint := .nd dims) (n := vs.length) (o := o) hpy hst.isArray hd hc hdims hfits hmem
    have hfd : finalDict d o (.nd dims) vs.length = dictText d o (.nd dims) := rfl
    rw [fromParts_eq (shape := finalShape o vs.length (.nd dims)) (o := o) hprod (itemSizeOf_ok_iff.mpr (.inr ⟨hno, hf, size, hn, rfl⟩)), hfd] at hrun
    have hpk : d.usesPickled = false := by
      cases h : d.usesPickled with
      | false => rfl
      | true => exact absurd ((usesPickled_iff d).mp h) hno
    have hne := headerBytes_ne_nil (dictText d o (.nd dims))
    by_cases hall : dims.prod * size ≤ X.length
    · right
      have hle : dims.prod ≤ vs.length := Nat.le_of_mul_le_mul_right (by omega : dims.prod * size ≤ vs.length * size) hpos
      refine ⟨hle, by omega, ?_⟩
      have ht := encodeAll_take hel vs hit dims.prod
      have hsplit : X = bs.take (dims.prod * size) ++ X.drop (dims.prod * size) := by
        rw [← hx] at hall ⊢
        have : (bs.take (n - (headerBytes (dictText d o (.nd dims))).length)).take (dims.prod * size) = bs.take (dims.prod * size) := by
          rw [List.take_take, Nat.min_eq_left]
          simp at hall; omega
        conv => lhs; rw [← List.take_append_drop (dims.prod * size) (bs.take _)]
        rw [this]
      refine readsBack_of (h := ⟨d, dims, exactStrides o dims, o, dims.prod, some size, d.usesPickled⟩) hM' hp hn hm' hrun rfl ?_ rfl hpk ht
        hne (rest := X.drop (dims.prod * size)) ?_
      · simp; omega
      · rw [hdrop, List.append_assoc, ← hsplit]
    · left
      have hle : s.pos ≤ (s.put (headerBytes (dictText d o (.nd dims)) ++ X)).data.length := by
        rw [Sink.put_data _ (by simp [hne])]; simp [s.before_length]
      have hnew := new_ok (hrun X) hdrop hle
      refine ⟨_, by rw [hnew], ?_⟩
      have hdl := congrArg List.length hdrop
      simp only [List.length_drop, List.length_append] at hdl
      have hnil : 0 < (headerBytes (dictText d o (.nd dims))).length := List.length_pos_iff.mpr hne
      refine C21_truncated (f := ⟨_, ⟨_, _⟩⟩) ⟨py, _, _, hrun X⟩ rfl hm' ?_ ?_
      · simp only; omega
      · simp only
        show _ < _ + dims.prod * size
        omega

-- the assumptions about the parser can be met
example (x : Text) : (Py.parse).ExtendsRef ∧ (Py.parse).StrictAfter x := ⟨fun _ _ h => h, fun _ _ h => h⟩

/-- What an interrupted session leaves: the length of the file, and whether opening it is an error. -/
def leftBehind (hint : ShapeHint) (vs : List f64.Val) (n : Nat) : Nat × Bool :=
  let s := (NpyWriter.session ⟨false, 64, true⟩ f64 (.plain ⟨.little, .float, 8, none⟩) .c hint vs).crash n ⟨[], 0, true⟩
  (s.data.length, match (NpyFile.new ⟨false, 64, true⟩ Py.parse disk ⟨s.data, 0⟩).1 with
    | .err _ => true
    | _ => false)

/-- C46_session, C46_unfinished: a session that is interrupted anywhere. -/
example (n : Nat) : Unreadable ⟨false, 64, true⟩ Py.parse
    ((NpyWriter.session ⟨false, 64, true⟩ f64 (.plain ⟨.little, .float, 8, none⟩) .c .oneD ([1#64, 2#64] : List f64.Val)).crash n ⟨[], 0, true⟩).data 0 := by
  obtain ⟨w, s1, hb⟩ := f8_begun .c (hint := .oneD) trivial (f8_dict .oneD (.inl rfl) .c)
  exact C46_unfinished (M' := ⟨false, 64, true⟩) (s := ⟨[], 0, true⟩) f8_wf rfl (by decide) (fun _ _ h => h) rfl (by decide +kernel) (by decide) hb (by simp) n

example : ∃ (w' : NpyWriter f64.Val) (s2 : Sink),
    (NpyWriter.session ⟨false, 64, true⟩ f64 (.plain ⟨.little, .float, 8, none⟩) .c .oneD ([1#64, 2#64] : List f64.Val)).exec ⟨[], 0, true⟩ = (.ok w', s2) := by
  obtain ⟨w, s1, hb⟩ := f8_begun .c (hint := .oneD) trivial (f8_dict .oneD (.inl rfl) .c)
  rcases hp : w.pushAll ⟨false, 64, true⟩ solid ([1#64, 2#64] : List f64.Val) s1 with ⟨rs, w', s2⟩
  exact ⟨w', s2, (C46_session f8_wf rfl (by decide) (by decide) hb hp).1⟩

-- interrupted in the header, in the items and after them
example : leftBehind .oneD [1#64, 2#64] 100 = (100, true) := by decide +kernel
example : leftBehind .oneD [1#64, 2#64] 131 = (131, true) := by decide +kernel
example : leftBehind .oneD [1#64, 2#64] 200 = (144, true) := by decide +kernel
example : leftBehind (.nd [2]) [1#64, 2#64] 127 = (127, true) := by decide +kernel
example : leftBehind (.nd [2]) [1#64, 2#64] 131 = (131, false) := by decide +kernel

/-! ### C47 -/

/-- C47: if the rewrite of the header in `finish` of a `begin_1d` file stops after any number of bytes,
opening the file is an error, or the file is complete: it has the right dtype, order and shape and the
written values. -/
theorem C47_torn {M M' : Machine} (hM' : M'.Wf) {py : PyParser} (hpy : py.ExtendsRef) {t : Ty} {d : DType} {size : Nat} (hd : d.Wf)
    (hn : exactBytes d = some size) (hm : size ≤ M.isizeMax) (hm' : size ≤ M'.isizeMax) (hf : AllFit M'.usizeLim d)
    (hp : ∃ p, t.reader M' d = .ok p) {o : Order} (hst : py.StrictAfter (dictPrefix d o))
    (hmem : dictBytes d o .oneD + 76 ≤ M'.isizeMax) {vs : List t.Val} (hc : vs.length < 2 ^ 64) {s s1 s2 : Sink} {w w' : NpyWriter t.Val}
    (hpos : s.pos + dictBytes d o .oneD + 76 ≤ 2 ^ 64) (hb : (NpyWriter.begin M t d o .oneD).exec s = (.ok w, s1))
    (he : w.extend M solid vs s1 = (.ok (), w', s2)) (n : Nat) :
    Unreadable M' py ((w'.finish_ M).crash n s2).data s.pos ∨
    ReadsBack M' py t ((w'.finish_ M).crash n s2).data s.pos d [vs.length] o (vs.map (readBack t d)) := by
  obtain ⟨p, hp⟩ := hp
  obtain ⟨hw, h0, hk, hs1⟩ := begin_ok hb
  obtain ⟨items, hit⟩ := extend_solid_ok hd hn hm vs w hw.prog (by omega) s1 (by rw [he])
  rw [extend_solid hd hn hm vs w hw.prog (by omega) s1 hit, hs1, Sink.put_put, h0, Nat.zero_add] at he
  obtain ⟨hw', hs2⟩ := Prod.mk.inj (Prod.mk.inj he).2
  subst hw' hs2
  have hl := headerBytes_le d o .oneD
  have htorn := finish_torn (w := { w with numItems := vs.length }) rfl (hk rfl) (hw.count vs.length).toBegun (by omega) hc (by simp) trivial items n
  rw [htorn]
  have hax : vs.length < 2 ^ 64 := hc
  have hna := isArray_false.mp hw.isArray
  simp only [axisOf]
  have hdt : dictText d o .oneD = dictPrefix d o ++ placeholder o .oneD := by rw [dictText_suffix rfl, suffixText_filler]
  have hfits := hw.hdrFits
  have hht : (headerText (dictText d o .oneD)).length ≤ M'.isizeMax := by rw [headerBytes_length] at hl; omega
  rw [hdt, headerText_congr (placeholder_ascii o .oneD) (tornSuffix_ascii o .oneD vs.length n) (tornSuffix_length rfl hax n)] at hfits hht
  rw [usedProps_congr (placeholder_ascii o .oneD) (tornSuffix_ascii o .oneD vs.length n) (tornSuffix_length rfl hax n)] at hfits
  obtain ⟨k, hk⟩ := run_headerBytes_any (M := M') (py := py) hfits hht
  have hne := headerBytes_ne_nil (dictPrefix d o ++ tornSuffix o .oneD vs.length n)
  obtain ⟨rest, hdrop⟩ := Sink.put_drop s (headerBytes (dictPrefix d o ++ tornSuffix o .oneD vs.length n) ++ items) (by simp [hne])
  obtain ⟨hch, hpa⟩ := torn_oneD hna o hax n k
  rw [List.append_assoc] at hk
  rcases hpa with hpa | hpa
  · left
    rw [hst _ (fun c hc => isDigit_or (hch c hc)) hpa] at hk
    exact ⟨_, new_err (by rw [hdrop, List.append_assoc, hk]; rfl)⟩
  · right
    rw [hpy _ _ hpa] at hk
    have hno : ¬ HasObject d := fun h => by have := (exactBytes_none_iff d).mpr h; rw [hn] at this; cases this
    have hpk : d.usesPickled = false := by
      cases h : d.usesPickled with
      | false => rfl
      | true => exact absurd ((usesPickled_iff d).mp h) hno
    obtain ⟨f1, f2⟩ := finalShape_fits (o := o) (n := vs.length) (hint := .oneD) trivial hc (by simp) (by simp)
    have hrun : ∀ rest, (NpyHeader.fromReader M' py).run (headerBytes (dictPrefix d o ++ tornSuffix o .oneD vs.length n) ++ rest) =
        (.ok ⟨d, [vs.length], exactStrides o [vs.length], o, [vs.length].prod, some size, d.usesPickled⟩, rest) := by
      intro rest
      have := interpretHeader_headerDict (M := M') hna hd o (dims := [vs.length]) f1
      rw [fromParts_eq (shape := [vs.length]) f2 (itemSizeOf_ok_iff.mpr (.inr ⟨hno, hf, size, hn, rfl⟩))] at this
      have hpr : ∀ v, (parseResult (some v) >>= interpretHeader M') = interpretHeader M' v := fun _ => rfl
      rw [hk, hpr]
      rw [List.map_cons, List.map_nil] at this
      rw [this]
    exact readsBack_of (h := ⟨d, [vs.length], exactStrides o [vs.length], o, [vs.length].prod, some size, d.usesPickled⟩)
      hM' hp hn hm' hrun rfl (by simp) rfl hpk hit hne hdrop

/-- What an interrupted `finish` leaves: the shape text, and the shape if the file can be opened. -/
def tornFile (vs : List f64.Val) (n : Nat) : Text × Option (List Nat) :=
  match (NpyWriter.begin ⟨false, 64, true⟩ f64 (.plain ⟨.little, .float, 8, none⟩) .c .oneD).exec ⟨[], 0, true⟩ with
  | (.ok w, s1) =>
    match w.extend ⟨false, 64, true⟩ solid vs s1 with
    | (.ok (), w', s2) =>
      let s := (w'.finish_ ⟨false, 64, true⟩).crash n s2
      (((s.data.drop 60).take 30).map fun b => Char.ofNat b.toNat, match (NpyFile.new ⟨false, 64, true⟩ Py.parse disk ⟨s.data, 0⟩).1 with
        | .ok f => some f.header.shape
        | _ => none)
    | _ => ([], none)
  | _ => ([], none)

-- two items: the rewrite stops after 3 characters, after 24 and at the end
example : tornFile [1#64, 2#64] 3 = (txt "(2,)*****************,), }    ", none) := by decide +kernel
example : tornFile [1#64, 2#64] 24 = (txt "(2,), }                  }    ", none) := by decide +kernel
example : tornFile [1#64, 2#64] 25 = (txt "(2,), }                       ", some [2]) := by decide +kernel

/-! ### C66 -/

/-- The two axes as printed. -/
theorem digits_sum {n r : Nat} (hr : r ≠ 0) (hd : r ∣ n) (hn : n < 10 ^ 16) (hr' : r < 10 ^ 16) :
    (Nat.toDigits 10 (n / r)).length + (Nat.toDigits 10 r).length ≤ 17 := by
  obtain ⟨m, rfl⟩ := hd
  rw [Nat.mul_div_cancel_left m (by omega)]
  have hb : (Nat.toDigits 10 r).length ≤ 16 := (Nat.length_toDigits_le_iff (by decide) (by decide)).mpr hr'
  by_cases hm : m = 0
  · subst hm
    have : (Nat.toDigits 10 0).length = 1 := by decide
    omega
  · have low : ∀ x : Nat, x ≠ 0 → 10 ^ ((Nat.toDigits 10 x).length - 1) ≤ x := by
      intro x hx
      by_cases h1 : (Nat.toDigits 10 x).length - 1 = 0
      · rw [h1]; omega
      · apply Nat.le_of_not_lt
        intro h
        have := (Nat.length_toDigits_le_iff (b := 10) (by decide) (by omega)).mpr h
        omega
    have h1 := Nat.mul_le_mul (low r hr) (low m hm)
    rw [← Nat.pow_add] at h1
    have h2 : 10 ^ ((Nat.toDigits 10 r).length - 1 + ((Nat.toDigits 10 m).length - 1)) < 10 ^ 16 := by omega
    have := (Nat.pow_lt_pow_iff_right (a := 10) (by decide)).mp h2
    omega

/-- C66: if the rewrite of the header in `finish` of a `begin_2d` file stops after any number of bytes,
opening the file is an error, or the file is complete.  In Fortran order this holds always, in C order if
both the number of items and the record length are below 10^16. -/
theorem C66_torn {M M' : Machine} (hM' : M'.Wf) {py : PyParser} (hpy : py.ExtendsRef) {t : Ty} {d : DType} {size : Nat} (hd : d.Wf)
    (hn : exactBytes d = some size) (hm : size ≤ M.isizeMax) (hm' : size ≤ M'.isizeMax) (hf : AllFit M'.usizeLim d)
    (hp : ∃ p, t.reader M' d = .ok p) {o : Order} (hst : py.StrictAfter (dictPrefix d o)) {r : Nat} (hr : r ≠ 0) (hr64 : r < 2 ^ 64)
    (hmem : dictBytes d o (.twoD r) + 76 ≤ M'.isizeMax) {vs : List t.Val} (hc : vs.length < 2 ^ 64) (hdvd : r ∣ vs.length)
    (hsmall : o = .fortran ∨ (vs.length < 10 ^ 16 ∧ r < 10 ^ 16)) {s s1 s2 : Sink} {w w' : NpyWriter t.Val}
    (hpos : s.pos + dictBytes d o (.twoD r) + 76 ≤ 2 ^ 64) (hb : (NpyWriter.begin M t d o (.twoD r)).exec s = (.ok w, s1))
    (he : w.extend M solid vs s1 = (.ok (), w', s2)) (n : Nat) :
    Unreadable M' py ((w'.finish_ M).crash n s2).data s.pos ∨
    ReadsBack M' py t ((w'.finish_ M).crash n s2).data s.pos d (finalShape o vs.length (.twoD r)) o (vs.map (readBack t d)) := by
  obtain ⟨p, hp⟩ := hp
  obtain ⟨hw, h0, hk, hs1⟩ := begin_ok hb
  obtain ⟨items, hit⟩ := extend_solid_ok hd hn hm vs w hw.prog (by omega) s1 (by rw [he])
  rw [extend_solid hd hn hm vs w hw.prog (by omega) s1 hit, hs1, Sink.put_put, h0, Nat.zero_add] at he
  obtain ⟨hw', hs2⟩ := Prod.mk.inj (Prod.mk.inj he).2
  subst hw' hs2
  have hl := headerBytes_le d o (.twoD r)
  have htorn := finish_torn (w := { w with numItems := vs.length }) rfl (hk rfl) (hw.count vs.length).toBegun (by omega) hc (by simpa using hr) hdvd items n
  rw [htorn]
  have hax : vs.length / r < 2 ^ 64 := Nat.lt_of_le_of_lt (Nat.div_le_self _ _) hc
  have hna := isArray_false.mp hw.isArray
  simp only [axisOf]
  have hdt : dictText d o (.twoD r) = dictPrefix d o ++ placeholder o (.twoD r) := by rw [dictText_suffix rfl, suffixText_filler]
  have hfits := hw.hdrFits
  have hht : (headerText (dictText d o (.twoD r))).length ≤ M'.isizeMax := by rw [headerBytes_length] at hl; omega
  rw [hdt, headerText_congr (placeholder_ascii o (.twoD r)) (tornSuffix_ascii o (.twoD r) (vs.length / r) n) (tornSuffix_length rfl hax n)] at hfits hht
  rw [usedProps_congr (placeholder_ascii o (.twoD r)) (tornSuffix_ascii o (.twoD r) (vs.length / r) n) (tornSuffix_length rfl hax n)] at hfits
  obtain ⟨k, hk⟩ := run_headerBytes_any (M := M') (py := py) hfits hht
  have hne := headerBytes_ne_nil (dictPrefix d o ++ tornSuffix o (.twoD r) (vs.length / r) n)
  obtain ⟨rest, hdrop⟩ := Sink.put_drop s (headerBytes (dictPrefix d o ++ tornSuffix o (.twoD r) (vs.length / r) n) ++ items) (by simp [hne])
  have hch := tornSuffix_shape o r (vs.length / r) n k
  have hpa : Py.parse (dictPrefix d o ++ (tornSuffix o (.twoD r) (vs.length / r) n ++ List.replicate k ' ')) = none ∨
      Py.parse (dictPrefix d o ++ (tornSuffix o (.twoD r) (vs.length / r) n ++ List.replicate k ' ')) =
        some (.dict (headerDict d o ((finalShape o vs.length (.twoD r)).map fun (x : Nat) => PyVal.int x))) := by
    cases o with
    | fortran => exact (torn_fortran r hax n k).parse hna _
    | c =>
      rcases hsmall with h | ⟨h1, h2⟩
      · cases h
      · exact (torn_c (digits_sum hr hdvd h1 h2) n k).parse hna _
  rw [List.append_assoc] at hk
  rcases hpa with hpa | hpa
  · left
    rw [hst _ (fun c hc => isDigit_or (hch c hc)) hpa] at hk
    exact ⟨_, new_err (by rw [hdrop, List.append_assoc, hk]; rfl)⟩
  · right
    rw [hpy _ _ hpa] at hk
    have hno : ¬ HasObject d := fun h => by have := (exactBytes_none_iff d).mpr h; rw [hn] at this; cases this
    have hpk : d.usesPickled = false := by
      cases h : d.usesPickled with
      | false => rfl
      | true => exact absurd ((usesPickled_iff d).mp h) hno
    obtain ⟨f1, f2⟩ := finalShape_fits (o := o) (n := vs.length) (hint := .twoD r) hdvd hc (by simp) (by intro r' e; cases e; exact hr64)
    have hprod := finalShape_prod (o := o) (n := vs.length) (hint := .twoD r) hdvd
    generalize finalShape o vs.length (.twoD r) = shape at *
    have hrun : ∀ rest, (NpyHeader.fromReader M' py).run (headerBytes (dictPrefix d o ++ tornSuffix o (.twoD r) (vs.length / r) n) ++ rest) =
        (.ok ⟨d, shape, exactStrides o shape, o, shape.prod, some size, d.usesPickled⟩, rest) := by
      intro rest
      have := interpretHeader_headerDict (M := M') hna hd o (dims := shape) f1
      rw [fromParts_eq (shape := shape) f2 (itemSizeOf_ok_iff.mpr (.inr ⟨hno, hf, size, hn, rfl⟩))] at this
      have hpr : ∀ v, (parseResult (some v) >>= interpretHeader M') = interpretHeader M' v := fun _ => rfl
      rw [hk, hpr, this]
    exact readsBack_of (h := ⟨d, shape, exactStrides o shape, o, shape.prod, some size, d.usesPickled⟩)
      hM' hp hn hm' hrun rfl hprod rfl hpk hit hne hdrop

/-- What an interrupted `finish` of a `begin_2d` file leaves: the shape text, and the shape if the file can be opened. -/
def tornFile2 (o : Order) (r : Nat) (vs : List f64.Val) (n : Nat) : Text × Option (List Nat) :=
  match (NpyWriter.begin ⟨false, 64, true⟩ f64 (.plain ⟨.little, .float, 8, none⟩) o (.twoD r)).exec ⟨[], 0, true⟩ with
  | (.ok w, s1) =>
    match w.extend ⟨false, 64, true⟩ solid vs s1 with
    | (.ok (), w', s2) =>
      let s := (w'.finish_ ⟨false, 64, true⟩).crash n s2
      (((s.data.drop 60).take 29).map fun b => Char.ofNat b.toNat, match (NpyFile.new ⟨false, 64, true⟩ Py.parse disk ⟨s.data, 0⟩).1 with
        | .ok f => some f.header.shape
        | _ => none)
    | _ => ([], none)
  | _ => ([], none)

-- four items, records of two
example : tornFile2 .c 2 [1#64, 2#64, 3#64, 4#64] 4 = (txt "(2, 2****************, 2), } ", none) := by decide +kernel
example : tornFile2 .c 2 [1#64, 2#64, 3#64, 4#64] 20 = (txt "(2, 2), }            , 2), } ", none) := by decide +kernel
example : tornFile2 .c 2 [1#64, 2#64, 3#64, 4#64] 27 = (txt "(2, 2), }                    ", some [2, 2]) := by decide +kernel

/-- The limit in C66 is there for a reason: in C order, if `finish` of a file with `10^16` records of one item
is interrupted after 20 bytes, the header is accepted with a different shape. -/
theorem C66_limit : ((placeholder .c (.twoD 1)).take 20 = List.replicate 20 '*') ∧
    Py.parse (txt "{'descr': '<f8', 'fortran_order': False, 'shape': (" ++ ((txt "10000000000000000, 1), }   ").take 20 ++ (placeholder .c (.twoD 1)).drop 20)) ≠ none ∧
    txt "10000000000000000, 1), }   " = Nat.toDigits 10 (10 ^ 16) ++ txt ", 1), }" ++ List.replicate 3 ' ' ∧
    (txt "10000000000000000, 1), }   ").take 20 ++ (placeholder .c (.twoD 1)).drop 20 = txt "10000000000000000, 1, 1), }" := by
  refine ⟨by decide +kernel, ?_, by decide +kernel, by decide +kernel⟩
  have : (Py.parse (txt "{'descr': '<f8', 'fortran_order': False, 'shape': (" ++ ((txt "10000000000000000, 1), }   ").take 20 ++ (placeholder .c (.twoD 1)).drop 20))).isSome = true := by
    decide +kernel
  intro h; rw [h] at this; cases this

end Npyz.Props
