import Verif.Proofs.Torn
/-! Interrupted writers. -/
namespace Npyz
open Spec Py

/-! ### Programs that only write -/

/-- The program does nothing but write. -/
def Straight {α : Type} (p : WProg α) : Prop := ∃ bs r, p.Emits bs r

theorem Straight.lift {α : Type} (r : Res α) : Straight (WProg.lift r) := ⟨[], r, .ret r⟩
theorem Straight.put (b : Bytes) : Straight (WProg.put b) := ⟨b, _, .put b⟩

theorem WProg.Emits.bindPanic {α β : Type} {p : WProg α} {f : α → WProg β} {bs : Bytes} (hp : p.Emits bs .panic) :
    (p >>= f).Emits bs .panic := by
  generalize ho : (Out.panic : Res α) = o at hp
  induction hp with
  | ret r => subst ho; exact .ret _
  | write _ ih => exact .write (ih ho)

theorem Straight.bind {α β : Type} {p : WProg α} {f : α → WProg β} (hp : Straight p) (hf : ∀ a, Straight (f a)) : Straight (p >>= f) := by
  obtain ⟨bs, r, h⟩ := hp
  rcases r with a | e | _
  · obtain ⟨bs', r', h'⟩ := hf a
    exact ⟨_, _, h.bindOk h'⟩
  · exact ⟨_, _, h.bindErr⟩
  · exact ⟨_, _, h.bindPanic⟩

theorem writeHeader_straight (M : Machine) (d : DType) (o : Order) (hint : ShapeHint) : Straight (writeHeader M d o hint) := by
  unfold writeHeader
  refine .bind (.lift _) fun _ => .bind (.lift _) fun dict => .bind (.lift _) fun padded => .bind (.put _) fun _ => .bind (.put _) fun _ =>
    .bind (.put _) fun _ => .bind (.lift _) fun _ => .bind ?_ fun _ => .bind (.put _) fun _ => ⟨[], _, .ret _⟩
  unfold writeHeaderLen
  cases padded.2.2.sizeType
  · exact .bind (.lift _) fun _ => .put _
  · exact .bind (.lift _) fun _ => .put _

theorem Sink.put_inj {s : Sink} {a b : Bytes} (h : s.put a = s.put b) : a = b := by
  have hl : a.length = b.length := by
    have := congrArg Sink.pos h
    simp at this; exact this
  by_cases ha : a = []
  · subst ha; exact (List.length_eq_zero_iff.mp (by simpa using hl.symm)).symm
  · have hb : b ≠ [] := by
      rintro rfl
      exact ha (List.length_eq_zero_iff.mp (by simpa using hl))
    have := congrArg Sink.data h
    rw [Sink.put_data _ ha, Sink.put_data _ hb, List.append_assoc, List.append_assoc] at this
    exact (List.append_inj (List.append_inj this rfl).2 hl).1

/-- What `begin` does after noting the position. -/
def beginRest {V : Type} (M : Machine) (wr : DType → DRes (V → WProg Unit)) (d : DType) (o : Order) (hint : ShapeHint) (start : Option Nat) :
    WProg (NpyWriter V) :=
  writeHeader M d o hint >>= fun r => WProg.lift (dtypeToIo (wr d)) >>= fun prog => pure ⟨start, r.1, 0, prog, r.2⟩

theorem begin_seeks {V : Type} {M : Machine} {wr : DType → DRes (V → WProg Unit)} {d : DType} {o : Order} {hint : ShapeHint} (h : hint.seeks = true) :
    NpyWriter.beginWith M wr d o hint = .tell fun n => beginRest M wr d o hint (some n) := by
  cases hint with
  | nd => cases h
  | oneD => rfl
  | twoD r => rfl

theorem begin_nd {V : Type} {M : Machine} {wr : DType → DRes (V → WProg Unit)} {d : DType} {o : Order} {dims : List Nat} :
    NpyWriter.beginWith M wr d o (.nd dims) = beginRest M wr d o (.nd dims) none := rfl

theorem beginRest_straight {V : Type} (M : Machine) (wr : DType → DRes (V → WProg Unit)) (d : DType) (o : Order) (hint : ShapeHint) (start : Option Nat) :
    Straight (beginRest M wr d o hint start) :=
  .bind (writeHeader_straight M d o hint) fun _ => .bind (.lift _) fun _ => ⟨[], _, .ret _⟩

theorem catchErr_emits {α : Type} {p : WProg α} {bs : Bytes} {r : Res α} (h : p.Emits bs r) (hr : r ≠ .panic) :
    p.catchErr.Emits bs (.ok r) := by
  induction h with
  | ret r =>
    rcases r with a | e | _
    · exact .ret _
    · exact .ret _
    · exact absurd rfl hr
  | write _ ih => exact .write (ih hr)

theorem pushSessionW {M : Machine} {V : Type} {size : Nat} {enc : V → Option Bytes}
    (vs : List V) (w : NpyWriter V) (hw : WritesAll w.prog size enc) (hc : w.numItems + vs.length < 2 ^ 64) :
    ∃ bs w', (w.pushSession M vs).Emits bs (.ok w') ∧ ∀ items, encodeAll enc vs = some items → bs = items := by
  induction vs generalizing w with
  | nil => exact ⟨[], w, .ret _, by intro items h; cases h; rfl⟩
  | cons v vs ih =>
    have hc' : w.numItems + (vs.length + 1) < 2 ^ 64 := hc
    obtain ⟨bs, w', h1, h2⟩ := ih { w with numItems := w.numItems + 1 } hw (by simp only; omega)
    have hp : ∃ b r, (w.prog v).Emits b r ∧ r ≠ .panic ∧ ∀ x, enc v = some x → b = x := by
      have hwr := hw v
      cases he : enc v with
      | none =>
        rw [he] at hwr
        obtain ⟨b, e, hx⟩ := hwr
        exact ⟨b, _, hx, by simp, by simp⟩
      | some b =>
        rw [he] at hwr
        exact ⟨b, _, hwr.2, by simp, by simp⟩
    obtain ⟨b, r, hb, hr, hx⟩ := hp
    refine ⟨b ++ bs, w', ?_, ?_⟩
    · unfold NpyWriter.pushSession
      rw [counted_ok (by omega)]
      exact WProg.Emits.bindOk (bs := []) (.ret _) ((catchErr_emits hb hr).bindOk h1)
    · intro items he
      obtain ⟨b', bs', e1, e2, rfl⟩ := encodeAll_cons he
      rw [hx _ e1, h2 _ e2]

theorem pushSession_emits {M : Machine} {t : Ty} {d : DType} {size : Nat} (hd : d.Wf) (hn : exactBytes d = some size) (hm : size ≤ M.isizeMax)
    (vs : List t.Val) (w : NpyWriter t.Val) (hw : t.writer M d = .ok w.prog) (hc : w.numItems + vs.length < 2 ^ 64) :
    ∃ bs w', (w.pushSession M vs).Emits bs (.ok w') ∧ ∀ items, encodeAll (encode t d) vs = some items → bs = items :=
  pushSessionW vs w (writer_writesAll hw hd hn hm) hc

/-- A session interrupted after `n` bytes leaves the first `n` bytes of header and items. -/
theorem sessionWith_crash {M : Machine} {V : Type} {wr : DType → DRes (V → WProg Unit)} {d : DType} {size : Nat} {enc : V → Option Bytes}
    (hw : ∀ prog, wr d = .ok prog → WritesAll prog size enc)
    {o : Order} {hint : ShapeHint} {vs : List V} (hc : vs.length < 2 ^ 64) {s s1 : Sink} {w : NpyWriter V}
    (hb : (NpyWriter.beginWith M wr d o hint).exec s = (.ok w, s1)) :
    ∃ bs, (∀ items, encodeAll enc vs = some items → bs = items) ∧
      ∀ n, (NpyWriter.sessionWith M wr d o hint vs).crash n s = s.put ((headerBytes (dictText d o hint) ++ bs).take n) := by
  obtain ⟨⟨-, hpr⟩, h0, hk, hs1⟩ := beginWith_ok hb
  obtain ⟨bs, w', h1, h2⟩ := pushSessionW vs w (hw _ hpr) (by omega)
  refine ⟨bs, h2, fun n => ?_⟩
  have key : ∀ st, (beginRest M wr d o hint st).exec s = (.ok w, s1) → (beginRest M wr d o hint st).Emits (headerBytes (dictText d o hint)) (.ok w) := by
    intro st h
    obtain ⟨x, r, hx⟩ := beginRest_straight M wr d o hint st
    have he := hx.exec s
    rw [h, hs1] at he
    obtain rfl := (Prod.mk.inj he).1
    rwa [← Sink.put_inj (Prod.mk.inj he).2] at hx
  unfold NpyWriter.sessionWith
  cases hint with
  | nd dims =>
    rw [begin_nd] at hb ⊢
    exact ((key _ hb).bindOk h1).crash s n
  | oneD =>
    rw [begin_seeks rfl, WProg.exec, if_pos (hk rfl)] at hb
    rw [begin_seeks rfl]
    show (WProg.tell fun n => beginRest M wr d o .oneD (some n) >>= fun w => w.pushSession M vs).crash n s = _
    rw [WProg.crash, if_pos (hk rfl)]
    exact ((key _ hb).bindOk h1).crash s n
  | twoD r =>
    rw [begin_seeks rfl, WProg.exec, if_pos (hk rfl)] at hb
    rw [begin_seeks rfl]
    show (WProg.tell fun n => beginRest M wr d o (.twoD r) (some n) >>= fun w => w.pushSession M vs).crash n s = _
    rw [WProg.crash, if_pos (hk rfl)]
    exact ((key _ hb).bindOk h1).crash s n

theorem session_crash {M : Machine} {t : Ty} {d : DType} {size : Nat} (hd : d.Wf) (hn : exactBytes d = some size) (hm : size ≤ M.isizeMax)
    {o : Order} {hint : ShapeHint} {vs : List t.Val} (hc : vs.length < 2 ^ 64) {s s1 : Sink} {w : NpyWriter t.Val}
    (hb : (NpyWriter.begin M t d o hint).exec s = (.ok w, s1)) :
    ∃ bs, (∀ items, encodeAll (encode t d) vs = some items → bs = items) ∧
      ∀ n, (NpyWriter.session M t d o hint vs).crash n s = s.put ((headerBytes (dictText d o hint) ++ bs).take n) :=
  sessionWith_crash (wr := t.writer M) (fun _ h => writer_writesAll h hd hn hm) hc hb

/-! ### Reading what is left -/

theorem new_err {M : Machine} {py : PyParser} {data : Bytes} {pos : Nat} {e : Err}
    (h : ((NpyHeader.fromReader M py).run (data.drop pos)).1 = .err e) : (NpyFile.new M py disk ⟨data, pos⟩).1 = .err e := by
  unfold NpyFile.new
  rcases hx : (NpyHeader.fromReader M py).run (data.drop pos) with ⟨r, rest⟩
  rw [hx] at h
  have : disk.exec (NpyHeader.fromReader M py) ⟨data, pos⟩ = (r, Src.leave ⟨data, pos⟩ rest) := by
    simp only [disk, Src.rest, hx]
  rw [this, show r = .err e from h]

theorem new_ok {M : Machine} {py : PyParser} {data : Bytes} {pos : Nat} {hdr rest : Bytes} {h : NpyHeader}
    (hrun : (NpyHeader.fromReader M py).run (hdr ++ rest) = (.ok h, rest)) (hdrop : data.drop pos = hdr ++ rest) (hp : pos ≤ data.length) :
    NpyFile.new M py disk ⟨data, pos⟩ = (.ok ⟨h, ⟨data, pos + hdr.length⟩⟩, ⟨data, pos + hdr.length⟩) := by
  have hl := congrArg List.length hdrop
  simp at hl
  unfold NpyFile.new
  have : disk.exec (NpyHeader.fromReader M py) ⟨data, pos⟩ = (.ok h, ⟨data, pos + hdr.length⟩) := by
    rw [← hdrop] at hrun
    simp only [disk, Src.rest, Src.leave, hrun]
    congr 2
    rw [List.length_drop]; omega
  rw [this]

/-- The bytes from the position on, in a fresh file. -/
theorem Sink.put_fresh {s : Sink} (h : s.data.length ≤ s.pos) (b : Bytes) : (s.put b).data.drop s.pos = b := by
  by_cases hb : b = []
  · subst hb; rw [Sink.put_nil, List.drop_eq_nil_of_le h]
  · rw [Sink.put_data _ hb, List.append_assoc, List.drop_left' s.before_length, List.drop_eq_nil_of_le (as := s.data) (by omega), List.append_nil]

theorem isDigit_or {c : Char} (h : c.isDigit = true ∨ Punct c) : c.isDigit = true ∨ c ∈ [',', ')', ' ', '}', '*'] := by
  rcases h with h | h
  · exact .inl h
  · right; simpa [Punct] using h

/-- Reading a header whose text the parser rejects. -/
theorem run_rejected {M : Machine} {py : PyParser} {start x : Text} (hpy : py.StrictAfter start)
    (hx : ∀ c ∈ x, c.isDigit = true ∨ Punct c)
    (hrej : ∀ k, parse (start ++ (x ++ List.replicate k ' ')) = none)
    (hlen : (headerText (start ++ x)).length ≤ (usedProps (encodeUtf8 (start ++ x))).maxLen)
    (ha : (headerText (start ++ x)).length ≤ M.isizeMax) (rest : Bytes) :
    ∃ e, ((NpyHeader.fromReader M py).run (headerBytes (start ++ x) ++ rest)).1 = .err e := by
  obtain ⟨k, hk⟩ := run_headerBytes_any (M := M) (py := py) hlen ha
  rw [hk, List.append_assoc, hpy _ ?_ (hrej k)]
  · exact ⟨_, rfl⟩
  · intro c hc
    rcases List.mem_append.mp hc with hc | hc
    · exact isDigit_or (hx c hc)
    · rw [List.mem_replicate] at hc
      rw [hc.2]; exact .inr (by decide)

theorem placeholder_chars (o : Order) (hint : ShapeHint) : ∀ c ∈ placeholder o hint, c.isDigit = true ∨ Punct c := by
  have h1 : ∀ c ∈ txt "********************,), }", c = ',' ∨ c = ')' ∨ c = ' ' ∨ c = '}' ∨ c = '*' := by decide +kernel
  have h2 : ∀ c ∈ txt "********************, ", c = ',' ∨ c = ')' ∨ c = ' ' ∨ c = '}' ∨ c = '*' := by decide +kernel
  have h3 : ∀ c ∈ txt "), }", c = ',' ∨ c = ')' ∨ c = ' ' ∨ c = '}' ∨ c = '*' := by decide +kernel
  have h4 : ∀ c ∈ txt ", ********************), }", c = ',' ∨ c = ')' ∨ c = ' ' ∨ c = '}' ∨ c = '*' := by decide +kernel
  have hd : ∀ r, ∀ c ∈ Nat.toDigits 10 r, c.isDigit = true := fun r c hc => Nat.isDigit_of_mem_toDigits (by decide) (by decide) hc
  intro c hc
  cases hint with
  | nd => cases hc
  | oneD => exact .inr (h1 c hc)
  | twoD r =>
    cases o
    · simp only [placeholder, List.mem_append] at hc
      rcases hc with (hc | hc) | hc
      · exact .inr (h2 c hc)
      · exact .inl (hd r c hc)
      · exact .inr (h3 c hc)
    · simp only [placeholder, List.mem_append] at hc
      rcases hc with hc | hc
      · exact .inl (hd r c hc)
      · exact .inr (h4 c hc)

/-- The placeholder is not a number. -/
theorem placeholder_rejected {d : DType} (hn : d.NotArray) (o : Order) {hint : ShapeHint} (hs : hint.seeks = true) (k : Nat) :
    parse (dictPrefix d o ++ (placeholder o hint ++ List.replicate k ' ')) = none := by
  have e1 : ∀ x : Text, txt "********************,), }" ++ x = [] ++ '*' :: (txt "*******************,), }" ++ x) := by intro x; rfl
  have e2 : ∀ x : Text, txt "********************, " ++ x = [] ++ '*' :: (txt "*******************, " ++ x) := by intro x; rfl
  have e3 : ∀ x : Text, txt ", ********************), }" ++ x = txt ", " ++ '*' :: (txt "*******************), }" ++ x) := by intro x; rfl
  cases hint with
  | nd => cases hs
  | oneD =>
    simp only [placeholder]
    rw [e1]
    exact parse_star hn o (by simp)
  | twoD r =>
    cases o
    · simp only [placeholder, List.append_assoc]
      rw [e2]
      exact parse_star hn _ (by simp)
    · simp only [placeholder, List.append_assoc]
      rw [e3]
      exact parse_star2 hn _ r _

/-! ### Torn rewrites -/

/-- The shape text when only the first `k` characters were rewritten. -/
def tornSuffix (o : Order) (hint : ShapeHint) (m k : Nat) : Text := (finishedSuffix o hint m).take k ++ (placeholder o hint).drop k

theorem tornSuffix_length {o : Order} {hint : ShapeHint} {m : Nat} (hs : hint.seeks = true) (hm : m < 2 ^ 64) (k : Nat) :
    (placeholder o hint).length = (tornSuffix o hint m k).length := by
  have := finishedSuffix_length (o := o) hs hm
  simp only [tornSuffix, List.length_append, List.length_take, List.length_drop]
  omega

theorem tornSuffix_ascii (o : Order) (hint : ShapeHint) (m k : Nat) : ∀ c ∈ tornSuffix o hint m k, c.toNat < 128 := by
  intro c hc
  rcases List.mem_append.mp hc with hc | hc
  · exact finishedSuffix_ascii o hint m c (List.mem_of_mem_take hc)
  · exact placeholder_ascii o hint c (List.mem_of_mem_drop hc)

theorem lift_ok_bind {α β : Type} (a : α) (f : α → WProg β) : (WProg.lift (.ok a) >>= f) = f a := rfl

/-- `finish` as a program. -/
theorem finish_prog {M : Machine} {V : Type} {d : DType} {o : Order} {hint : ShapeHint} {w : NpyWriter V} {p : Nat}
    (hs : hint.seeks = true) (hst : Begun M d o hint p w) (hlt : p + (headerBytes (dictText d o hint)).length ≤ 2 ^ 64)
    (hn : w.numItems < 2 ^ 64) (hz : hint ≠ .twoD 0) (hc : CountFits w.numItems hint) :
    w.finish_ M = .tell fun e => .seek (p + (usedProps (encodeUtf8 (dictText d o hint))).bytesBeforeText + (encodeUtf8 (dictPrefix d o)).length)
      (.write (encodeUtf8 (finishedSuffix o hint (axisOf w.numItems hint))) (.seek e (.flush (.ret (.ok ()))))) := by
  have hax : axisOf w.numItems hint < 2 ^ 64 := Nat.lt_of_le_of_lt (axisOf_le _ _) hn
  have hle := toDigits_length_le hax
  have hlt' : p + (usedProps (encodeUtf8 (dictText d o hint))).bytesBeforeText + (encodeUtf8 (dictPrefix d o)).length < 2 ^ 64 := by
    have hd : dictText d o hint = dictPrefix d o ++ placeholder o hint := by rw [dictText_suffix hs, suffixText_filler]
    obtain ⟨A, C, hA, h1, -⟩ := headerBytes_split (p := dictPrefix d o) (placeholder_ascii o hint) (placeholder_ascii o hint) rfl
    have hp := placeholder_ne_nil (o := o) hs
    rw [← hd] at hA h1
    rw [h1] at hlt
    simp only [List.length_append, encodeUtf8_length_ascii (placeholder_ascii o hint)] at hlt
    have : (placeholder o hint).length ≠ 0 := fun h => hp (List.length_eq_zero_iff.mp h)
    omega
  have hrw : ∀ text, w.rewrite M (encodeUtf8 (dictPrefix d o)).length (.ok text) = .tell fun e => .seek (p + (usedProps (encodeUtf8 (dictText d o hint))).bytesBeforeText + (encodeUtf8 (dictPrefix d o)).length)
      (.write (encodeUtf8 text) (.seek e (.ret (.ok ())))) := by
    intro text
    unfold NpyWriter.rewrite NpyWriter.unwrapStart
    have ha := addU64_ok (M := M) (a := p) (b := (usedProps (encodeUtf8 (dictText d o hint))).bytesBeforeText) (by omega)
    rw [hst.startPos hs, hst.props, lift_ok_bind, ha, lift_ok_bind, addU64_ok hlt', lift_ok_bind]
    rfl
  unfold NpyWriter.finish_ NpyWriter.patch
  cases hint with
  | nd => cases hs
  | oneD =>
    have hi : w.info = _ := hst.info
    rw [hi]
    have hle : (Nat.toDigits 10 w.numItems).length ≤ 20 := hle
    simp only [shapeSuffix1d, fillerPadding_ok hle, Out.bind_ok]
    rw [hrw]
    rfl
  | twoD r =>
    have hi : w.info = _ := hst.info
    have hr : r ≠ 0 := by rintro rfl; exact hz rfl
    have hc : r ∣ w.numItems := hc
    rw [hi]
    have hrows : NpyWriter.rows w.numItems r = .ok (w.numItems / r) := by
      unfold NpyWriter.rows
      rw [if_neg hr, if_neg (by simpa using Nat.mod_eq_zero_of_dvd hc)]
    simp only [hrows]
    show (w.rewrite M _ _ >>= _) = _
    have hle : (Nat.toDigits 10 (w.numItems / r)).length ≤ 20 := hle
    simp only [shapeSuffix2d, fillerPadding_ok hle, Out.bind_ok]
    rw [hrw]
    rfl

theorem overwrite_nil {data : Bytes} {pos : Nat} (h : pos ≤ data.length) : overwrite data pos [] = data := by
  unfold overwrite
  rw [Nat.sub_eq_zero_of_le h]
  simp

/-- Finishing interrupted after `n` bytes. -/
theorem finish_torn {M : Machine} {V : Type} {d : DType} {o : Order} {hint : ShapeHint} {w : NpyWriter V} {s : Sink}
    (hs : hint.seeks = true) (hk : s.seekable = true) (hst : Begun M d o hint s.pos w)
    (hlt : s.pos + (headerBytes (dictText d o hint)).length ≤ 2 ^ 64) (hn : w.numItems < 2 ^ 64) (hz : hint ≠ .twoD 0)
    (hc : CountFits w.numItems hint) (data : Bytes) (n : Nat) :
    ((w.finish_ M).crash n (s.put (headerBytes (dictText d o hint) ++ data))).data =
      (s.put (headerBytes (dictPrefix d o ++ tornSuffix o hint (axisOf w.numItems hint) n) ++ data)).data := by
  have hax : axisOf w.numItems hint < 2 ^ 64 := Nat.lt_of_le_of_lt (axisOf_le _ _) hn
  have hd : dictText d o hint = dictPrefix d o ++ placeholder o hint := by rw [dictText_suffix hs, suffixText_filler]
  generalize hm : axisOf w.numItems hint = m at *
  obtain ⟨A, C, hA, h1, h2⟩ := headerBytes_split (p := dictPrefix d o) (placeholder_ascii o hint) (tornSuffix_ascii o hint m n)
    (tornSuffix_length hs hax n)
  have hfl := finishedSuffix_length (o := o) hs hax
  have hL1 := encodeUtf8_length_ascii (placeholder_ascii o hint)
  have hL2 := encodeUtf8_length_ascii (finishedSuffix_ascii o hint m)
  -- both suffixes, as bytes
  have htorn : encodeUtf8 (tornSuffix o hint m n) = (encodeUtf8 (finishedSuffix o hint m)).take n ++ (encodeUtf8 (placeholder o hint)).drop n := by
    rw [encodeUtf8_ascii (tornSuffix_ascii o hint m n), encodeUtf8_ascii (finishedSuffix_ascii o hint m), encodeUtf8_ascii (placeholder_ascii o hint)]
    simp [tornSuffix, List.map_take, List.map_drop]
  -- the data after a partial write of `x` bytes
  have hover : ∀ k, overwrite (s.put (headerBytes (dictText d o hint) ++ data)).data (s.pos + A.length) ((encodeUtf8 (finishedSuffix o hint m)).take k) =
      (s.put (A ++ ((encodeUtf8 (finishedSuffix o hint m)).take k ++ (encodeUtf8 (placeholder o hint)).drop k) ++ C ++ data)).data := by
    intro k
    by_cases hk0 : (encodeUtf8 (placeholder o hint)).take k = []
    · have hx : (encodeUtf8 (finishedSuffix o hint m)).take k = [] := by
        apply List.length_eq_zero_iff.mp
        have := congrArg List.length hk0
        simp only [List.length_take, List.length_nil] at this ⊢
        omega
      have hk1 : (encodeUtf8 (placeholder o hint)).drop k = encodeUtf8 (placeholder o hint) := by
        have := List.take_append_drop k (encodeUtf8 (placeholder o hint))
        rw [hk0] at this; simpa using this
      rw [hx, hk1, overwrite_nil]
      · rw [hd, h1]; simp
      · rw [Sink.put_data _ (by simp [headerBytes_ne_nil]), hd, h1]
        simp [s.before_length]
    · have e : headerBytes (dictText d o hint) ++ data = A ++ (encodeUtf8 (placeholder o hint)).take k ++ ((encodeUtf8 (placeholder o hint)).drop k ++ C ++ data) := by
        rw [hd, h1]
        calc A ++ encodeUtf8 (placeholder o hint) ++ C ++ data
            = A ++ ((encodeUtf8 (placeholder o hint)).take k ++ (encodeUtf8 (placeholder o hint)).drop k) ++ C ++ data := by rw [List.take_append_drop]
          _ = _ := by simp only [List.append_assoc]
      rw [e, overwrite_put s A _ ((encodeUtf8 (finishedSuffix o hint m)).take k) _ (by rw [List.length_take, List.length_take, hL1, hL2, hfl]) hk0]
      simp
  have hq : s.pos + (usedProps (encodeUtf8 (dictText d o hint))).bytesBeforeText + (encodeUtf8 (dictPrefix d o)).length = s.pos + A.length := by
    rw [hA, hd]; omega
  rw [finish_prog hs hst hlt hn hz hc, hm, h2, htorn, ← hover, WProg.crash, if_pos (by simp [hk]), WProg.crash, if_pos (by simp [hk]),
    WProg.crash, hq]
  -- writing at the seek target
  have hput : ∀ x : Bytes, (Sink.put { (s.put (headerBytes (dictText d o hint) ++ data)) with pos := s.pos + A.length } x).data =
      overwrite (s.put (headerBytes (dictText d o hint) ++ data)).data (s.pos + A.length) x := by
    intro x
    by_cases hx : x = []
    · subst hx
      rw [Sink.put_nil, overwrite_nil]
      rw [Sink.put_data _ (by simp [headerBytes_ne_nil]), hd, h1]
      simp [s.before_length]
    · rw [Sink.put_data_of_ne hx]
  by_cases hnn : n < (encodeUtf8 (finishedSuffix o hint m)).length
  · rw [if_pos hnn]
    exact hput _
  · rw [if_neg hnn, WProg.crash, if_pos (by simp [hk]), WProg.crash, WProg.crash, List.take_of_length_le (by omega)]
    exact hput _

/-- Reading a torn header of a one-dimensional file. -/
theorem torn_oneD {d : DType} (hn : d.NotArray) (o : Order) {m : Nat} (hm : m < 2 ^ 64) (n k : Nat) :
    (∀ c ∈ tornSuffix o .oneD m n ++ List.replicate k ' ', c.isDigit = true ∨ Punct c) ∧
    (parse (dictPrefix d o ++ (tornSuffix o .oneD m n ++ List.replicate k ' ')) = none ∨
     parse (dictPrefix d o ++ (tornSuffix o .oneD m n ++ List.replicate k ' ')) = some (.dict (headerDict d o [.int m]))) := by
  have hD : ∀ c ∈ Nat.toDigits 10 m, c.isDigit = true := fun c hc => Nat.isDigit_of_mem_toDigits (by decide) (by decide) hc
  have hP : ∀ c ∈ txt ",), }", c = ',' ∨ c = ')' ∨ c = ' ' ∨ c = '}' ∨ c = '*' := by decide +kernel
  have hpl : placeholder o .oneD = List.replicate 20 '*' ++ txt ",), }" := by
    have : txt "********************,), }" = List.replicate 20 '*' ++ txt ",), }" := by decide +kernel
    exact this
  have hrep : ∀ j, ∀ c ∈ List.replicate j ' ', Punct c := by
    intro j c hc; rw [List.mem_replicate] at hc; rw [hc.2]; simp [Punct]
  have hplc : ∀ c ∈ placeholder o .oneD, Punct c := by
    intro c hc
    rw [hpl] at hc
    rcases List.mem_append.mp hc with hc | hc
    · rw [List.mem_replicate] at hc; rw [hc.2]; simp [Punct]
    · exact hP c hc
  have hfs : finishedSuffix o .oneD m = Nat.toDigits 10 m ++ (txt ",), }" ++ List.replicate (20 - (Nat.toDigits 10 m).length) ' ') := by
    simp [finishedSuffix, suffixText]
  have htl : ∀ c ∈ txt ",), }" ++ List.replicate (20 - (Nat.toDigits 10 m).length) ' ', Punct c := by
    intro c hc
    rcases List.mem_append.mp hc with hc | hc
    · exact hP c hc
    · exact hrep _ c hc
  have hle := toDigits_length_le hm
  by_cases hlt : n < (Nat.toDigits 10 m).length
  · -- some digits are missing
    have e : tornSuffix o .oneD m n ++ List.replicate k ' ' = (Nat.toDigits 10 m).take n ++ '*' :: ((placeholder o .oneD).drop (n + 1) ++ List.replicate k ' ') := by
      have h1 : (placeholder o .oneD).drop n = '*' :: (placeholder o .oneD).drop (n + 1) := by
        have hl : n < (placeholder o .oneD).length := by rw [hpl]; simp; omega
        rw [List.drop_eq_getElem_cons hl]
        congr 1
        simp only [hpl]
        rw [List.getElem_append_left (by simp; omega)]
        exact List.getElem_replicate _
      rw [tornSuffix, h1, hfs, List.take_append_of_le_length (by omega)]
      simp
    rw [e]
    have hDt : ∀ c ∈ (Nat.toDigits 10 m).take n, c.isDigit = true := fun c hc => hD c (List.mem_of_mem_take hc)
    refine ⟨?_, .inl (parse_star hn o hDt)⟩
    intro c hc
    rcases List.mem_append.mp hc with hc | hc
    · exact .inl (hDt c hc)
    · right
      rcases List.mem_cons.mp hc with rfl | hc
      · simp [Punct]
      · rcases List.mem_append.mp hc with hc | hc
        · exact hplc c (List.mem_of_mem_drop hc)
        · exact hrep k c hc
  · -- all digits are there
    obtain ⟨R, hR, e⟩ : ∃ R, (∀ c ∈ R, Punct c) ∧ tornSuffix o .oneD m n ++ List.replicate k ' ' = Nat.toDigits 10 m ++ R := by
      refine ⟨(txt ",), }" ++ List.replicate (20 - (Nat.toDigits 10 m).length) ' ').take (n - (Nat.toDigits 10 m).length) ++ (placeholder o .oneD).drop n ++ List.replicate k ' ', ?_, ?_⟩
      · intro c hc
        rcases List.mem_append.mp hc with hc | hc
        · rcases List.mem_append.mp hc with hc | hc
          · exact htl c (List.mem_of_mem_take hc)
          · exact hplc c (List.mem_of_mem_drop hc)
        · exact hrep k c hc
      · rw [tornSuffix, hfs, List.take_append, List.take_of_length_le (by omega)]
        simp
    rw [e]
    refine ⟨?_, parse_punct hn o m hR⟩
    intro c hc
    rcases List.mem_append.mp hc with hc | hc
    · exact .inl (hD c hc)
    · exact .inr (hR c hc)

end Npyz
