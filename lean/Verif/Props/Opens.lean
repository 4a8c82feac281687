import Verif.Spec.Opens
import Verif.Proofs.Descr2
import Verif.Proofs.Numpy
import Verif.Props.Kinds
/-!
C128: exactly the well-formed files can be opened, and what is found in them is what they say.
-/
set_option autoImplicit false
namespace Npyz.Props
open Npyz.Spec

theorem body_of_parts {maj min : UInt8} {p : VersionProps} {szb text rest : Bytes} (hp : getVersionProps maj min = .ok p)
    (hw : szb.length = p.width) (hs : leNat szb = text.length) :
    headerBody (magic ++ [maj, min] ++ szb ++ text ++ rest) = text := by
  unfold headerBody
  have he := headerEnd_eq (r := text ++ rest) hp hw
  rw [← List.append_assoc] at he
  rw [he, hs]
  have h6 : (if byteAt (magic ++ [maj, min] ++ szb ++ text ++ rest) 6 = 1 then 10 else 12) = 8 + p.width := by
    rcases getVersionProps_ok_iff.mp hp with ⟨rfl, rfl, rfl⟩ | ⟨rfl, rfl, rfl⟩ | ⟨rfl, rfl, rfl⟩ <;>
      simp [byteAt, magic, VersionProps.width]
  have l1 : (magic ++ [maj, min] ++ szb).length = 8 + p.width := by simp [magic, hw]; omega
  rw [h6, List.take_left' (by rw [List.length_append, l1]), List.drop_left' l1]

theorem last_newline {text : Text} : (encodeUtf8 text).getLast? = some 10 ↔ text.getLast? = some '\n' := by
  rcases List.eq_nil_or_concat text with rfl | ⟨init, c, rfl⟩
  · simp [encodeUtf8]
  · rw [List.concat_eq_append, encodeUtf8_append, List.getLast?_append, List.getLast?_append]
    simp only [List.getLast?_singleton, Option.some_or, Option.some.injEq]
    constructor
    · intro h
      cases hl : (encodeUtf8 [c]).getLast? with
      | none =>
        have : encodeUtf8 [c] = [] := List.getLast?_eq_none_iff.mp hl
        have h2 := decodeUtf8_encode [c]
        rw [this] at h2
        exact absurd h2 (by simp [decodeUtf8, decodeUtf8Go])
      | some b =>
        rw [hl] at h
        simp at h
        subst h
        have := mem_encodeUtf8_newline (List.mem_of_getLast? hl)
        simp at this
        exact this.symm
    · rintro rfl
      rfl

theorem isLine_iff {bytes : Bytes} {text : Text} : IsLine bytes text ↔ decodeUtf8 (stripNewline bytes) = some text := by
  rw [decodeUtf8_eq_some_iff]
  unfold IsLine stripNewline
  constructor
  · rintro (rfl | ⟨rfl, h⟩)
    · simp
    · rw [if_neg (fun h' => h (last_newline.mp h'))]
  · split
    · rename_i hl
      intro h
      left
      rw [← h]
      obtain ⟨ys, rfl⟩ := List.getLast?_eq_some_iff.mp hl
      simp
    · rename_i hl
      rintro rfl
      exact .inr ⟨rfl, fun h => hl (last_newline.mpr h)⟩

theorem parse_iff {py : PyParser} {bytes : Bytes} {v : PyVal} :
    parseHeaderText py bytes = .ok v ↔ ∃ text, IsLine bytes text ∧ py text = some v := by
  unfold parseHeaderText
  simp only [isLine_iff]
  cases decodeUtf8 (stripNewline bytes) with
  | none => simp
  | some s =>
    simp only [Option.some.injEq, exists_eq_left']
    cases py s <;> simp [parseResult]

theorem finish_iff {M : Machine} {py : PyParser} {bs : Bytes} {h : NpyHeader} (hg : GoodPreamble bs) (hl : headerEnd bs ≤ bs.length) :
    finishHeader M py (headerBody bs) = .ok h ↔
      ∃ d shape o, IsNpy py bs d shape o ∧ NpyHeader.fromParts M d shape o = .ok h := by
  unfold finishHeader
  rw [Out.bind_eq_ok]
  constructor
  · rintro ⟨v, hv, hi⟩
    obtain ⟨text, ht, hp⟩ := parse_iff.mp hv
    cases v with
    | dict kvs =>
      obtain ⟨hk, b, vs, vd, shape, d, h1, h2, h3, h4, h5, h6⟩ := interpretHeader_ok_iff.mp hi
      refine ⟨d, shape, _, ⟨hg, hl, text, kvs, vs, vd, ht, hp, hk, ?_, h2, isShape_iff.mpr h4, h3, fromDescr_ok_iff.mp h5⟩, h6⟩
      cases b <;> exact h1
    | _ => simp [interpretHeader] at hi
  · rintro ⟨d, shape, o, ⟨-, -, text, kvs, vs, vd, ht, hp, hk, h1, h2, h4, h3, h5⟩, h6⟩
    refine ⟨.dict kvs, parse_iff.mpr ⟨text, ht, hp⟩, interpretHeader_ok_iff.mpr ⟨hk, _, vs, vd, shape, d, h1, h2, h3, isShape_iff.mp h4,
      fromDescr_ok_iff.mpr h5, ?_⟩⟩
    cases o <;> exact h6

theorem panic_says {M : Machine} {v : PyVal} (h : interpretHeader M v = .panic) :
    ∃ (kvs : List (PyVal × PyVal)) (b : Bool) (vs vd : PyVal) (shape : List Nat) (d : DType), v = .dict kvs ∧ StringKeys kvs ∧
      LastEntry "fortran_order" (.bool b) kvs ∧ LastEntry "shape" vs kvs ∧ LastEntry "descr" vd kvs ∧
      convertShape vs = .ok shape ∧ DType.fromDescr vd = .ok d := by
  cases v with
  | dict kvs =>
    simp only [interpretHeader] at h
    cases hd : stringKeys kvs with
    | panic => exact absurd hd stringKeys_ne_panic
    | err e => simp [hd] at h
    | ok d =>
      simp only [hd, Out.bind_ok, interpretDict] at h
      cases h1 : expectKey d (txt "fortran_order") with
      | panic => exact absurd h1 expectKey_ne_panic
      | err e => simp [h1] at h
      | ok fo =>
      simp only [h1, Out.bind_ok] at h
      cases h2 : orderFromVal fo with
      | panic => exact absurd h2 orderFromVal_ne_panic
      | err e => simp [h2] at h
      | ok o =>
      simp only [h2, Out.bind_ok] at h
      cases h3 : expectKey d (txt "shape") with
      | panic => exact absurd h3 expectKey_ne_panic
      | err e => simp [h3] at h
      | ok sh =>
      simp only [h3, Out.bind_ok] at h
      cases h4 : convertShape sh with
      | panic => exact absurd h4 convertShape_ne_panic
      | err e => simp [h4] at h
      | ok shape =>
      simp only [h4, Out.bind_ok] at h
      cases h5 : expectKey d (txt "descr") with
      | panic => exact absurd h5 expectKey_ne_panic
      | err e => simp [h5] at h
      | ok de =>
      simp only [h5, Out.bind_ok] at h
      cases h6 : DType.fromDescr de with
      | panic => exact absurd h6 (fromDescr_ne_panic _)
      | err e => simp [h6] at h
      | ok dt =>
      simp only [h6, Out.bind_ok] at h
      have key : ∀ {k : Text} {x : PyVal}, expectKey d k = .ok x → lookupLast k d = some x := by
        intro k x hk
        unfold expectKey at hk
        split at hk
        · cases hk; assumption
        · cases hk
      cases fo with
      | bool b =>
        refine ⟨kvs, b, sh, de, shape, dt, rfl, stringKeys_ok_iff.mp ⟨d, hd⟩, (lastEntry_lookup hd _ _).mp (key h1),
          (lastEntry_lookup hd _ _).mp (key h3), (lastEntry_lookup hd _ _).mp (key h5), h4, h6⟩
      | _ => simp [orderFromVal] at h2
  | _ => simp [interpretHeader] at h

theorem finish_panic {M : Machine} {py : PyParser} {bs : Bytes} (hg : GoodPreamble bs) (hl : headerEnd bs ≤ bs.length)
    (h : finishHeader M py (headerBody bs) = .panic) : ∃ d shape o, IsNpy py bs d shape o := by
  unfold finishHeader at h
  cases hp : parseHeaderText py (headerBody bs) with
  | panic => exact absurd hp parseHeaderText_ne_panic
  | err e => rw [hp] at h; cases h
  | ok v =>
    rw [hp] at h
    obtain ⟨text, ht, hv⟩ := parse_iff.mp hp
    obtain ⟨kvs, b, vs, vd, shape, d, rfl, hk, h1, h2, h3, h4, h5⟩ := panic_says (show interpretHeader M v = .panic from h)
    refine ⟨d, shape, if b then .fortran else .c, hg, hl, text, kvs, vs, vd, ht, hv, hk, ?_, h2, isShape_iff.mpr h4, h3,
      fromDescr_ok_iff.mp h5⟩
    cases b <;> exact h1

theorem finish_eq {M : Machine} {py : PyParser} {bs : Bytes} {d : DType} {shape : List Nat} {o : Order} (h : IsNpy py bs d shape o) :
    finishHeader M py (headerBody bs) = NpyHeader.fromParts M d shape o := by
  obtain ⟨-, -, text, kvs, vs, vd, ht, hp, hk, h1, h2, h4, h3, h5⟩ := h
  obtain ⟨e, he⟩ := stringKeys_ok_iff.mpr hk
  have key : ∀ {k : String} {x : PyVal}, LastEntry k x kvs → expectKey e (txt k) = .ok x := by
    intro k x hx
    unfold expectKey
    rw [show lookupLast (txt k) e = some x from (lastEntry_lookup he _ _).mpr hx]
  unfold finishHeader
  rw [parse_iff.mpr ⟨text, ht, hp⟩]
  simp only [Out.bind_ok, interpretHeader, he, interpretDict, key h1, key h2, key h3, orderFromVal, isShape_iff.mp h4,
    fromDescr_ok_iff.mpr h5]
  cases o <;> rfl

theorem lastEntry_unique {kvs : List (PyVal × PyVal)} (hk : StringKeys kvs) {k : String} {v w : PyVal} (h : LastEntry k v kvs)
    (h' : LastEntry k w kvs) : v = w := by
  obtain ⟨d, hd⟩ := stringKeys_ok_iff.mpr hk
  exact Option.some.inj (((lastEntry_lookup hd _ _).mpr h).symm.trans ((lastEntry_lookup hd _ _).mpr h'))

theorem fits_iff {M : Machine} {d : DType} : SizeFits M d ↔ ∃ sz, itemSizeOf M d = .ok sz := by
  unfold SizeFits
  constructor
  · intro h
    by_cases ho : HasObject d
    · exact ⟨none, itemSizeOf_ok_iff.mpr (.inl ⟨ho, rfl⟩)⟩
    · rcases h with h | h
      · exact absurd h ho
      · cases he : exactBytes d with
        | none => exact absurd ((exactBytes_none_iff d).mp he) ho
        | some n => exact ⟨some n, itemSizeOf_ok_iff.mpr (.inr ⟨ho, h, n, he, rfl⟩)⟩
  · rintro ⟨sz, h⟩
    rcases itemSizeOf_ok_iff.mp h with ⟨h, -⟩ | ⟨-, h, -⟩
    · exact .inl h
    · exact .inr h

/-- C128: what can be opened is well-formed and fits the machine, and the dtype, the shape and the order that are reported are those
that the file says. -/
theorem C128_opened {M : Machine} {py : PyParser} {bs : Bytes} {f : NpyFile Src} (h : (NpyFile.new M py disk ⟨bs, 0⟩).1 = .ok f) :
    IsNpy py bs f.header.dtype f.header.shape f.header.order ∧ SizeFits M f.header.dtype ∧ f.src = ⟨bs, headerEnd bs⟩ := by
  have e1 : (⟨bs, 0⟩ : Src).rest = bs := rfl
  rw [new_run, e1] at h
  rcases hx : (NpyHeader.fromReader M py).run bs with ⟨_ | _ | _, rest⟩
  · rename_i hd
    rw [hx] at h
    obtain ⟨hg, hl, hr⟩ := C10_consumes_header M py bs rest hd hx
    simp only [Out.map, Out.ok.injEq] at h
    subst h
    have hf : finishHeader M py (headerBody bs) = .ok hd := by
      rcases fromReader_cases M py bs with ⟨_, h1⟩ | ⟨_, _, _, _, _, _, h1⟩ | ⟨_, _, _, _, _, _, _, h1⟩ |
        ⟨_, _, _, _, _, _, _, _, _, h1⟩ | ⟨_, _, _, _, _, _, _, _, _, _, h1⟩ | ⟨maj, min, p, szb, text, r, rfl, hp, hw, hs, _, h1⟩
      any_goals (rw [hx] at h1; cases h1; done)
      rw [body_of_parts hp hw hs]
      rw [hx] at h1
      exact (congrArg Prod.fst h1).symm
    obtain ⟨d, shape, o, hw, hp⟩ := (finish_iff hg hl).mp hf
    obtain ⟨rfl, rfl, rfl, -, -, hs, -⟩ := fromParts_ok hp
    refine ⟨hw, fits_iff.mpr ⟨_, hs⟩, ?_⟩
    rw [hr]
    have := Src.leave_rest ⟨bs, 0⟩ (headerEnd bs) (by rw [e1]; exact hl)
    rw [e1] at this
    rw [this, Nat.zero_add]
  · rw [hx] at h; cases h
  · rw [hx] at h; cases h

/-- C128, the part that holds: what is well-formed and fits can be opened, if the nonzero dimensions multiply to less than `2^64`.
The number of elements is then exact, and so is the size of the items. -/
theorem C128_opens_partial {M : Machine} {py : PyParser} {bs : Bytes} {d : DType} {shape : List Nat} {o : Order}
    (h : IsNpy py bs d shape o) (hm : headerEnd bs ≤ M.isizeMax) (hf : SizeFits M d) (hn : nonzeroProd shape < 2 ^ 64) :
    ∃ f : NpyFile Src, (NpyFile.new M py disk ⟨bs, 0⟩).1 = .ok f ∧ f.header.dtype = d ∧ f.header.shape = shape ∧ f.header.order = o ∧
      f.header.nRecords = shape.prod ∧ (∀ n, f.header.itemSize = some n ↔ ¬ HasObject d ∧ exactBytes d = some n) ∧
      f.src = ⟨bs, headerEnd bs⟩ := by
  obtain ⟨sz, hsz⟩ := fits_iff.mp hf
  have hp := fromParts_eq (o := o) hn hsz
  have hfin := (finish_iff (M := M) h.preamble h.whole).mpr ⟨d, shape, o, h, hp⟩
  have hrun : (NpyFile.new M py disk ⟨bs, 0⟩).1 = .ok ⟨⟨d, shape, exactStrides o shape, o, shape.prod, sz, d.usesPickled⟩,
      (⟨bs, 0⟩ : Src).leave (bs.drop (headerEnd bs))⟩ := by
    rw [new_run, show (⟨bs, 0⟩ : Src).rest = bs from rfl, run_body h.preamble h.whole hm, hfin]
    rfl
  refine ⟨_, hrun, rfl, rfl, rfl, rfl, fun n => ?_, (C128_opened hrun).2.2⟩
  rcases itemSizeOf_ok_iff.mp hsz with ⟨h1, rfl⟩ | ⟨h1, -, k, h2, rfl⟩
  · simp [h1]
  · simp [h1, h2]

/-- C128: a file says one thing only. -/
theorem C128_one_meaning {py : PyParser} {bs : Bytes} {d d' : DType} {shape shape' : List Nat} {o o' : Order}
    (h : IsNpy py bs d shape o) (h' : IsNpy py bs d' shape' o') : d = d' ∧ shape = shape' ∧ o = o' := by
  obtain ⟨-, -, text, kvs, vs, vd, ht, hp, hk, h1, h2, h4, h3, h5⟩ := h
  obtain ⟨-, -, text', kvs', vs', vd', ht', hp', hk', h1', h2', h4', h3', h5'⟩ := h'
  have e1 : text = text' := Option.some.inj ((isLine_iff.mp ht).symm.trans (isLine_iff.mp ht'))
  subst e1
  have e2 : kvs = kvs' := by
    have := Option.some.inj (hp.symm.trans hp')
    injection this
  subst e2
  have e3 := lastEntry_unique hk h1 h1'
  have e4 := lastEntry_unique hk h2 h2'
  have e5 := lastEntry_unique hk h3 h3'
  subst e4 e5
  refine ⟨?_, ?_, ?_⟩
  · have := (fromDescr_ok_iff.mpr h5).symm.trans (fromDescr_ok_iff.mpr h5')
    injection this
  · have := (isShape_iff.mp h4).symm.trans (isShape_iff.mp h4')
    injection this
  · injection e3 with e3
    cases o <;> cases o' <;> simp at e3 ⊢

/-- C128: everything else is an error of kind `InvalidData` or `UnexpectedEof`, whatever it is. -/
theorem C128_refused {M : Machine} {py : PyParser} {bs : Bytes} (h : ∀ d shape o, ¬ IsNpy py bs d shape o)
    (hm : headerEnd bs ≤ M.isizeMax) :
    (NpyFile.new M py disk ⟨bs, 0⟩).1 = .err .unexpectedEof ∨ ∃ w, (NpyFile.new M py disk ⟨bs, 0⟩).1 = .err (.invalidData w) := by
  cases hx : (NpyFile.new M py disk ⟨bs, 0⟩).1 with
  | ok f => exact absurd (C128_opened hx).1 (h _ _ _)
  | err e =>
    rcases C100_open_kinds hx with rfl | ⟨w, rfl⟩
    · exact .inl rfl
    · exact .inr ⟨w, rfl⟩
  | panic =>
    exfalso
    have e1 : (⟨bs, 0⟩ : Src).rest = bs := rfl
    rw [new_run, e1] at hx
    rcases fromReader_cases M py bs with ⟨_, h1⟩ | ⟨_, _, _, _, _, _, h1⟩ | ⟨_, _, _, _, _, _, _, h1⟩ |
      ⟨maj, min, p, szb, r, rfl, hp, hw, ha, h1⟩ | ⟨_, _, _, _, _, _, _, _, _, _, h1⟩ | ⟨maj, min, p, szb, text, r, rfl, hp, hw, hs, _, h1⟩
    any_goals (rw [h1] at hx; cases hx; done)
    · rw [headerEnd_eq hp hw] at hm
      rw [Machine.allocBytes, if_pos (by omega)] at ha
      cases ha
    · rw [h1] at hx
      have he := headerEnd_eq (r := text ++ r) hp hw
      rw [← List.append_assoc] at he
      have hg : GoodPreamble (magic ++ [maj, min] ++ szb ++ text ++ r) :=
        goodPreamble_iff.mpr ⟨maj, min, p, szb ++ text ++ r, by simp, hp⟩
      obtain ⟨d, shape, o, hwf⟩ := finish_panic (M := M) (py := py) hg (by rw [he, hs]; simp [magic, hw]; omega) (by
        rw [body_of_parts hp hw hs]
        cases hfin : finishHeader M py text with
        | panic => rfl
        | ok x => rw [hfin] at hx; cases hx
        | err x => rw [hfin] at hx; cases hx)
      exact h d shape o hwf

/-- C128: so is a file whose items are too large for the machine. -/
theorem C128_too_large {M : Machine} {py : PyParser} {bs : Bytes} {d : DType} {shape : List Nat} {o : Order}
    (h : IsNpy py bs d shape o) (hm : headerEnd bs ≤ M.isizeMax) (hf : ¬ SizeFits M d) (hn : nonzeroProd shape < 2 ^ 64) :
    ∃ w, (NpyFile.new M py disk ⟨bs, 0⟩).1 = .err (.invalidData w) := by
  obtain ⟨w, hw⟩ := C59_oversized_refused M d shape o (fun ho => hf (.inl ho)) (fun ha => hf (.inr ha)) hn
  refine ⟨w, ?_⟩
  rw [new_run, show (⟨bs, 0⟩ : Src).rest = bs from rfl, run_body h.preamble h.whole hm, finish_eq h, hw]
  rfl

/-- C128, without overflow checks: every well-formed file that fits opens, but the number of elements is only right modulo `2^64`. -/
theorem C128_opens_unchecked {M : Machine} (hc : M.overflowChecks = false) {py : PyParser} {bs : Bytes} {d : DType} {shape : List Nat}
    {o : Order} (h : IsNpy py bs d shape o) (hm : headerEnd bs ≤ M.isizeMax) (hf : SizeFits M d) :
    ∃ f : NpyFile Src, (NpyFile.new M py disk ⟨bs, 0⟩).1 = .ok f ∧ f.header.dtype = d ∧ f.header.shape = shape ∧ f.header.order = o ∧
      f.header.nRecords = shape.prod % 2 ^ 64 := by
  obtain ⟨sz, hsz⟩ := fits_iff.mp hf
  cases hp : NpyHeader.fromParts M d shape o with
  | panic => exact absurd hp (fromParts_release hc _ _ _)
  | err e =>
    exfalso
    obtain ⟨n, hn⟩ := shapeProduct_release hc shape 1
    obtain ⟨s, hs⟩ := computeStrides_release hc o shape
    simp only [NpyHeader.fromParts, hn, hs, hsz, Out.bind_ok] at hp
    cases hp
  | ok x =>
    obtain ⟨h1, h2, h3, h4, -⟩ := fromParts_ok hp
    refine ⟨⟨x, (⟨bs, 0⟩ : Src).leave (bs.drop (headerEnd bs))⟩, ?_, h1, h2, h3, ?_⟩
    · rw [new_run, show (⟨bs, 0⟩ : Src).rest = bs from rfl, run_body h.preamble h.whole hm, finish_eq h, hp]
      rfl
    · have := shapeProduct_ok (by decide) h4
      rw [this, Nat.one_mul]

theorem product_panics {M : Machine} (hc : M.overflowChecks = true) : ∀ (l : List Nat) (acc : Nat), acc < 2 ^ 64 →
    (shapeProduct M acc l = .panic ↔ ∃ k, 2 ^ 64 ≤ acc * (l.take k).prod)
  | [], acc, h => by
    simp only [shapeProduct, List.take_nil, List.prod_nil, Nat.mul_one, reduceCtorEq, false_iff]
    rintro ⟨-, h'⟩
    omega
  | x :: xs, acc, h => by
    have key : (∃ k, 2 ^ 64 ≤ acc * ((x :: xs).take k).prod) ↔ ∃ k, 2 ^ 64 ≤ acc * x * (xs.take k).prod := by
      constructor
      · rintro ⟨_ | k, hk⟩
        · simp at hk; omega
        · exact ⟨k, by simpa [List.prod_cons, Nat.mul_assoc] using hk⟩
      · rintro ⟨k, hk⟩
        exact ⟨k + 1, by simpa [List.prod_cons, Nat.mul_assoc] using hk⟩
    rw [key]
    by_cases hx : acc * x < 2 ^ 64
    · have : shapeProduct M acc (x :: xs) = shapeProduct M (acc * x) xs := by
        simp [shapeProduct, Machine.mulU64, u64Lim, hx]
      rw [this, product_panics hc xs _ hx]
    · have : shapeProduct M acc (x :: xs) = .panic := by
        simp [shapeProduct, Machine.mulU64, u64Lim, hx, hc]
      exact ⟨fun _ => ⟨0, by simp; omega⟩, fun _ => this⟩

theorem prefixes_panic {M : Machine} (hc : M.overflowChecks = true) : ∀ (l : List Nat) (acc : Nat), acc < 2 ^ 64 →
    (prefixProducts M acc l = .panic ↔ shapeProduct M acc l = .panic) ∧ ∀ e, prefixProducts M acc l ≠ .err e ∧ shapeProduct M acc l ≠ .err e
  | [], acc, h => by simp [shapeProduct, prefixProducts]
  | x :: xs, acc, h => by
    by_cases hx : acc * x < 2 ^ 64
    · obtain ⟨h1, h2⟩ := prefixes_panic hc xs _ hx
      have e1 : shapeProduct M acc (x :: xs) = shapeProduct M (acc * x) xs := by
        simp [shapeProduct, Machine.mulU64, u64Lim, hx]
      rw [e1]
      simp only [prefixProducts, Machine.mulU64, u64Lim, if_pos hx, Out.bind_ok]
      cases hp : prefixProducts M (acc * x) xs with
      | ok r => rw [hp] at h1; simp only [Out.bind_ok]; exact ⟨by simpa using h1, fun e => ⟨by simp, (h2 e).2⟩⟩
      | err e => exact absurd hp (h2 e).1
      | panic => rw [hp] at h1; exact ⟨by simpa using h1, fun e => ⟨by simp, (h2 e).2⟩⟩
    · simp [shapeProduct, prefixProducts, Machine.mulU64, u64Lim, hx, hc]

theorem strides_panic {M : Machine} (hc : M.overflowChecks = true) (shape : List Nat) (o : Order) :
    (computeStrides M o shape = .panic ↔ match o with
      | .c => ∃ k, 2 ^ 64 ≤ (shape.drop k).prod
      | .fortran => ∃ k, 2 ^ 64 ≤ (shape.take k).prod) ∧ ∀ e, computeStrides M o shape ≠ .err e := by
  cases o with
  | fortran =>
    obtain ⟨h1, h2⟩ := prefixes_panic hc shape 1 (by decide)
    refine ⟨h1.trans ?_, fun e => (h2 e).1⟩
    rw [product_panics hc _ _ (by decide)]
    simp
  | c =>
    obtain ⟨h1, h2⟩ := prefixes_panic hc shape.reverse 1 (by decide)
    have h3 := product_panics hc shape.reverse 1 (by decide)
    have key : (∃ k, 2 ^ 64 ≤ 1 * (shape.reverse.take k).prod) ↔ ∃ k, 2 ^ 64 ≤ (shape.drop k).prod := by
      constructor
      · rintro ⟨k, hk⟩
        rw [List.take_reverse, List.prod_reverse, Nat.one_mul] at hk
        exact ⟨_, hk⟩
      · rintro ⟨k, hk⟩
        refine ⟨shape.length - k, ?_⟩
        rw [List.take_reverse, List.prod_reverse, Nat.one_mul]
        by_cases hl : k ≤ shape.length
        · rwa [show shape.length - (shape.length - k) = k by omega]
        · rw [List.drop_of_length_le (by omega)] at hk
          simp at hk
    simp only [computeStrides]
    cases hp : prefixProducts M 1 shape.reverse with
    | ok r => rw [hp] at h1; simp only [Out.bind_ok]; exact ⟨by simpa using (h1.trans h3).trans key, fun e => by simp⟩
    | err e => exact absurd hp (h2 e).1
    | panic => rw [hp] at h1; exact ⟨by simpa using (h1.trans h3).trans key, fun e => by simp⟩

theorem parts_panic {M : Machine} (hc : M.overflowChecks = true) (d : DType) (shape : List Nat) (o : Order) :
    NpyHeader.fromParts M d shape o = .panic ↔
      (∃ k, 2 ^ 64 ≤ (shape.take k).prod) ∨ (SizeFits M d ∧ o = .c ∧ ∃ k, 2 ^ 64 ≤ (shape.drop k).prod) := by
  have h1 := product_panics hc shape 1 (by decide)
  simp only [Nat.one_mul] at h1
  obtain ⟨h2, h3⟩ := strides_panic hc shape o
  unfold NpyHeader.fromParts
  cases hp : shapeProduct M 1 shape with
  | panic => exact ⟨fun _ => .inl (h1.mp hp), fun _ => rfl⟩
  | err e => exact absurd hp ((prefixes_panic hc shape 1 (by decide)).2 e).2
  | ok n =>
    have hn : ¬ ∃ k, 2 ^ 64 ≤ (shape.take k).prod := fun hk => by rw [h1.mpr hk] at hp; cases hp
    simp only [Out.bind_ok, hn, false_or]
    cases hs : itemSizeOf M d with
    | panic => exact absurd hs itemSizeOf_ne_panic
    | err e =>
      have : ¬ SizeFits M d := fun hf => by obtain ⟨sz, h⟩ := fits_iff.mp hf; rw [hs] at h; cases h
      simp [this]
    | ok sz =>
      have hf : SizeFits M d := fits_iff.mpr ⟨sz, hs⟩
      simp only [Out.bind_ok, hf, true_and]
      have h4 : computeStrides M o shape = .panic ↔ o = .c ∧ ∃ k, 2 ^ 64 ≤ (shape.drop k).prod := by
        rw [h2]
        cases o with
        | c => simp
        | fortran => simp only [reduceCtorEq, false_and, iff_false]; exact hn
      rw [← h4]
      cases hst : computeStrides M o shape with
      | ok r => simp
      | err e => exact absurd hst (h3 e)
      | panic => simp

/-- C128, with overflow checks: opening a well-formed file panics exactly if the first dimensions, some number of them, multiply to
`2^64` or more, or, in C order, if the last ones do. -/
theorem C128_panics {M : Machine} (hc : M.overflowChecks = true) {py : PyParser} {bs : Bytes} {d : DType} {shape : List Nat}
    {o : Order} (h : IsNpy py bs d shape o) (hm : headerEnd bs ≤ M.isizeMax) :
    (NpyFile.new M py disk ⟨bs, 0⟩).1 = .panic ↔
      (∃ k, 2 ^ 64 ≤ (shape.take k).prod) ∨ (SizeFits M d ∧ o = .c ∧ ∃ k, 2 ^ 64 ≤ (shape.drop k).prod) := by
  rw [← parts_panic hc, new_run, show (⟨bs, 0⟩ : Src).rest = bs from rfl, run_body h.preamble h.whole hm, finish_eq h]
  cases NpyHeader.fromParts M d shape o <;> simp [Out.map]

/-- C128, with overflow checks: so this is exactly when a well-formed file opens. -/
theorem C128_opens_checked {M : Machine} (hc : M.overflowChecks = true) {py : PyParser} {bs : Bytes} {d : DType} {shape : List Nat}
    {o : Order} (h : IsNpy py bs d shape o) (hm : headerEnd bs ≤ M.isizeMax) :
    (∃ f, (NpyFile.new M py disk ⟨bs, 0⟩).1 = .ok f) ↔
      SizeFits M d ∧ (∀ k, (shape.take k).prod < 2 ^ 64) ∧ (o = .c → ∀ k, (shape.drop k).prod < 2 ^ 64) := by
  have hp := C128_panics hc h hm
  constructor
  · rintro ⟨f, hf⟩
    obtain ⟨g1, g2, -⟩ := C128_opened hf
    obtain ⟨rfl, rfl, rfl⟩ := C128_one_meaning h g1
    have hn : ¬ _ := fun hx => by rw [hp.mpr hx] at hf; cases hf
    refine ⟨g2, fun k => Nat.lt_of_not_le fun hk => hn (.inl ⟨k, hk⟩), fun ho k => Nat.lt_of_not_le fun hk => hn (.inr ⟨g2, ho, k, hk⟩)⟩
  · rintro ⟨hf, h1, h2⟩
    have hn : (NpyFile.new M py disk ⟨bs, 0⟩).1 ≠ .panic := fun hx => by
      rcases hp.mp hx with ⟨k, hk⟩ | ⟨-, ho, k, hk⟩
      · have := h1 k; omega
      · have := h2 ho k; omega
    obtain ⟨sz, hsz⟩ := fits_iff.mp hf
    rw [new_run, show (⟨bs, 0⟩ : Src).rest = bs from rfl, run_body h.preamble h.whole hm, finish_eq h] at hn ⊢
    cases hx : NpyHeader.fromParts M d shape o with
    | ok x => exact ⟨_, rfl⟩
    | panic => rw [hx] at hn; exact absurd rfl hn
    | err e =>
      exfalso
      unfold NpyHeader.fromParts at hx
      cases hq : shapeProduct M 1 shape with
      | panic => rw [hq] at hx; cases hx
      | err e => exact absurd hq ((prefixes_panic hc shape 1 (by decide)).2 e).2
      | ok n =>
        simp only [hq, hsz, Out.bind_ok] at hx
        cases hst : computeStrides M o shape with
        | ok r => rw [hst] at hx; cases hx
        | err e => exact absurd hst ((strides_panic hc shape o).2 e)
        | panic => rw [hst] at hx; cases hx

def opensAs (r : Res (NpyFile Src)) (shape : List Nat) (n : Nat) : Bool :=
  match r with
  | .ok f => f.header.shape == shape && f.header.nRecords == n
  | _ => false

theorem of_opensAs {r : Res (NpyFile Src)} {shape : List Nat} {n : Nat} (h : opensAs r shape n = true) :
    ∃ f, r = .ok f ∧ f.header.shape = shape ∧ f.header.nRecords = n := by
  cases r with
  | ok f => simp [opensAs] at h; exact ⟨f, rfl, h.1, h.2⟩
  | _ => simp [opensAs] at h

/-- C128 is violated, in both directions.  Without overflow checks a file that says that it has `2^64` elements can be opened, and has
none.  With them, a file that says, truly, that it has none cannot be opened: this panics. -/
theorem C128_violated :
    (∃ d o f, IsNpy Py.parse overflowFile d [2 ^ 32, 2 ^ 32] o ∧ ¬ [2 ^ 32, 2 ^ 32].prod < 2 ^ 64 ∧
      (NpyFile.new ⟨false, 64, false⟩ Py.parse disk ⟨overflowFile, 0⟩).1 = .ok f ∧ f.header.nRecords = 0) ∧
    (∃ d o, IsNpy Py.parse overflowEmptyFile d [2 ^ 32, 2 ^ 32, 0] o ∧ [2 ^ 32, 2 ^ 32, 0].prod = 0 ∧ SizeFits ⟨false, 64, true⟩ d ∧
      (NpyFile.new ⟨false, 64, true⟩ Py.parse disk ⟨overflowEmptyFile, 0⟩).1 = .panic) := by
  constructor
  · obtain ⟨f, hf, hs, hn⟩ := of_opensAs (show opensAs (NpyFile.new ⟨false, 64, false⟩ Py.parse disk ⟨overflowFile, 0⟩).1
      [2 ^ 32, 2 ^ 32] 0 = true by decide +kernel)
    exact ⟨_, _, f, hs ▸ (C128_opened hf).1, by decide +kernel, hf, hn⟩
  · obtain ⟨f, hf, hs, hn⟩ := of_opensAs (show opensAs (NpyFile.new ⟨false, 64, false⟩ Py.parse disk ⟨overflowEmptyFile, 0⟩).1
      [2 ^ 32, 2 ^ 32, 0] 0 = true by decide +kernel)
    refine ⟨_, _, hs ▸ (C128_opened hf).1, by decide +kernel, (C128_opened hf).2.1, ?_⟩
    have h := C14_violated.2.1
    rw [new_run, show (⟨overflowEmptyFile, 0⟩ : Src).rest = overflowEmptyFile from rfl]
    revert h
    cases ((NpyHeader.fromReader ⟨false, 64, true⟩ Py.parse).run overflowEmptyFile).1 <;> simp [isPanic, Out.map]

/-! Examples. -/

theorem example_isNpy : ∃ d o, IsNpy Py.parse (exampleFile [7, 8, 9]) d [2, 3] o ∧ SizeFits ⟨false, 64, true⟩ d := by
  obtain ⟨f, hf, hs, -⟩ := of_opensAs (show opensAs (NpyFile.new ⟨false, 64, true⟩ Py.parse disk ⟨exampleFile [7, 8, 9], 0⟩).1 [2, 3] 6 = true by
    decide +kernel)
  exact ⟨_, _, hs ▸ (C128_opened hf).1, (C128_opened hf).2.1⟩

/-- C128_opened, C128_opens_partial, C128_one_meaning, C128_opens_unchecked. -/
example : ∃ (d : DType) (o : Order) (f : NpyFile Src), IsNpy Py.parse (exampleFile [7, 8, 9]) d [2, 3] o ∧
    (∀ d' shape' o', IsNpy Py.parse (exampleFile [7, 8, 9]) d' shape' o' → d = d' ∧ [2, 3] = shape' ∧ o = o') ∧
    (NpyFile.new ⟨false, 64, true⟩ Py.parse disk ⟨exampleFile [7, 8, 9], 0⟩).1 = .ok f ∧ f.header.nRecords = 6 ∧
    (∃ f' : NpyFile Src, (NpyFile.new ⟨false, 64, false⟩ Py.parse disk ⟨exampleFile [7, 8, 9], 0⟩).1 = .ok f' ∧ f'.header.shape = [2, 3]) := by
  obtain ⟨d, o, h, hf⟩ := example_isNpy
  obtain ⟨f, h1, -, -, -, h5, -⟩ := C128_opens_partial (M := ⟨false, 64, true⟩) h (by decide +kernel) hf (by decide)
  obtain ⟨f', g1, -, g3, -⟩ := C128_opens_unchecked (M := ⟨false, 64, false⟩) rfl h (by decide +kernel) hf
  exact ⟨d, o, f, h, fun _ _ _ h' => C128_one_meaning h h', h1, h5, f', g1, g3⟩

/-- C128_panics, C128_opens_checked: a file that opens, and `overflowEmptyFile`, which does not. -/
example : (∃ d o, IsNpy Py.parse (exampleFile [7, 8, 9]) d [2, 3] o ∧ (∀ k, ([2, 3].take k).prod < 2 ^ 64) ∧ ∀ k, ([2, 3].drop k).prod < 2 ^ 64) ∧
    ∃ d o, IsNpy Py.parse overflowEmptyFile d [2 ^ 32, 2 ^ 32, 0] o ∧ ∃ k, 2 ^ 64 ≤ ([2 ^ 32, 2 ^ 32, 0].take k).prod := by
  obtain ⟨d, o, h, hf⟩ := example_isNpy
  obtain ⟨d', o', h', -⟩ := C128_violated.2
  refine ⟨⟨d, o, h, fun k => ?_, fun k => ?_⟩, d', o', h', 2, by decide +kernel⟩
  · match k with
    | 0 => simp
    | 1 => simp
    | k + 2 => simp
  · match k with
    | 0 => simp
    | 1 => simp
    | k + 2 => simp

/-- C128_refused: an unknown version, and a header that is cut off. -/
example : (∀ d shape o, ¬ IsNpy Py.parse (magicBytes ++ [4, 0, 2, 0, 123, 125]) d shape o) ∧
    (∀ d shape o, ¬ IsNpy Py.parse ((exampleFile []).take 40) d shape o) ∧
    (((NpyFile.new ⟨false, 64, true⟩ Py.parse disk ⟨(exampleFile []).take 40, 0⟩).1 = .err .unexpectedEof) ∨
      ∃ w, (NpyFile.new ⟨false, 64, true⟩ Py.parse disk ⟨(exampleFile []).take 40, 0⟩).1 = .err (.invalidData w)) := by
  have h : ∀ d shape o, ¬ IsNpy Py.parse ((exampleFile []).take 40) d shape o := fun d shape o h =>
    absurd h.whole (by decide +kernel)
  refine ⟨fun d shape o h => absurd h.preamble (by unfold GoodPreamble; decide), h, C128_refused h (by decide +kernel)⟩

/-- Strings of `2^32` bytes. -/
def hugeFile : Bytes :=
  magicBytes ++ [1, 0, 64, 0] ++ encodeUtf8 "{'descr': '|S4294967296', 'fortran_order': False, 'shape': (2,)}".toList

/-- C128_too_large: they fit a 64-bit machine only. -/
example : ∃ d o, IsNpy Py.parse hugeFile d [2] o ∧ SizeFits ⟨false, 64, true⟩ d ∧ ¬ SizeFits ⟨false, 32, true⟩ d ∧
    ∃ w, (NpyFile.new ⟨false, 32, true⟩ Py.parse disk ⟨hugeFile, 0⟩).1 = .err (.invalidData w) := by
  obtain ⟨f, hf, hs, -⟩ := of_opensAs (show opensAs (NpyFile.new ⟨false, 64, true⟩ Py.parse disk ⟨hugeFile, 0⟩).1 [2] 2 = true by decide +kernel)
  obtain ⟨h1, h2, -⟩ := C128_opened hf
  rw [hs] at h1
  have h3 : ¬ SizeFits ⟨false, 32, true⟩ f.header.dtype := by
    intro h3
    have : opensAs (NpyFile.new ⟨false, 32, true⟩ Py.parse disk ⟨hugeFile, 0⟩).1 [2] 2 = false := by decide +kernel
    obtain ⟨f2, g2, -, g3, -, g5, -⟩ := C128_opens_partial (M := ⟨false, 32, true⟩) h1 (by decide +kernel) h3 (by decide)
    rw [g2] at this
    simp [opensAs, g3, g5] at this
  exact ⟨_, _, h1, h2, h3, C128_too_large h1 (by decide +kernel) h3 (by decide)⟩

end Npyz.Props
