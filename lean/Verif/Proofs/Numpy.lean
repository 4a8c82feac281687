import Verif.Spec.Numpy
import Verif.Proofs.Finish
/-! NumPy's headers. -/
namespace Npyz
open Spec Py

/-! ### Lists without trailing comma -/

/-- As `Items`, with the comma flag given. -/
def ItemsB (close : Char) (t : Text) (vs : List PyVal) (b : Bool) : Prop :=
  (∃ c r, t = c :: r ∧ c ≠ ' ') ∧
  ∀ fuel rest, t.length < fuel → parseItems fuel close (t ++ rest) = some (vs, b, rest)

theorem itemsB_nil (close : Char) (h : close ≠ ' ') : ItemsB close [close] [] false :=
  ⟨⟨_, _, rfl, h⟩, (items_nil close h).2⟩

theorem itemsB_one {close : Char} {tv : Text} {v : PyVal} (hclose : close = ')' ∨ close = ']') (hv : Lit tv v) :
    ItemsB close (tv ++ [close]) [v] false := by
  obtain ⟨c, r, hcr, h1, -⟩ := hv.head
  exact ⟨⟨c, r ++ [close], by simp [hcr], h1⟩, items_cons_last hclose hv⟩

theorem itemsB_cons {close : Char} {tv : Text} {v : PyVal} {t : Text} {vs : List PyVal} {b : Bool}
    (hclose : close = ')' ∨ close = ']') (hv : Lit tv v) (ht : ItemsB close t vs b) :
    ItemsB close (tv ++ ([',', ' '] ++ t)) (v :: vs) true := by
  obtain ⟨⟨c, r, hcr, h1, h2, h3, h4⟩, hp⟩ := hv
  obtain ⟨hh, ht⟩ := ht
  refine ⟨⟨c, r ++ ([',', ' '] ++ t), by simp [hcr], h1⟩, ?_⟩
  intro fuel rest hf
  cases fuel with
  | zero => simp at hf
  | succ fuel =>
    simp only [List.length_append, List.length_cons, List.length_nil] at hf
    have hne : c ≠ close := by rcases hclose with rfl | rfl <;> assumption
    have e : tv ++ ([',', ' '] ++ t) ++ rest = tv ++ ',' :: ' ' :: (t ++ rest) := by simp
    have hpv := hp fuel (',' :: ' ' :: (t ++ rest)) (by omega) (noDigitHead_cons (by decide))
    rw [e]
    rw [hcr] at hpv ⊢
    simp only [List.cons_append, parseItems, if_neg hne] at hpv ⊢
    rw [hpv]
    simp only [skipWs_cons_ne (show ',' ≠ ' ' by decide), itemTail]
    rw [if_neg (by rcases hclose with rfl | rfl <;> decide), if_pos trivial, skipWs_blank,
      skipWs_of_head hh, ht fuel rest (by omega)]

/-- Texts and the literals they spell, pairwise. -/
inductive Lits : List Text → List PyVal → Prop
  | nil : Lits [] []
  | cons {t v ts vs} : Lit t v → Lits ts vs → Lits (t :: ts) (v :: vs)

theorem lits_items {close : Char} (hclose : close = ')' ∨ close = ']') {ts : List Text} {vs : List PyVal} (h : Lits ts vs) :
    ItemsB close (List.intercalate [',', ' '] ts ++ [close]) vs (decide (1 < vs.length)) := by
  induction h with
  | nil => exact itemsB_nil close (by rcases hclose with rfl | rfl <;> decide)
  | @cons t v ts vs hv hl ih =>
    cases hl with
    | nil => simpa [List.intercalate] using itemsB_one hclose hv
    | @cons t2 v2 ts vs h2 hl =>
      have := itemsB_cons hclose hv ih
      simpa [List.intercalate, List.intersperse] using this

theorem litB_list {t : Text} {vs : List PyVal} {b : Bool} (h : ItemsB ']' t vs b) : Lit ('[' :: t) (.list vs) := by
  obtain ⟨hh, h⟩ := h
  refine ⟨⟨_, _, rfl, by decide, by decide, by decide, by decide⟩, ?_⟩
  intro fuel rest hf _
  cases fuel with
  | zero => simp at hf
  | succ fuel =>
    simp only [List.length_cons] at hf
    simp only [List.cons_append, parseVal]
    rw [if_neg (by decide), if_neg (by decide), if_pos trivial, skipWs_of_head hh, h fuel rest (by omega)]
    simp [mkList]

theorem litB_tuple {t : Text} {vs : List PyVal} {b : Bool} (h : ItemsB ')' t vs b) (hb : vs.length = 1 → b = true) :
    Lit ('(' :: t) (.tuple vs) := by
  obtain ⟨hh, h⟩ := h
  refine ⟨⟨_, _, rfl, by decide, by decide, by decide, by decide⟩, ?_⟩
  intro fuel rest hf _
  cases fuel with
  | zero => simp at hf
  | succ fuel =>
    simp only [List.length_cons] at hf
    simp only [List.cons_append, parseVal]
    rw [if_neg (by decide), if_pos trivial, skipWs_of_head hh, h fuel rest (by omega)]
    simp only [mkTuple]
    rw [if_neg]
    rintro ⟨h1, h2⟩
    rw [hb h1] at h2; cases h2

theorem lits_nums (ns : List Nat) : Lits (ns.map (Nat.toDigits 10)) (ns.map fun n : Nat => PyVal.int n) := by
  induction ns with
  | nil => exact .nil
  | cons n ns ih => exact .cons (lit_nat n) ih

theorem lit_pyTuple (ns : List Nat) : Lit (pyTuple ns) (.tuple (ns.map fun n : Nat => PyVal.int n)) := by
  have key : ns.length ≠ 1 → Lit (['('] ++ List.intercalate [',', ' '] (ns.map (Nat.toDigits 10)) ++ [')'])
      (.tuple (ns.map fun n : Nat => PyVal.int n)) := by
    intro h
    have := litB_tuple (lits_items (.inl rfl) (lits_nums ns)) (by intro h'; simp at h'; exact absurd h' h)
    simpa using this
  match ns, key with
  | [], key => exact key (by simp)
  | [n], _ =>
    have := lit_tuple (items_cons 0 (.inl rfl) (lit_nat n) (items_nil ')' (by decide)))
    simpa [pyTuple] using this
  | n :: m :: ns, key => exact key (by simp)

/-! ### Strings -/

theorem pyReprQuote_cases (s : Text) : pyReprQuote s = '\'' ∨ pyReprQuote s = '"' := by
  unfold pyReprQuote; split <;> simp

theorem strBody_repr {q : Char} (hq : q = '\'' ∨ q = '"') (s rest : Text) :
    strBody q (s.flatMap (pyReprChar q) ++ q :: rest) = some (s, rest) := by
  induction s with
  | nil => simp [strBody_cons]
  | cons c s ih =>
    simp only [List.flatMap_cons, List.append_assoc]
    generalize s.flatMap (pyReprChar q) ++ q :: rest = tl at ih ⊢
    unfold pyReprChar
    by_cases h1 : c = '\\'
    · subst h1
      rcases hq with rfl | rfl <;> simp [strBody_cons, ih, escape, consChar]
    by_cases h2 : c = q
    · subst h2
      rcases hq with rfl | rfl <;> simp [strBody_cons, ih, escape, consChar]
    by_cases h3 : c = '\t'
    · subst h3
      rcases hq with rfl | rfl <;> simp [strBody_cons, ih, escape, consChar]
    by_cases h4 : c = '\r'
    · subst h4
      rcases hq with rfl | rfl <;> simp [strBody_cons, ih, escape, consChar]
    by_cases h5 : c = '\n'
    · subst h5
      rcases hq with rfl | rfl <;> simp [strBody_cons, ih, escape, consChar]
    simp [h1, h2, h3, h4, h5, strBody_cons, ih, consChar]

theorem lit_pyRepr (s : Text) : Lit (pyRepr s) (.str s) := by
  have hq := pyReprQuote_cases s
  unfold pyRepr
  generalize pyReprQuote s = q at hq
  refine ⟨⟨q, _, rfl, ?_, ?_, ?_, ?_⟩, ?_⟩
  · rcases hq with rfl | rfl <;> decide
  · rcases hq with rfl | rfl <;> decide
  · rcases hq with rfl | rfl <;> decide
  · rcases hq with rfl | rfl <;> decide
  intro fuel rest hf _
  cases fuel with
  | zero => simp at hf
  | succ fuel =>
    simp only [List.cons_append, List.nil_append, parseVal]
    rw [if_pos hq]
    have e : s.flatMap (pyReprChar q) ++ [q] ++ rest = s.flatMap (pyReprChar q) ++ q :: rest := by simp
    rw [e, strBody_repr hq]

/-! ### Descriptions -/

theorem spells_plain {s : Text} {t : TypeStr} (h : Spells s t) : ∀ c ∈ s, c ≠ '\\' ∧ c ≠ '\'' ∧ c ≠ '\r' ∧ c ≠ '\n' := by
  obtain ⟨e, c, digits, units, rfl, h1, h2, h3, h4, -⟩ := h
  have t1 : ∀ p ∈ endianTable, p.1 ≠ '\\' ∧ p.1 ≠ '\'' ∧ p.1 ≠ '\r' ∧ p.1 ≠ '\n' := by decide
  have t2 : ∀ p ∈ typeTable, p.1 ≠ '\\' ∧ p.1 ≠ '\'' ∧ p.1 ≠ '\r' ∧ p.1 ≠ '\n' := by decide
  have t3 : ∀ p ∈ unitTable, ∀ x ∈ '[' :: p.1 ++ [']'], x ≠ '\\' ∧ x ≠ '\'' ∧ x ≠ '\r' ∧ x ≠ '\n' := by decide
  intro x hx
  simp only [List.mem_cons, List.mem_append] at hx
  rcases hx with rfl | rfl | hx | hx
  · exact t1 _ h1
  · exact t2 _ h2
  · unfold SizeText at h3
    split at h3
    · rw [h3.1] at hx; cases hx
    · exact digit_plain (h3.2.1 x hx)
  · cases hu : t.timeUnits with
    | none => rw [hu] at h4; rw [show units = [] from h4] at hx; cases hx
    | some u =>
      rw [hu] at h4
      obtain ⟨name, hm, rfl⟩ := h4
      exact t3 _ hm x hx

mutual
theorem lit_descrText : {t : Text} → {d : DType} → DescrText t d → ∃ v, Lit t v ∧ DescrOf v d
  | _, _, .plain (s := s) h => ⟨.str s, by simpa using lit_key s (spells_plain h), .plain h⟩
  | _, _, .record h => by
    obtain ⟨vs, h1, h2⟩ := lits_fieldsText h
    have := litB_list (lits_items (.inr rfl) h1)
    exact ⟨.list vs, by simpa using this, .record h2⟩
theorem lits_fieldsText : {ts : List Text} → {fs : Fields} → FieldsText ts fs → ∃ vs, Lits ts vs ∧ FieldsOf vs fs
  | _, _, .nil => ⟨[], .nil, .nil⟩
  | _, _, .scalar (name := name) h hs => by
    obtain ⟨v, h1, h2⟩ := lit_descrText h
    obtain ⟨vs, h3, h4⟩ := lits_fieldsText hs
    refine ⟨_ :: vs, .cons ?_ h3, .scalar h2 h4⟩
    have := lit_tuple (items_cons_cons_last 1 (Or.inl rfl) (lit_pyRepr name) h1)
    simpa using this
  | _, _, .array (name := name) (dims := dims) h hd hn hs => by
    obtain ⟨v, h1, h2⟩ := lit_descrText h
    obtain ⟨vs, h3, h4⟩ := lits_fieldsText hs
    refine ⟨_ :: vs, .cons ?_ h3, .array h2 hd hn h4⟩
    have := lit_tuple (items_three 1 1 (Or.inl rfl) (lit_pyRepr name) h1 (lit_pyTuple dims))
    simpa using this
end

mutual
theorem fromDescr_of : {v : PyVal} → {d : DType} → DescrOf v d → DType.fromDescr v = .ok d
  | _, _, .plain h => by simp [DType.fromDescr, convertTypeStr_ok.mpr ((parse_ok_iff _ _).mpr h)]
  | _, _, .record h => by simp [DType.fromDescr, fromList_of h]
theorem fromList_of : {vs : List PyVal} → {fs : Fields} → FieldsOf vs fs → Fields.fromList vs = .ok fs
  | _, _, .nil => rfl
  | _, _, .scalar h hs => by
    simp [Fields.fromList, fieldFromVal, fieldFromTuple, fieldName, fromDescr_of h, fromList_of hs]
  | _, _, .array (dims := dims) h _ hn hs => by
    have h3 : convertShape (.tuple (dims.map fun n : Nat => PyVal.int n)) = .ok dims := convertShape_ok_iff.mpr ⟨.inl rfl, hn⟩
    simp [Fields.fromList, fieldFromVal, fieldFromTuple, fieldName, fromDescr_of h, fromList_of hs, h3, wrapDims]
end

mutual
theorem descrOf_pyElem : (d : DType) → d.Wf → DescrOf d.pyElem d.elem
  | .plain t, h => by
    simp only [DType.Wf] at h
    exact .plain (spells_display h)
  | .array n d, h => by
    simp only [DType.Wf] at h
    simpa [DType.pyElem, DType.elem] using descrOf_pyElem d h.2
  | .record fs, h => by
    simp only [DType.Wf] at h
    simpa [DType.pyElem, DType.elem] using DescrOf.record (fieldsOf_py fs h)
theorem fieldsOf_py : (fs : Fields) → fs.Wf → FieldsOf fs.py fs
  | .nil, _ => .nil
  | .cons name (.array n d) rest, h => by
    simp only [Fields.Wf, DType.Wf] at h
    have h4 := wrapDims_dims (.array n d)
    simp only [DType.dims, DType.elem, wrapDims] at h4
    have := FieldsOf.array (name := name) (dims := n :: d.dims) (descrOf_pyElem d h.1.2) (by simp) (by
      intro m hm
      rcases List.mem_cons.mp hm with rfl | hm
      · exact h.1.1
      · exact dims_lt d h.1.2 m hm) (fieldsOf_py rest h.2)
    rw [h4] at this
    simpa [Fields.py, pyDims] using this
  | .cons name (.plain t) rest, h => by
    simp only [Fields.Wf] at h
    exact FieldsOf.scalar (descrOf_pyElem (.plain t) h.1) (fieldsOf_py rest h.2)
  | .cons name (.record fs) rest, h => by
    simp only [Fields.Wf] at h
    exact FieldsOf.scalar (descrOf_pyElem (.record fs) h.1) (fieldsOf_py rest h.2)
end

theorem headerOf_headerDict {d : DType} (hn : d.NotArray) (hw : d.Wf) (o : Order) (dims : List Nat) :
    HeaderOf (.dict (headerDict d o (dims.map fun n : Nat => PyVal.int n))) d o dims := by
  have := descrOf_pyElem d hw
  rw [elem_of_notArray hn] at this
  exact ⟨_, this, rfl⟩

theorem interpretHeader_of {M : Machine} {v : PyVal} {d : DType} {o : Order} {dims : List Nat} (h : HeaderOf v d o dims)
    (hd : ∀ n ∈ dims, n < 2 ^ 64) : interpretHeader M v = NpyHeader.fromParts M d dims o := by
  obtain ⟨descr, h1, rfl⟩ := h
  have h4 : convertShape (.tuple (dims.map fun n : Nat => PyVal.int n)) = .ok dims :=
    convertShape_ok_iff.mpr ⟨.inl rfl, hd⟩
  simp only [interpretHeader, stringKeys, Out.bind_ok, interpretDict, expectKey, lookupLast, txt]
  simp [orderFromVal, h4, fromDescr_of h1]
  cases o <;> rfl

theorem lit_numpyDict {t : Text} {v : PyVal} (h : Lit t v) (o : Order) (dims : List Nat) :
    Lit ("{'descr': ".toList ++ t ++ ", 'fortran_order': ".toList ++ (if o = .fortran then "True" else "False").toList
      ++ ", 'shape': ".toList ++ pyTuple dims ++ ", }".toList)
      (.dict [(.str "descr".toList, v), (.str "fortran_order".toList, .bool (o == .fortran)),
        (.str "shape".toList, .tuple (dims.map fun n : Nat => .int n))]) := by
  have h3 := entries_cons 1 1 (lit_key (txt "shape") (by decide)) (lit_pyTuple dims) entries_nil
  have h2 := entries_cons 1 1 (lit_key (txt "fortran_order") (by decide)) (lit_order o) h3
  have h1 := entries_cons 1 1 (lit_key (txt "descr") (by decide)) h h2
  have h := lit_dict h1
  have e : orderText o = (if o = .fortran then "True" else "False").toList := by cases o <;> rfl
  rw [e] at h
  simp only [List.cons_append, List.append_assoc, List.nil_append, List.replicate_one, List.singleton_append, txt] at h
  simpa using h

/-! ### Framing -/

theorem run_body {M : Machine} {py : PyParser} {bs : Bytes} (hg : GoodPreamble bs) (hle : headerEnd bs ≤ bs.length)
    (ha : headerEnd bs ≤ M.isizeMax) :
    (NpyHeader.fromReader M py).run bs = (finishHeader M py (headerBody bs), bs.drop (headerEnd bs)) := by
  obtain ⟨maj, min, p, r, rfl, hp⟩ := goodPreamble_iff.mp hg
  have hwid : p.width ≤ r.length := by
    rcases getVersionProps_ok_iff.mp hp with ⟨rfl, rfl, rfl⟩ | ⟨rfl, rfl, rfl⟩ | ⟨rfl, rfl, rfl⟩ <;>
      · simp [headerEnd, byteAt, magic, VersionProps.width] at hle ⊢; omega
  obtain ⟨szb, r2, rfl, hw⟩ : ∃ szb r2, r = szb ++ r2 ∧ szb.length = p.width :=
    ⟨r.take p.width, r.drop p.width, by simp, by simp [hwid]⟩
  have he := headerEnd_eq (r := r2) hp hw
  rw [List.append_assoc _ szb r2] at he
  have h6 : (if byteAt (magic ++ [maj, min] ++ (szb ++ r2)) 6 = 1 then 10 else 12) = 8 + p.width := by
    rcases getVersionProps_ok_iff.mp hp with ⟨rfl, rfl, rfl⟩ | ⟨rfl, rfl, rfl⟩ | ⟨rfl, rfl, rfl⟩ <;>
      simp [byteAt, magic, VersionProps.width]
  unfold headerBody
  rw [h6]
  rw [he] at hle ha ⊢
  have hlen : leNat szb ≤ r2.length := by simp [magic, hw] at hle; omega
  obtain ⟨text, rest, rfl, ht⟩ : ∃ text rest, r2 = text ++ rest ∧ text.length = leNat szb :=
    ⟨r2.take (leNat szb), r2.drop (leNat szb), by simp, by simp [hlen]⟩
  have e1 : magic ++ [maj, min] ++ (szb ++ (text ++ rest)) = magic ++ [maj, min] ++ szb ++ text ++ rest := by simp
  have l1 : (magic ++ [maj, min] ++ szb).length = 8 + p.width := by simp [magic, hw]; omega
  rw [e1, fromReader_run hp hw ht.symm (if_pos (by omega)), List.take_left' (by rw [List.length_append, l1, ht]),
    List.drop_left' l1, List.drop_left' (by rw [List.length_append, l1, ht])]

theorem finish_encoded {M : Machine} {py : PyParser} {version : Nat} {text : Text} {body : Bytes}
    (h : Encoded version (text ++ ['\n']) body) (ha : version = 3 ∨ ∀ c ∈ text, c.toNat < 128) :
    finishHeader M py body = (parseResult (py text) >>= interpretHeader M) := by
  have : body = encodeUtf8 text ++ [10] := by
    have e : encodeUtf8 (text ++ ['\n']) = encodeUtf8 text ++ [10] := by
      rw [encodeUtf8_append]; rfl
    unfold Encoded at h
    by_cases h3 : version = 3
    · rw [if_pos h3] at h; rw [h, e]
    · rw [if_neg h3] at h
      have ha := ha.resolve_left h3
      rw [h.2, List.map_append, encodeUtf8_ascii ha]; rfl
  rw [finishHeader, this, parseHeaderText_append]

/-! ### What the crate writes -/

theorem esc_no_nul {s : Text} (h : '\x00' ∉ s) : '\x00' ∉ s.flatMap esc := by
  rw [List.mem_flatMap]
  rintro ⟨c, hc, hm⟩
  have hne : c ≠ '\x00' := fun e => h (e ▸ hc)
  unfold esc at hm
  by_cases h1 : c = '\\'
  · subst h1; revert hm; decide
  by_cases h2 : c = '\''
  · subst h2; revert hm; decide
  by_cases h3 : c = '\r'
  · subst h3; revert hm; decide
  by_cases h4 : c = '\n'
  · subst h4; revert hm; decide
  simp [h1, h2, h3, h4] at hm
  exact hne hm.symm

theorem pyQuote_no_nul {s : Text} (h : '\x00' ∉ s) : '\x00' ∉ pyQuote s := by
  rw [pyQuote_eq]
  simp only [List.mem_cons, List.mem_append]
  rintro (h' | h' | h')
  · revert h'; decide
  · exact esc_no_nul h h'
  · revert h'; decide

theorem digits_no_nul (n : Nat) : '\x00' ∉ Nat.toDigits 10 n := fun h => absurd (isDigit_toDigits h) (by decide)

theorem dimsText_no_nul (ds : List Nat) : '\x00' ∉ dimsText ds := by
  simp only [dimsText, List.mem_flatMap, List.mem_append]
  rintro ⟨n, _, h | h⟩
  · exact digits_no_nul n h
  · revert h; decide

theorem plainDescr_no_nul (t : TypeStr) : '\x00' ∉ plainDescr t := by
  intro h
  have : ∀ c ∈ t.display, c ≠ '\x00' := by
    intro c hc
    simp only [TypeStr.display, List.mem_append] at hc
    rcases hc with ((hc | hc) | hc) | hc
    · revert hc; cases t.endianness <;> simp only [Endianness.toStr, List.mem_singleton] <;> rintro rfl <;> decide
    · revert hc; cases t.typeChar <;> simp only [TypeChar.toStr, List.mem_singleton] <;> rintro rfl <;> decide
    · split at hc
      · simp at hc
      · exact digit_ne (isDigit_toDigits hc) _ (by decide)
    · revert hc
      cases t.timeUnits with
      | none => simp [TypeStr.displayUnits]
      | some u =>
        have : ∀ c ∈ TypeStr.displayUnits (some u), c ≠ '\x00' := by cases u <;> decide
        exact this c
  simp only [plainDescr, List.mem_append] at h
  rcases h with (h | h) | h
  · revert h; decide
  · exact this _ h rfl
  · revert h; decide

mutual
theorem elemDescr_no_nul : (d : DType) → NoNul d → '\x00' ∉ d.elemDescr
  | .plain t, _ => by simpa [DType.elemDescr] using plainDescr_no_nul t
  | .array n d, h => by
    simp only [NoNul] at h
    simpa [DType.elemDescr] using elemDescr_no_nul d h
  | .record fs, h => by
    simp only [NoNul] at h
    simpa [DType.elemDescr, bracket] using fields_no_nul fs h
theorem fields_no_nul : (fs : Fields) → FieldsNoNul fs → '\x00' ∉ fs.descr
  | .nil, _ => by simp [Fields.descr]
  | .cons name (.array n d) rest, h => by
    simp only [FieldsNoNul, NoNul] at h
    simpa [Fields.descr, txt] using ⟨pyQuote_no_nul h.1, elemDescr_no_nul d h.2.1, dimsText_no_nul _, fields_no_nul rest h.2.2⟩
  | .cons name (.plain t) rest, h => by
    simp only [FieldsNoNul] at h
    simpa [Fields.descr, txt, DType.descr] using ⟨pyQuote_no_nul h.1, plainDescr_no_nul t, fields_no_nul rest h.2.2⟩
  | .cons name (.record fs) rest, h => by
    simp only [FieldsNoNul, NoNul] at h
    simpa [Fields.descr, txt, DType.descr, bracket] using ⟨pyQuote_no_nul h.1, fields_no_nul fs h.2.1, fields_no_nul rest h.2.2⟩
end

theorem dictPrefix_no_nul {d : DType} (hn : d.NotArray) (h : NoNul d) (o : Order) : '\x00' ∉ dictPrefix d o := by
  have h1 := elemDescr_no_nul d h
  rw [← descr_eq_elemDescr hn] at h1
  have h2 : '\x00' ∉ orderText o := by cases o <;> decide
  simpa [dictPrefix, txt] using ⟨h1, h2⟩

/-- The parsed dictionary and the text of a finished file. -/
theorem finalDict_lit {d : DType} (hn : d.NotArray) (hz : NoNul d) (o : Order) (hint : ShapeHint) (n : Nat) :
    ∃ t k, finalDict d o hint n = t ++ List.replicate k ' ' ∧
      Lit t (.dict (headerDict d o ((finalShape o n hint).map fun n : Nat => PyVal.int n))) ∧ '\x00' ∉ t := by
  have hp := dictPrefix_no_nul hn hz o
  cases hint with
  | nd dims =>
    refine ⟨dictPrefix d o ++ shapeText dims, 0, ?_, lit_ndText hn o dims, ?_⟩
    · have e1 : txt ", 'shape': (" = txt ", 'shape': " ++ txt "(" := by decide +kernel
      have e2 : txt "), }" = txt ")" ++ txt ", }" := by decide +kernel
      have eo : orderText o = boolText (o == .fortran) := by cases o <;> rfl
      simp only [finalDict, ShapeHint.seeks, Bool.false_eq_true, if_false, List.replicate_zero, List.append_nil, dictText, ← eo]
      simp only [dictPrefix, shapeTuple, shapeText, e1, e2, List.append_assoc]
    · rw [List.mem_append]
      rintro (h | h)
      · exact hp h
      · simp only [shapeText, List.mem_append, List.mem_flatMap] at h
        rcases h with ⟨m, _, h | h⟩ | h
        · exact digits_no_nul m h
        · revert h; decide
        · revert h; decide
  | oneD =>
    refine ⟨_, 20 - (Nat.toDigits 10 (axisOf n .oneD)).length, ?_, lit_suffix (hint := .oneD) hn o rfl n, ?_⟩
    · simp only [finalDict, ShapeHint.seeks, if_true, finishedText, finishedSuffix, List.append_assoc]
    · rw [List.mem_append]
      rintro (h | h)
      · exact hp h
      · simp only [suffixText, List.mem_append] at h
        rcases h with h | h
        · exact digits_no_nul _ h
        · revert h; decide
  | twoD r =>
    refine ⟨_, 20 - (Nat.toDigits 10 (axisOf n (.twoD r))).length, ?_, lit_suffix (hint := .twoD r) hn o rfl n, ?_⟩
    · simp only [finalDict, ShapeHint.seeks, if_true, finishedText, finishedSuffix, List.append_assoc]
    · rw [List.mem_append]
      rintro (h | h)
      · exact hp h
      · cases o
        · simp only [suffixText, axes2d, List.mem_append] at h
          rcases h with ((h | h) | h) | h
          all_goals first | exact digits_no_nul _ h | (revert h; decide)
        · simp only [suffixText, axes2d, List.mem_append] at h
          rcases h with ((h | h) | h) | h
          all_goals first | exact digits_no_nul _ h | (revert h; decide)

theorem headerBody_headerBytes {dict : Text} (hlen : (headerText dict).length ≤ (usedProps (encodeUtf8 dict)).maxLen) (rest : Bytes) :
    headerBody (headerBytes dict ++ rest) = headerText dict := by
  have hver := usedProps_version (encodeUtf8 dict)
  have hb6 : byteAt (headerBytes dict ++ rest) 6 = (getMinimalVersion (requiredProps (encodeUtf8 dict))).1.toNat := rfl
  unfold headerBody
  rw [headerEnd_headerBytes hlen rest, List.take_left' rfl]
  have h6 : (if byteAt (headerBytes dict ++ rest) 6 = 1 then 10 else 12) = 8 + (usedProps (encodeUtf8 dict)).width := by
    rw [hb6]
    generalize usedProps (encodeUtf8 dict) = p at hver
    rcases getVersionProps_ok_iff.mp hver with ⟨h1, _, rfl⟩ | ⟨h1, _, rfl⟩ | ⟨h1, _, rfl⟩ <;> rw [h1] <;> rfl
  rw [h6]
  unfold headerBytes emitHeader
  rw [List.drop_left' (by simp [magic, leBytes_length]; omega)]

/-- NumPy reads what `headerBytes` wrote. -/
theorem numpyReads_headerBytes {dict t : Text} {k : Nat} (he : dict = t ++ List.replicate k ' ') {v : PyVal} (hl : Lit t v)
    (hz : '\x00' ∉ t) {d : DType} {o : Order} {dims : List Nat} (hv : HeaderOf v d o dims) (hd : DistinctNames d)
    (hlen : (headerText dict).length ≤ (usedProps (encodeUtf8 dict)).maxLen) (rest : Bytes) :
    NumpyReads (headerBytes dict ++ rest) d o dims := by
  have hfit : (headerText dict).length < 256 ^ (usedProps (encodeUtf8 dict)).width := by
    have : 0 < 256 ^ (usedProps (encodeUtf8 dict)).width := Nat.pow_pos (by omega)
    simp only [VersionProps.maxLen] at hlen
    omega
  have hend := headerEnd_headerBytes hlen rest
  obtain ⟨n, hn⟩ := headerText_eq dict
  have hver := usedProps_version (encodeUtf8 dict)
  have e0 : headerBytes dict ++ rest = magic ++ [(getMinimalVersion (requiredProps (encodeUtf8 dict))).1,
      (getMinimalVersion (requiredProps (encodeUtf8 dict))).2] ++ (leBytes (usedProps (encodeUtf8 dict)).width (headerText dict).length
      ++ headerText dict ++ rest) := by simp [headerBytes, emitHeader]
  have hb6 : byteAt (headerBytes dict ++ rest) 6 = (getMinimalVersion (requiredProps (encodeUtf8 dict))).1.toNat := rfl
  refine ⟨goodPreamble_iff.mpr ⟨_, _, _, _, e0, hver⟩, by rw [hend]; simp, dict ++ List.replicate n ' ', v, ?_, ?_, ?_, hv, hd⟩
  · have hbody := headerBody_headerBytes hlen rest
    rw [hbody, hb6, hn]
    have e10 : encodeUtf8 (dict ++ List.replicate n ' ') ++ [10] = encodeUtf8 (dict ++ List.replicate n ' ' ++ ['\n']) := by
      rw [encodeUtf8_append (dict ++ List.replicate n ' ')]; rfl
    rw [e10]
    unfold Encoded
    by_cases h3 : (getMinimalVersion (requiredProps (encodeUtf8 dict))).1.toNat = 3
    · rw [if_pos h3]
    · rw [if_neg h3]
      have hasc : ∀ c ∈ dict, c.toNat < 128 := by
        intro c hc
        apply Nat.lt_of_not_le
        intro hge
        have := (encodeUtf8_any_high dict).mpr ⟨c, hc, hge⟩
        apply h3
        unfold requiredProps getMinimalVersion
        rw [this]; rfl
      have hasc2 : ∀ c ∈ dict ++ List.replicate n ' ' ++ ['\n'], c.toNat < 128 := by
        intro c hc
        simp only [List.mem_append, List.mem_replicate, List.mem_singleton] at hc
        rcases hc with (hc | ⟨_, rfl⟩) | rfl
        · exact hasc c hc
        · decide
        · decide
      exact ⟨fun c hc => by have := hasc2 c hc; omega, encodeUtf8_ascii hasc2⟩
  · rw [he]
    simp only [List.mem_append, List.mem_replicate]
    rintro ((h | ⟨_, h⟩) | ⟨_, h⟩)
    · exact hz h
    · revert h; decide
    · revert h; decide
  · rw [he, List.append_assoc, List.replicate_append_replicate]
    exact parse_of_lit hl _

/-! ### NUL characters in field names -/

theorem pyQuote_nul {s : Text} (h : '\x00' ∈ s) : '\x00' ∈ pyQuote s := by
  rw [pyQuote_eq]
  refine List.mem_cons_of_mem _ (List.mem_append_left _ (List.mem_flatMap.mpr ⟨_, h, by decide⟩))

mutual
theorem elemDescr_nul : (d : DType) → ¬ NoNul d → '\x00' ∈ d.elemDescr
  | .plain t, h => absurd (by simp [NoNul]) h
  | .array n d, h => by
    simp only [NoNul] at h
    simpa [DType.elemDescr] using elemDescr_nul d h
  | .record fs, h => by
    simp only [NoNul] at h
    simpa [DType.elemDescr, bracket] using fields_nul fs h
theorem fields_nul : (fs : Fields) → ¬ FieldsNoNul fs → '\x00' ∈ fs.descr
  | .nil, h => absurd (by simp [FieldsNoNul]) h
  | .cons name (.array n d) rest, h => by
    by_cases h1 : '\x00' ∈ name
    · simp [Fields.descr, pyQuote_nul h1]
    by_cases h2 : NoNul d
    · by_cases h3 : FieldsNoNul rest
      · exact absurd (by simp [FieldsNoNul, NoNul, h1, h2, h3]) h
      · simp [Fields.descr, fields_nul rest h3]
    · simp [Fields.descr, elemDescr_nul d h2]
  | .cons name (.plain t) rest, h => by
    by_cases h1 : '\x00' ∈ name
    · simp [Fields.descr, pyQuote_nul h1]
    by_cases h3 : FieldsNoNul rest
    · exact absurd (by simp [FieldsNoNul, NoNul, h1, h3]) h
    · simp [Fields.descr, fields_nul rest h3]
  | .cons name (.record fs) rest, h => by
    by_cases h1 : '\x00' ∈ name
    · simp [Fields.descr, pyQuote_nul h1]
    by_cases h2 : FieldsNoNul fs
    · by_cases h3 : FieldsNoNul rest
      · exact absurd (by simp [FieldsNoNul, NoNul, h1, h2, h3]) h
      · simp [Fields.descr, fields_nul rest h3]
    · simp [Fields.descr, DType.descr, bracket, fields_nul fs h2]
end

theorem dictPrefix_nul {d : DType} (hn : d.NotArray) (h : ¬ NoNul d) (o : Order) : '\x00' ∈ dictPrefix d o := by
  have h1 := elemDescr_nul d h
  rw [← descr_eq_elemDescr hn] at h1
  simp [dictPrefix, h1]

theorem finalDict_nul {d : DType} (hn : d.NotArray) (h : ¬ NoNul d) (o : Order) (hint : ShapeHint) (n : Nat) :
    '\x00' ∈ finalDict d o hint n := by
  have h1 := elemDescr_nul d h
  rw [← descr_eq_elemDescr hn] at h1
  unfold finalDict
  split
  · simp [finishedText, dictPrefix_nul hn h]
  · simp [dictText, h1]

theorem nul_byte {s : Text} (h : '\x00' ∈ s) : (0 : UInt8) ∈ encodeUtf8 s := by
  unfold encodeUtf8
  exact List.mem_flatMap.mpr ⟨_, h, by decide⟩

theorem encoded_nul {version : Nat} {text : Text} {bs : Bytes} (h : Encoded version (text ++ ['\n']) bs) (h0 : (0 : UInt8) ∈ bs) :
    '\x00' ∈ text := by
  have key : '\x00' ∈ text ++ ['\n'] := by
    unfold Encoded at h
    split at h
    · subst h
      simp only [encodeUtf8, List.mem_flatMap] at h0
      obtain ⟨c, hc, hm⟩ := h0
      have hlt := char_toNat_lt c
      have : c.toNat = 0 := by
        rw [utf8EncodeChar_def] at hm
        have key : ∀ n, n < 256 → (0 : UInt8) = UInt8.ofNat n → n = 0 := by
          intro n hn he
          have := congrArg UInt8.toNat he
          rw [toNat_ofNat_lt hn] at this
          simpa using this.symm
        split at hm
        · simp only [List.mem_singleton] at hm
          exact key _ (by omega) hm
        · split at hm
          · simp only [List.mem_cons, List.not_mem_nil, or_false] at hm
            rcases hm with hm | hm
            · have := key _ (by omega) hm; omega
            · have := key _ (by omega) hm; omega
          · split at hm
            · simp only [List.mem_cons, List.not_mem_nil, or_false] at hm
              rcases hm with hm | hm | hm
              · have := key _ (by omega) hm; omega
              · have := key _ (by omega) hm; omega
              · have := key _ (by omega) hm; omega
            · simp only [List.mem_cons, List.not_mem_nil, or_false] at hm
              rcases hm with hm | hm | hm | hm
              · have := key _ (by omega) hm; omega
              · have := key _ (by omega) hm; omega
              · have := key _ (by omega) hm; omega
              · have := key _ (by omega) hm; omega
      rwa [show c = '\x00' from Char.toNat_inj.mp this] at hc
    · obtain ⟨h1, rfl⟩ := h
      obtain ⟨c, hc, hm⟩ := List.mem_map.mp h0
      have := congrArg UInt8.toNat hm
      rw [toNat_ofNat_lt (h1 c hc)] at this
      rwa [show c = '\x00' from Char.toNat_inj.mp this] at hc
  rcases List.mem_append.mp key with h | h
  · exact h
  · exact absurd h (by decide)

/-- NumPy refuses a header with a NUL character. -/
theorem not_numpyReads_headerBytes {dict : Text} (hz : '\x00' ∈ dict)
    (hlen : (headerText dict).length ≤ (usedProps (encodeUtf8 dict)).maxLen) (rest : Bytes) (d : DType) (o : Order) (dims : List Nat) :
    ¬ NumpyReads (headerBytes dict ++ rest) d o dims := by
  rintro ⟨-, -, text, v, h1, h2, -⟩
  have hbody : headerBody (headerBytes dict ++ rest) = headerText dict := headerBody_headerBytes hlen rest
  rw [hbody] at h1
  refine h2 (encoded_nul h1 ?_)
  obtain ⟨n, hn⟩ := headerText_eq dict
  rw [hn, encodeUtf8_append]
  simp [nul_byte hz]

/-- An encoded text in version 1 or 2 whose bytes are all ASCII is its UTF-8 form. -/
theorem encoded_ascii {text : Text} {bs : Bytes} {version : Nat} (h : Encoded version text bs) (ha : version = 3 ∨ ∀ b ∈ bs, b.toNat < 128) :
    bs = encodeUtf8 text := by
  unfold Encoded at h
  by_cases h3 : version = 3
  · rwa [if_pos h3] at h
  · rw [if_neg h3] at h
    obtain ⟨h1, rfl⟩ := h
    have ha := ha.resolve_left h3
    rw [encodeUtf8_ascii]
    intro c hc
    have := ha _ (List.mem_map.mpr ⟨c, hc, rfl⟩)
    rwa [toNat_ofNat_lt (h1 c hc)] at this

/-- NumPy cannot read anything but what was written. -/
theorem numpyReads_unique {dict t : Text} {k : Nat} (he : dict = t ++ List.replicate k ' ') {v : PyVal} (hl : Lit t v)
    {d : DType} {o : Order} {dims : List Nat} (hv : HeaderOf v d o dims)
    (hlen : (headerText dict).length ≤ (usedProps (encodeUtf8 dict)).maxLen) {rest : Bytes} {d' : DType} {o' : Order} {dims' : List Nat}
    (h : NumpyReads (headerBytes dict ++ rest) d' o' dims') : d' = d ∧ o' = o ∧ dims' = dims := by
  obtain ⟨-, -, text, v', h1, -, h2, h3, -⟩ := h
  rw [headerBody_headerBytes hlen rest] at h1
  obtain ⟨n, hn⟩ := headerText_eq dict
  have e10 : encodeUtf8 (dict ++ List.replicate n ' ') ++ [10] = encodeUtf8 (dict ++ List.replicate n ' ' ++ ['\n']) := by
    rw [encodeUtf8_append (dict ++ List.replicate n ' ')]; rfl
  have hb6 : byteAt (headerBytes dict ++ rest) 6 = (getMinimalVersion (requiredProps (encodeUtf8 dict))).1.toNat := rfl
  have e := encoded_ascii h1 (by
    rw [hb6]
    by_cases hany : (encodeUtf8 dict).any (fun b => decide (b.toNat ≥ 128)) = true
    · left; unfold requiredProps getMinimalVersion; rw [hany]; rfl
    · right
      intro b hb
      apply Nat.lt_of_not_le
      intro hge
      rw [hn, e10] at hb
      have := (encodeUtf8_any_high _).mp (List.any_eq_true.mpr ⟨b, hb, by simpa using hge⟩)
      obtain ⟨c, hc, hc'⟩ := this
      simp only [List.mem_append, List.mem_replicate, List.mem_singleton] at hc
      rcases hc with (hc | ⟨-, rfl⟩) | rfl
      · exact hany ((encodeUtf8_any_high _).mpr ⟨c, hc, hc'⟩)
      · exact absurd hc' (by decide)
      · exact absurd hc' (by decide))
  rw [hn, e10] at e
  have et := congrArg decodeUtf8 e
  rw [decodeUtf8_encode, decodeUtf8_encode] at et
  have et := List.append_cancel_right (Option.some.inj et)
  have hp := parse_of_lit hl (k + n)
  rw [← et, he, List.append_assoc, List.replicate_append_replicate, hp] at h2
  cases h2
  obtain ⟨x, hx, rfl⟩ := hv
  obtain ⟨y, hy, e⟩ := h3
  injection e with e
  obtain ⟨e1, e⟩ := List.cons.inj e
  obtain ⟨e2, e⟩ := List.cons.inj e
  obtain ⟨e3, -⟩ := List.cons.inj e
  injection e1 with _ e1
  injection e2 with _ e2
  injection e3 with _ e3
  injection e2 with e2
  injection e3 with e3
  subst e1
  have := (fromDescr_of hx).symm.trans (fromDescr_of hy)
  cases this
  refine ⟨rfl, (by cases o <;> cases o' <;> first | rfl | cases e2), ?_⟩
  have := congrArg (List.map fun v => match v with | .int n => n.toNat | _ => 0) e3
  simpa [List.map_map, Function.comp_def] using this.symm

end Npyz
