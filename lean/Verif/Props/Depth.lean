import Verif.Props.Framing
import Verif.Props.WriteHeader
import Verif.Proofs.Finish
import Verif.Proofs.Numpy
import Verif.Spec.Depth
/-!
C127: how deep the dtype of an untrusted file is nested.

`nesting`, `values`, `OneCharEach` and `deepDType` are in `Verif/Spec/Depth.lean`.
-/
namespace Npyz.Props
set_option autoImplicit false
open Npyz Spec Py

/-! ### The reference parser needs a character for each value -/

theorem skipWs_length (s : Text) : (skipWs s).length ≤ s.length := by
  unfold skipWs
  exact (List.dropWhile_sublist _).length_le

theorem strBody_length (q : Char) (n : Nat) : ∀ {s x r : Text}, s.length ≤ n → strBody q s = some (x, r) → r.length < s.length := by
  induction n with
  | zero =>
    intro s x r hs h
    cases s with
    | nil => cases h
    | cons c s => simp at hs
  | succ n ih =>
    intro s x r hs h
    cases s with
    | nil => cases h
    | cons c s =>
      rw [List.length_cons] at hs
      rw [strBody.eq_def] at h
      simp only at h
      have key : ∀ (y : Option Char) (t : Text), t.length ≤ s.length → consChar y (strBody q t) = some (x, r) → r.length < s.length + 1 := by
        intro y t ht h
        rcases y with _ | y
        · cases h
        · rcases ht' : strBody q t with _ | ⟨x', r'⟩
          · rw [ht'] at h; cases h
          · rw [ht'] at h
            have := ih (by omega) ht'
            have e : r' = r := (Prod.mk.inj (Option.some.inj h)).2
            rw [← e]
            omega
      rw [List.length_cons]
      by_cases h1 : c = q
      · rw [if_pos h1] at h
        have e : s = r := (Prod.mk.inj (Option.some.inj h)).2
        rw [e]; omega
      · rw [if_neg h1] at h
        by_cases h2 : c = '\\'
        · rw [if_pos h2] at h
          cases s with
          | nil => cases h
          | cons e r' => exact key _ r' (by simp) h
        · rw [if_neg h2] at h
          by_cases h3 : c = '\n' ∨ c = '\r'
          · rw [if_pos h3] at h; cases h
          · rw [if_neg h3] at h
            exact key _ s (by omega) h

theorem parseNat_length {s r : Text} {n : Nat} (h : parseNat s = some (n, r)) : r.length < s.length := by
  unfold parseNat at h
  cases hd : digitsVal (s.takeWhile Char.isDigit) with
  | none => rw [hd] at h; cases h
  | some m =>
    rw [hd] at h
    have e : s.dropWhile Char.isDigit = r := (Prod.mk.inj (Option.some.inj h)).2
    have hne : s.takeWhile Char.isDigit ≠ [] := fun h0 => by rw [h0] at hd; cases hd
    have hl := congrArg List.length (List.takeWhile_append_dropWhile (p := Char.isDigit) (l := s))
    rw [List.length_append, e] at hl
    have := List.length_pos_iff.mpr hne
    omega

theorem parseKeyword_length {s r : Text} {v : PyVal} (h : parseKeyword s = some (v, r)) : values v + r.length ≤ s.length := by
  unfold parseKeyword at h
  split at h <;> cases h <;> simp [values] <;> omega

theorem parse_lengths (fuel : Nat) :
    (∀ {s r v}, parseVal fuel s = some (v, r) → values v + r.length ≤ s.length) ∧
    (∀ {c s r vs b}, parseItems fuel c s = some (vs, b, r) → valuesIn vs + r.length + 1 ≤ s.length) ∧
    (∀ {s r kvs}, parseEntries fuel s = some (kvs, r) → valuesInDict kvs + r.length + 1 ≤ s.length) := by
  induction fuel with
  | zero =>
    refine ⟨fun h => ?_, fun h => ?_, fun h => ?_⟩
    · rw [parseVal] at h; cases h
    · rw [parseItems] at h; cases h
    · rw [parseEntries] at h; cases h
  | succ fuel ih =>
    obtain ⟨ih1, ih2, ih3⟩ := ih
    refine ⟨fun {s r v} h => ?_, fun {c s r vs b} h => ?_, fun {s r kvs} h => ?_⟩
    · cases s with
      | nil => rw [parseVal] at h; cases h
      | cons c s =>
        rw [parseVal] at h
        rw [List.length_cons]
        have hw := skipWs_length s
        split at h
        · split at h
          · rename_i x r' hx
            cases h
            have := strBody_length _ _ (Nat.le_refl _) hx
            simp [values]; omega
          · cases h
        · split at h
          · rcases hx : parseItems fuel ')' (skipWs s) with _ | ⟨vs, b, r'⟩
            · rw [hx] at h; cases h
            · rw [hx] at h
              simp only [mkTuple] at h
              split at h
              · cases h
              · cases h
                have := ih2 hx
                simp only [values]; omega
          · split at h
            · rcases hx : parseItems fuel ']' (skipWs s) with _ | ⟨vs, b, r'⟩
              · rw [hx] at h; cases h
              · rw [hx] at h
                cases h
                have := ih2 hx
                simp only [values]; omega
            · split at h
              · rcases hx : parseEntries fuel (skipWs s) with _ | ⟨kvs, r'⟩
                · rw [hx] at h; cases h
                · rw [hx] at h
                  cases h
                  have := ih3 hx
                  simp only [values]; omega
              · split at h
                · split at h
                  · rename_i n r' hx
                    cases h
                    have := parseNat_length hx
                    rw [List.length_cons] at this
                    simp only [values]; omega
                  · cases h
                · split at h
                  · split at h
                    · rename_i n r' hx
                      cases h
                      have := parseNat_length hx
                      simp only [values]; omega
                    · cases h
                  · have := parseKeyword_length h
                    rwa [List.length_cons] at this
    · cases s with
      | nil => rw [parseItems] at h; cases h
      | cons d s =>
        rw [parseItems] at h
        split at h
        · cases h; simp [valuesIn]
        · split at h
          · rename_i v r' hx
            have h1 := ih1 hx
            have hw := skipWs_length r'
            rcases hs : skipWs r' with _ | ⟨e, r2⟩
            · rw [hs] at h; cases h
            · rw [hs] at h hw
              rw [List.length_cons] at hw
              simp only [itemTail] at h
              split at h
              · cases h; simp [valuesIn]; simp at h1; omega
              · split at h
                · split at h
                  · rename_i vs' b' r3 hy
                    cases h
                    have h2 := ih2 hy
                    have := skipWs_length r2
                    simp only [valuesIn]; omega
                  · cases h
                · cases h
          · cases h
    · cases s with
      | nil => rw [parseEntries] at h; cases h
      | cons d s =>
        rw [parseEntries] at h
        split at h
        · cases h; simp [valuesInDict]
        · split at h
          · rename_i k r1 hx
            have h1 := ih1 hx
            have hw := skipWs_length r1
            split at h
            · rename_i r2 hc
              have hc' : r2.length < (skipWs r1).length := by
                rcases hs : skipWs r1 with _ | ⟨e, r4⟩
                · rw [hs] at hc; cases hc
                · rw [hs] at hc
                  simp only [expectColon] at hc
                  split at hc
                  · cases hc
                    have := skipWs_length r4
                    rw [List.length_cons]; omega
                  · cases hc
              split at h
              · rename_i v r3 hv
                have h2 := ih1 hv
                have hw3 := skipWs_length r3
                rcases hs : skipWs r3 with _ | ⟨e, r5⟩
                · rw [hs] at h; cases h
                · rw [hs] at h hw3
                  rw [List.length_cons] at hw3
                  simp only [entryTail] at h
                  split at h
                  · cases h; simp only [valuesInDict]; omega
                  · split at h
                    · split at h
                      · rename_i kvs' r6 hy
                        cases h
                        have h4 := ih3 hy
                        have := skipWs_length r5
                        simp only [valuesInDict]; omega
                      · cases h
                    · cases h
              · cases h
            · cases h
          · cases h

theorem parse_oneCharEach : OneCharEach Py.parse := by
  intro s v h
  unfold Py.parse at h
  rcases hx : parseVal (s.length + 1) (skipWs s) with _ | ⟨w, r⟩
  · rw [hx] at h; cases h
  · rw [hx] at h
    simp only [Py.finish] at h
    split at h
    · cases h
      have := (parse_lengths _).1 hx
      have := skipWs_length s
      omega
    · cases h

/-! ### A dtype is not nested deeper than its description has values -/

theorem shapeIntegers_values {vs : List PyVal} {dims : List Nat} (h : shapeIntegers vs = .ok dims) : dims.length ≤ valuesIn vs := by
  induction vs generalizing dims with
  | nil => cases h; exact Nat.le_refl _
  | cons v vs ih =>
    rw [shapeIntegers] at h
    obtain ⟨n, h1, h⟩ := Out.bind_eq_ok.mp h
    obtain ⟨ns, h2, h⟩ := Out.bind_eq_ok.mp h
    cases h
    have := ih h2
    have : 1 ≤ values v := by cases v <;> simp [values]
    simp only [List.length_cons, valuesIn]
    omega

theorem convertShape_values {v : PyVal} {dims : List Nat} (h : convertShape v = .ok dims) : dims.length ≤ values v := by
  unfold convertShape at h
  split at h
  · have := shapeIntegers_values h; simp only [values]; omega
  · have := shapeIntegers_values h; simp only [values]; omega
  · cases h

theorem wrapDims_nesting (dims : List Nat) (d : DType) : nesting (wrapDims dims d) = dims.length + nesting d := by
  induction dims with
  | nil => simp [wrapDims]
  | cons n dims ih =>
    have : wrapDims (n :: dims) d = .array n (wrapDims dims d) := rfl
    rw [this, nesting, ih, List.length_cons]; omega

mutual
theorem fromDescr_nesting : (v : PyVal) → {d : DType} → DType.fromDescr v = .ok d → nesting d ≤ values v
  | .str s, d, h => by
    rw [DType.fromDescr] at h
    obtain ⟨t, h1, h⟩ := Out.bind_eq_ok.mp h
    cases h
    simp [nesting, values]
  | .list vs, d, h => by
    rw [DType.fromDescr] at h
    obtain ⟨fs, h1, h⟩ := Out.bind_eq_ok.mp h
    cases h
    have := fromList_nesting vs h1
    simp only [nesting, values]; omega
  | .int _, d, h => by rw [DType.fromDescr] at h; cases h; all_goals simp
  | .bool _, d, h => by rw [DType.fromDescr] at h; cases h; all_goals simp
  | .none, d, h => by rw [DType.fromDescr] at h; cases h; all_goals simp
  | .tuple _, d, h => by rw [DType.fromDescr] at h; cases h; all_goals simp
  | .dict _, d, h => by rw [DType.fromDescr] at h; cases h; all_goals simp
  | .other, d, h => by rw [DType.fromDescr] at h; cases h; all_goals simp
theorem fromList_nesting : (vs : List PyVal) → {fs : Fields} → Fields.fromList vs = .ok fs → fieldsNesting fs ≤ valuesIn vs
  | [], fs, h => by rw [Fields.fromList] at h; cases h; exact Nat.le_refl _
  | v :: vs, fs, h => by
    rw [Fields.fromList] at h
    obtain ⟨f, h1, h⟩ := Out.bind_eq_ok.mp h
    obtain ⟨fs', h2, h⟩ := Out.bind_eq_ok.mp h
    cases h
    have a := fieldFromVal_nesting v h1
    have b := fromList_nesting vs h2
    simp only [fieldsNesting, valuesIn]; omega
theorem fieldFromVal_nesting : (v : PyVal) → {f : Text × DType} → fieldFromVal v = .ok f → nesting f.2 ≤ values v
  | .list t, f, h => by
    rw [fieldFromVal] at h
    have := fieldFromTuple_nesting t h
    simp only [values]; omega
  | .tuple t, f, h => by
    rw [fieldFromVal] at h
    have := fieldFromTuple_nesting t h
    simp only [values]; omega
  | .str _, f, h => by rw [fieldFromVal] at h; cases h; all_goals simp
  | .int _, f, h => by rw [fieldFromVal] at h; cases h; all_goals simp
  | .bool _, f, h => by rw [fieldFromVal] at h; cases h; all_goals simp
  | .none, f, h => by rw [fieldFromVal] at h; cases h; all_goals simp
  | .dict _, f, h => by rw [fieldFromVal] at h; cases h; all_goals simp
  | .other, f, h => by rw [fieldFromVal] at h; cases h; all_goals simp
theorem fieldFromTuple_nesting : (vs : List PyVal) → {f : Text × DType} → fieldFromTuple vs = .ok f → nesting f.2 ≤ valuesIn vs
  | [n, d], f, h => by
    rw [fieldFromTuple] at h
    obtain ⟨name, h1, h⟩ := Out.bind_eq_ok.mp h
    obtain ⟨dt, h2, h⟩ := Out.bind_eq_ok.mp h
    cases h
    have := fromDescr_nesting d h2
    simp only [valuesIn]; omega
  | [n, d, s], f, h => by
    rw [fieldFromTuple] at h
    obtain ⟨name, h1, h⟩ := Out.bind_eq_ok.mp h
    obtain ⟨dt, h2, h⟩ := Out.bind_eq_ok.mp h
    obtain ⟨dims, h3, h⟩ := Out.bind_eq_ok.mp h
    cases h
    have := fromDescr_nesting d h2
    have := convertShape_values h3
    simp only [valuesIn, wrapDims_nesting]; omega
  | [], f, h => by rw [fieldFromTuple] at h; cases h; all_goals simp
  | [_], f, h => by rw [fieldFromTuple] at h; cases h; all_goals simp
  | _ :: _ :: _ :: _ :: _, f, h => by rw [fieldFromTuple] at h; cases h; all_goals simp
end

theorem stringKeys_values {kvs : List (PyVal × PyVal)} {d : List (Text × PyVal)} (h : stringKeys kvs = .ok d) :
    ∀ k v, (k, v) ∈ d → values v ≤ valuesInDict kvs := by
  induction kvs generalizing d with
  | nil => cases h; intro k v hm; cases hm
  | cons kv kvs ih =>
    obtain ⟨k0, v0⟩ := kv
    cases k0 with
    | str s =>
      rw [stringKeys] at h
      obtain ⟨r, h1, h⟩ := Out.bind_eq_ok.mp h
      cases h
      intro k v hm
      simp only [valuesInDict]
      rcases List.mem_cons.mp hm with he | hm
      · cases he; omega
      · have := ih h1 k v hm; omega
    | _ => rw [stringKeys.eq_def] at h; cases h

theorem lookupLast_mem {k : Text} {d : List (Text × PyVal)} {v : PyVal} (h : lookupLast k d = some v) : ∃ k', (k', v) ∈ d := by
  induction d with
  | nil => cases h
  | cons kv d ih =>
    obtain ⟨k', w⟩ := kv
    rw [lookupLast] at h
    cases hl : lookupLast k d with
    | some x =>
      rw [hl] at h
      cases h
      obtain ⟨k2, hk⟩ := ih hl
      exact ⟨k2, List.mem_cons_of_mem _ hk⟩
    | none =>
      rw [hl] at h
      simp only at h
      split at h
      · cases h; exact ⟨k', List.mem_cons_self⟩
      · cases h

theorem fromParts_dtype {M : Machine} {d : DType} {shape : List Nat} {o : Order} {h : NpyHeader} (hp : NpyHeader.fromParts M d shape o = .ok h) :
    h.dtype = d := by
  unfold NpyHeader.fromParts at hp
  obtain ⟨_, -, hp⟩ := Out.bind_eq_ok.mp hp
  obtain ⟨_, -, hp⟩ := Out.bind_eq_ok.mp hp
  obtain ⟨_, -, hp⟩ := Out.bind_eq_ok.mp hp
  cases hp
  rfl

theorem interpretHeader_nesting {M : Machine} {v : PyVal} {h : NpyHeader} (hi : interpretHeader M v = .ok h) : nesting h.dtype < values v := by
  unfold interpretHeader at hi
  split at hi
  · rename_i kvs
    obtain ⟨d, hd, hi⟩ := Out.bind_eq_ok.mp hi
    unfold interpretDict at hi
    obtain ⟨_, -, hi⟩ := Out.bind_eq_ok.mp hi
    obtain ⟨_, -, hi⟩ := Out.bind_eq_ok.mp hi
    obtain ⟨_, -, hi⟩ := Out.bind_eq_ok.mp hi
    obtain ⟨_, -, hi⟩ := Out.bind_eq_ok.mp hi
    obtain ⟨de, h1, hi⟩ := Out.bind_eq_ok.mp hi
    obtain ⟨dt, h2, hi⟩ := Out.bind_eq_ok.mp hi
    rw [fromParts_dtype hi]
    unfold expectKey at h1
    split at h1
    · rename_i w hw
      cases h1
      obtain ⟨k, hk⟩ := lookupLast_mem hw
      have := stringKeys_values hd k de hk
      have := fromDescr_nesting de h2
      simp only [values]; omega
    · cases h1
  · cases hi

theorem encodeUtf8_length_ge (s : Text) : s.length ≤ (encodeUtf8 s).length := by
  induction s with
  | nil => exact Nat.zero_le _
  | cons c s ih =>
    have h1 : encodeUtf8 (c :: s) = encodeUtf8 [c] ++ encodeUtf8 s := encodeUtf8_append [c] s
    have h2 : encodeUtf8 [c] ≠ [] := fun h => by
      have h3 := decodeUtf8_encode [c]
      rw [h, show decodeUtf8 [] = some [] from rfl] at h3
      cases h3
    have := List.length_pos_iff.mpr h2
    rw [h1, List.length_append, List.length_cons]
    omega

/-- C127, the part that holds: the dtype of a file is not nested deeper than its header is long.  Missing: a limit that does not depend on the file, see
`C127_deep`. -/
theorem C127_bounded_partial {M : Machine} {py : PyParser} (hpy : OneCharEach py) {bs rest : Bytes} {h : NpyHeader}
    (hr : (NpyHeader.fromReader M py).run bs = (.ok h, rest)) : nesting h.dtype + 10 + rest.length < bs.length := by
  rcases fromReader_cases M py bs with ⟨_, h1⟩ | ⟨_, _, _, _, _, _, h1⟩ | ⟨_, _, _, _, _, _, _, h1⟩ |
    ⟨_, _, _, _, _, _, _, _, _, h1⟩ | ⟨_, _, _, _, _, _, _, _, _, _, h1⟩ |
    ⟨maj, min, p, szb, text, rest', rfl, hp, hw, hs, _, h1⟩
  any_goals (rw [hr] at h1; cases h1; done)
  rw [hr] at h1
  obtain ⟨hk, h4⟩ := Prod.mk.inj h1
  subst h4
  unfold finishHeader at hk
  obtain ⟨v, h2, h3⟩ := Out.bind_eq_ok.mp hk.symm
  have hi := interpretHeader_nesting h3
  have hv : values v ≤ text.length := by
    unfold parseHeaderText at h2
    cases hd : decodeUtf8 (stripNewline text) with
    | none => rw [hd] at h2; cases h2
    | some s =>
      rw [hd] at h2
      simp only at h2
      cases hq : py s with
      | none => rw [hq] at h2; cases h2
      | some w =>
        rw [hq] at h2
        cases h2
        have a := hpy s v hq
        have b := encodeUtf8_length_ge s
        rw [← (decodeUtf8_eq_some_iff _ _).mp hd] at b
        have c : (stripNewline text).length ≤ text.length := by
          unfold stripNewline
          split
          · rw [List.length_dropLast]; omega
          · exact Nat.le_refl _
        omega
  have hw2 : 2 ≤ p.width := by rcases p with ⟨_ | _, _⟩ <;> simp [VersionProps.width]
  simp only [List.length_append, magic_length, List.length_cons, List.length_nil, hw]
  omega

/-! ### No limit -/

theorem nested_wf (n : Nat) : (deepDType n).Wf := by
  induction n with
  | zero => simp only [deepDType, DType.Wf]; exact wf_of_parse (s := "|i1".toList) (by decide)
  | succ n ih => simp only [deepDType, DType.Wf, Fields.Wf]; exact ⟨ih, trivial⟩

theorem nested_notArray (n : Nat) : (deepDType n).NotArray := by
  cases n <;> exact trivial

theorem nested_nesting (n : Nat) : nesting (deepDType n) = n + 1 := by
  induction n with
  | zero => rfl
  | succ n ih => simp only [deepDType, nesting, fieldsNesting, ih]; omega

theorem nested_bytes (n : Nat) : exactBytes (deepDType n) = some 1 := by
  induction n with
  | zero => rfl
  | succ n ih => simp [deepDType, exactBytes, exactFieldBytes, ih]

theorem nested_fits {lim : Nat} (hl : 1 < lim) (n : Nat) : AllFit lim (deepDType n) := by
  induction n with
  | zero =>
    simp only [deepDType, AllFit]
    intro k hk
    cases hk
    exact hl
  | succ n ih =>
    simp only [deepDType, AllFit, FieldsFit, exactFieldBytes, nested_bytes]
    refine ⟨⟨ih, trivial⟩, fun k hk => ?_⟩
    cases hk
    exact hl

theorem nested_descr (n : Nat) : (deepDType (n + 1)).descr = txt "[('a', " ++ (deepDType n).descr ++ txt "), ]" := by
  have h : (deepDType (n + 1)).descr = bracket (Fields.cons ['a'] (deepDType n) .nil).descr := by
    simp only [deepDType, DType.descr]
  rw [h]
  cases n <;> simp [deepDType, Fields.descr, bracket, pyQuote, replaceChar, txt]

theorem nested_descr_ascii (n : Nat) : (∀ c ∈ (deepDType n).descr, c.toNat < 128) ∧ (deepDType n).descr.length = 11 * n + 5 := by
  induction n with
  | zero => decide +kernel
  | succ n ih =>
    rw [nested_descr]
    refine ⟨fun c hc => ?_, ?_⟩
    · simp only [List.mem_append] at hc
      rcases hc with (hc | hc) | hc
      · revert c; decide
      · exact ih.1 c hc
      · revert c; decide
    · simp only [List.length_append, ih.2]
      simp [txt]
      omega

/-- The text of a header with this dtype, for an empty array. -/
def deepText (n : Nat) : Text := dictPrefix (deepDType n) .c ++ shapeText [0]

theorem deepText_ascii (n : Nat) : (∀ c ∈ deepText n, c.toNat < 128) ∧ (deepText n).length = 11 * n + 58 := by
  obtain ⟨h1, h2⟩ := nested_descr_ascii n
  have e : deepText n = txt "{'descr': " ++ (deepDType n).descr ++ txt ", 'fortran_order': False, 'shape': (0, ), }" := by
    simp [deepText, dictPrefix, shapeText, orderText, txt]
  rw [e]
  refine ⟨fun c hc => ?_, ?_⟩
  · simp only [List.mem_append] at hc
    rcases hc with (hc | hc) | hc
    · revert c; decide
    · exact h1 c hc
    · revert c; decide
  · simp only [List.length_append, h2]
    simp [txt]
    omega

/-- C127 is violated: for every depth there is a file of so many bytes, 11 for each level, whose dtype is nested so deep; it is opened without an error. -/
theorem C127_deep {M : Machine} {py : PyParser} (hpy : py.ExtendsRef) (n : Nat) (hn : 11 * n + 58 < 2 ^ 32) (hm : 11 * n + 70 ≤ M.isizeMax) :
    ∃ (bytes : Bytes) (f : NpyFile Src), bytes.length = 11 * n + 70 ∧ (NpyFile.new M py disk ⟨bytes, 0⟩).1 = .ok f ∧ nesting f.header.dtype = n + 1 := by
  obtain ⟨ha, hl⟩ := deepText_ascii n
  have hb : (encodeUtf8 (deepText n)).length = 11 * n + 58 := by rw [encodeUtf8_length_ascii ha, hl]
  obtain ⟨hfr, hbody, hbehind⟩ := frame_framed (M := M) (v := 2) (.inr (.inl rfl)) (text := encodeUtf8 (deepText n)) (rest := [])
    (by rw [hb]; simpa using hn) (by omega)
  have hlit := parse_of_lit (lit_ndText (nested_notArray n) .c [0]) 0
  rw [List.replicate_zero, List.append_nil] at hlit
  have hnl : '\n' ∉ deepText n := by
    have h1 := not_mem_descr (nested_notArray n)
    unfold deepText dictPrefix shapeText
    simp only [List.mem_append, not_or]
    exact ⟨⟨⟨⟨⟨by decide, h1⟩, by decide⟩, by decide⟩, by decide⟩, by decide, by decide⟩
  have hline : Line (deepText n) (encodeUtf8 (deepText n)) := by
    have := Line.bare (text := deepText n) 0 0
    simpa using this
  have hp := parse_line hpy hlit hnl hline
  have hlim : 1 < M.usizeLim := by
    unfold Machine.isizeMax at hm
    unfold Machine.usizeLim
    have : 2 ^ (M.usizeBits - 1) ≤ 2 ^ M.usizeBits := Nat.pow_le_pow_right (by omega) (by omega)
    omega
  have hno : ¬ HasObject (deepDType n) := fun h => by
    have := (exactBytes_none_iff (deepDType n)).mpr h
    rw [nested_bytes] at this
    cases this
  have hsz : itemSizeOf M (deepDType n) = .ok (some 1) := itemSizeOf_ok_iff.mpr (.inr ⟨hno, nested_fits hlim n, 1, nested_bytes n, rfl⟩)
  have hrun := run_body (py := py) hfr.1 hfr.2 hfr.3
  rw [hbody, finishHeader, hp, Out.bind_ok, interpretHeader_headerDict (nested_notArray n) (nested_wf n) .c (by simp), fromParts_eq (by decide) hsz] at hrun
  obtain ⟨f, h1, h2⟩ := new_of_run (M := M) (py := py) (data := frame 2 (encodeUtf8 (deepText n)) ++ []) (pos := 0)
    (hdr := frame 2 (encodeUtf8 (deepText n))) (rest := []) (by rw [hrun]; exact congrArg _ hbehind) rfl
  refine ⟨_, f, ?_, h1, by rw [h2]; exact nested_nesting n⟩
  rw [List.append_nil]
  simp [frame, magicBytes, hb]
  omega

/-- C127 is violated: a file of 1.1 MB has 100000 levels. -/
theorem C127_violated : ∃ (bytes : Bytes) (f : NpyFile Src), bytes.length = 1100070 ∧
    (NpyFile.new ⟨false, 64, true⟩ Py.parse disk ⟨bytes, 0⟩).1 = .ok f ∧ nesting f.header.dtype = 100001 :=
  C127_deep (fun _ _ h => h) 100000 (by decide) (by decide)

/-- C127_deep: three levels, in full. -/
example : deepText 2 = txt "{'descr': [('a', [('a', '|i1'), ]), ], 'fortran_order': False, 'shape': (0, ), }" := by decide +kernel

/-- C127_bounded_partial: the reference parser, and an opened file. -/
example : ∃ f : NpyFile Src, (NpyFile.new ⟨false, 64, true⟩ Py.parse disk ⟨twoFloats, 0⟩).1 = .ok f ∧ nesting f.header.dtype + 10 + 16 < 82 := by
  obtain ⟨f, r, h1, h0, h2, h3, h4, h5, h6⟩ := twoFloats_reader
  obtain ⟨-, -, h7, -, h8⟩ := new_disk h0
  have hl : twoFloats.length = 82 := by decide +kernel
  have := C127_bounded_partial parse_oneCharEach h8
  rw [List.length_drop, hl] at this
  rw [h7, hl] at h5
  exact ⟨f, congrArg Prod.fst h0, by omega⟩

end Npyz.Props
