import Verif.Spec.TypeStr
import Verif.Proofs.Digits
namespace Npyz
open Spec

theorem fromChar_endian_iff (c : Char) (e : Endianness) :
    Endianness.fromChar c = some e ↔ (c, e) ∈ endianTable := by
  simp only [Endianness.fromChar, endianTable, List.mem_cons, Prod.mk.injEq, List.not_mem_nil, or_false]
  grind

theorem fromChar_type_iff (c : Char) (t : TypeChar) :
    TypeChar.fromChar c = some t ↔ (c, t) ∈ typeTable := by
  simp only [TypeChar.fromChar, typeTable, List.mem_cons, Prod.mk.injEq, List.not_mem_nil, or_false]
  constructor
  · intro h
    repeat' split at h
    all_goals cases h
    all_goals simp only [reduceCtorEq, and_true, and_false, or_false, false_or]; assumption
  · intro h
    rcases h with h | h | h | h | h | h | h | h | h | h | h | h <;> obtain ⟨rfl, rfl⟩ := h <;> decide

theorem ite_some_iff {α} {p : Prop} [Decidable p] {a b : α} {o : Option α} :
    (if p then some a else o) = some b ↔ (p ∧ b = a) ∨ (¬ p ∧ o = some b) := by
  by_cases h : p <;> simp [h, eq_comm]

theorem fromStr_units_iff (s : Text) (u : TimeUnits) :
    TimeUnits.fromStr s = some u ↔ (s, u) ∈ unitTable := by
  simp only [TimeUnits.fromStr, unitTable, List.mem_cons, Prod.mk.injEq, List.not_mem_nil, or_false]
  constructor
  · intro h
    simp only [ite_some_iff, reduceCtorEq, and_false, or_false] at h
    rcases h with h | ⟨_, h | ⟨_, h | ⟨_, h | ⟨_, h | ⟨_, h | ⟨_, h | ⟨_, h | ⟨_, h | ⟨_, h | ⟨_, h | ⟨_, h | ⟨_, h⟩⟩⟩⟩⟩⟩⟩⟩⟩⟩⟩⟩ <;> simp [h]
  · intro h
    rcases h with h | h | h | h | h | h | h | h | h | h | h | h | h <;> obtain ⟨rfl, rfl⟩ := h <;> decide

theorem validate_ok_iff (t : TypeStr) (t' : TypeStr) :
    t.validate = .ok t' ↔ t' = t ∧ Valid t := by
  have e1 : (t.typeChar.requiresEndianness t.size = true ∧ t.endianness = .irrelevant) ↔
      ¬ (OrderMatters t.typeChar t.size → t.endianness ≠ .irrelevant) := by
    cases h : t.typeChar <;> simp [OrderMatters, TypeChar.requiresEndianness]
  have e2 : t.sizeIsInvalid = true ↔ ¬ SizeAllowed t.typeChar t.size := by
    unfold TypeStr.sizeIsInvalid
    cases h : t.typeChar <;> simp [SizeAllowed, TypeChar.validSizes]
  have e3 : (t.typeChar.hasUnits ≠ t.timeUnits.isSome) ↔
      ¬ ((∃ u, t.timeUnits = some u) ↔ (t.typeChar = .timeDelta ∨ t.typeChar = .dateTime)) := by
    cases h : t.typeChar <;> cases h' : t.timeUnits <;> simp [TypeChar.hasUnits]
  unfold TypeStr.validate
  by_cases h1 : OrderMatters t.typeChar t.size → t.endianness ≠ .irrelevant
  · rw [if_neg (by rw [e1]; exact fun h => h h1)]
    by_cases h2 : SizeAllowed t.typeChar t.size
    · rw [if_neg (by rw [e2]; exact fun h => h h2)]
      by_cases h3 : (∃ u, t.timeUnits = some u) ↔ (t.typeChar = .timeDelta ∨ t.typeChar = .dateTime)
      · rw [if_neg (by rw [e3]; exact fun h => h h3)]
        simp only [Out.ok.injEq]
        exact ⟨fun h => ⟨h.symm, h2, h1, h3⟩, fun h => h.1.symm⟩
      · rw [if_pos (e3.mpr h3)]
        simp only [reduceCtorEq, false_iff]
        exact fun h => h3 h.2.units_iff
    · rw [if_pos (e2.mpr h2)]
      simp only [reduceCtorEq, false_iff]
      exact fun h => h2 h.2.size_allowed
  · rw [if_pos (e1.mpr h1)]
    simp only [reduceCtorEq, false_iff]
    exact fun h => h1 h.2.order_given

theorem validate_ne_panic (t : TypeStr) : t.validate ≠ .panic := by
  simp only [TypeStr.validate]; repeat' split
  all_goals simp

theorem parseSize_ok_iff (c : TypeChar) (ds : Text) (hd : ∀ d ∈ ds, d.isDigit = true) (n : Nat) :
    TypeStr.parseSize c ds = .ok n ↔ SizeText c ds n := by
  cases ds with
  | nil =>
    by_cases hc : c = .object
    · subst hc; unfold SizeText; simp [TypeStr.parseSize]; exact eq_comm
    · have hp : TypeStr.parseSize c [] = .err .syntaxError := by
        cases c <;> first | rfl | contradiction
      rw [hp]; unfold SizeText; simp [hc]
  | cons d ds =>
    by_cases hc : c = .object
    · subst hc; unfold SizeText; simp [TypeStr.parseSize]
    · have hp : TypeStr.parseSize c (d :: ds) =
          if Nat.ofDigitChars 10 (d :: ds) 0 < u64Lim then .ok (Nat.ofDigitChars 10 (d :: ds) 0)
          else .err .parseIntError := by
        cases c <;> first | rfl | contradiction
      rw [hp]
      unfold SizeText; simp only [if_neg hc]
      constructor
      · intro h
        split at h
        · simp only [Out.ok.injEq] at h; subst h
          exact ⟨by simp, hd, rfl, by assumption⟩
        · simp at h
      · rintro ⟨_, _, rfl, h⟩
        rw [if_pos h]

theorem parseSize_ne_panic (c : TypeChar) (ds : Text) : TypeStr.parseSize c ds ≠ .panic := by
  unfold TypeStr.parseSize
  split <;> try simp
  split <;> simp

theorem parseUnits_ok_iff (r : Text) (u : Option TimeUnits) :
    TypeStr.parseUnits r = .ok u ↔ UnitsText r u := by
  cases r with
  | nil => cases u <;> simp [TypeStr.parseUnits, UnitsText]
  | cons c rest =>
    constructor
    · intro h
      unfold TypeStr.parseUnits at h
      split at h
      · simp at *
      · rename_i h1; cases h1
        split at h
        · rename_i hc hl
          split at h
          · simp at h
          · rename_i v hv
            simp only [Out.ok.injEq] at h; subst h
            refine ⟨rest.dropLast, (fromStr_units_iff _ _).mp hv, ?_⟩
            have h2 : rest = rest.dropLast ++ [']'] := by
              obtain ⟨l, rfl⟩ := List.getLast?_eq_some_iff.mp hl
              simp
            simp at hc
            rw [hc, List.cons_append, ← h2]
        · simp at h
    · intro h
      cases u with
      | none => simp [UnitsText] at h
      | some u =>
        obtain ⟨name, hm, heq⟩ := h
        simp only [List.cons_append, List.cons.injEq] at heq
        obtain ⟨rfl, rfl⟩ := heq
        simp [TypeStr.parseUnits, (fromStr_units_iff _ _).mpr hm]

theorem parseUnits_ne_panic (r : Text) : TypeStr.parseUnits r ≠ .panic := by
  unfold TypeStr.parseUnits
  repeat' split
  all_goals simp

theorem utf8Size_ge_one (c : Char) : 1 ≤ c.utf8Size := Char.utf8Size_pos c

theorem units_head_not_digit {units : Text} {u : Option TimeUnits} (h : UnitsText units u) :
    ∀ a, units.head? = some a → a.isDigit = false := by
  cases u with
  | none => simp [UnitsText] at h; subst h; simp
  | some u => obtain ⟨name, _, rfl⟩ := h; intro a ha; simp at ha; subst ha; decide

theorem sizeText_digits {c : TypeChar} {ds : Text} {n : Nat} (h : SizeText c ds n) :
    ∀ d ∈ ds, d.isDigit = true := by
  unfold SizeText at h
  split at h
  · simp [h.1]
  · exact h.2.1

theorem endian_utf8Size {c : Char} {e : Endianness} (h : (c, e) ∈ endianTable) : c.utf8Size = 1 := by
  simp only [endianTable, List.mem_cons, Prod.mk.injEq, List.not_mem_nil, or_false] at h
  rcases h with ⟨rfl, _⟩ | ⟨rfl, _⟩ | ⟨rfl, _⟩ <;> rfl

theorem parse_cons_cons {c c2 : Char} {rem : Text} (hlen : ¬ utf8Len (c :: c2 :: rem) < 2) {e tc}
    (he : Endianness.fromChar c = some e) (htc : TypeChar.fromChar c2 = some tc) :
    TypeStr.parse (c :: c2 :: rem) = (do
      let size ← TypeStr.parseSize tc (rem.takeWhile Char.isDigit)
      let timeUnits ← TypeStr.parseUnits (rem.dropWhile Char.isDigit)
      TypeStr.validate { endianness := e, typeChar := tc, size, timeUnits }) := by
  unfold TypeStr.parse
  rw [if_neg hlen]
  simp only [he, htc]

theorem parse_ok_iff (s : Text) (t : TypeStr) : TypeStr.parse s = .ok t ↔ Spells s t := by
  constructor
  · intro h
    have h0 := h
    unfold TypeStr.parse at h
    split at h
    · simp at h
    rename_i hlen
    cases s with
    | nil => simp at h
    | cons c chars =>
    cases he : Endianness.fromChar c with
    | none => simp [he] at h
    | some e =>
    cases chars with
    | nil => simp [he] at h
    | cons c2 rem =>
    cases htc : TypeChar.fromChar c2 with
    | none => simp [he, htc] at h
    | some tc =>
    rw [parse_cons_cons hlen he htc] at h0
    clear h
    have h := h0
    rw [Out.bind_eq_ok] at h
    obtain ⟨n, hn, h⟩ := h
    rw [Out.bind_eq_ok] at h
    obtain ⟨u, hu, h⟩ := h
    rw [validate_ok_iff] at h
    obtain ⟨rfl, hv⟩ := h
    refine ⟨c, c2, rem.takeWhile Char.isDigit, rem.dropWhile Char.isDigit, ?_, ?_, ?_, ?_, ?_, hv⟩
    · rw [List.takeWhile_append_dropWhile]
    · exact (fromChar_endian_iff _ _).mp he
    · exact (fromChar_type_iff _ _).mp htc
    · exact (parseSize_ok_iff _ _ (mem_takeWhile_pos _ _) _).mp hn
    · exact (parseUnits_ok_iff _ _).mp hu
  · rintro ⟨e, c, ds, us, rfl, he, hc, hs, hu, hv⟩
    have hlen : ¬ utf8Len (e :: c :: (ds ++ us)) < 2 := by
      have := utf8Size_ge_one e; have := utf8Size_ge_one c
      simp [utf8Len]; omega
    have hd := sizeText_digits hs
    have hh := units_head_not_digit hu
    rw [parse_cons_cons hlen ((fromChar_endian_iff _ _).mpr he) ((fromChar_type_iff _ _).mpr hc)]
    simp only [
      takeWhile_append_of_all _ _ _ hd hh, dropWhile_append_of_all _ _ _ hd hh,
      (parseSize_ok_iff _ _ hd _).mpr hs, (parseUnits_ok_iff _ _).mpr hu, Out.bind_ok]
    exact (validate_ok_iff _ _).mpr ⟨rfl, hv⟩

theorem parse_ne_panic (s : Text) : TypeStr.parse s ≠ .panic := by
  by_cases hlen : utf8Len s < 2
  · unfold TypeStr.parse; simp [hlen]
  · cases s with
    | nil => simp [utf8Len] at hlen
    | cons c chars =>
      cases he : Endianness.fromChar c with
      | none => unfold TypeStr.parse; simp [hlen, he]
      | some e =>
      cases chars with
      | nil =>
        have := endian_utf8Size ((fromChar_endian_iff _ _).mp he)
        simp [utf8Len, this] at hlen
      | cons c2 rem =>
      cases htc : TypeChar.fromChar c2 with
      | none => unfold TypeStr.parse; simp [hlen, he, htc]
      | some tc =>
      rw [parse_cons_cons hlen he htc]
      cases h1 : TypeStr.parseSize tc (rem.takeWhile Char.isDigit) with
      | panic => exact absurd h1 (parseSize_ne_panic _ _)
      | err e => simp
      | ok n =>
        cases h2 : TypeStr.parseUnits (rem.dropWhile Char.isDigit) with
        | panic => exact absurd h2 (parseUnits_ne_panic _)
        | err e => simp
        | ok u => simpa using validate_ne_panic _

/-! ### What the errors mean -/

/-- Taking the text apart. -/
theorem parse_err_split {s : Text} {err : TypeStrErr} (h : TypeStr.parse s = .err err) :
    err = .syntaxError ∨ ∃ c c2 rem e tc, s = c :: c2 :: rem ∧ (c, e) ∈ endianTable ∧ (c2, tc) ∈ typeTable ∧
      (do
        let size ← TypeStr.parseSize tc (rem.takeWhile Char.isDigit)
        let timeUnits ← TypeStr.parseUnits (rem.dropWhile Char.isDigit)
        TypeStr.validate { endianness := e, typeChar := tc, size, timeUnits }) = .err err := by
  by_cases hlen : utf8Len s < 2
  · unfold TypeStr.parse at h; rw [if_pos hlen] at h; cases h; exact .inl rfl
  cases s with
  | nil => simp [utf8Len] at hlen
  | cons c chars =>
  cases he : Endianness.fromChar c with
  | none => unfold TypeStr.parse at h; rw [if_neg hlen] at h; simp only [he] at h; cases h; exact .inl rfl
  | some e =>
  cases chars with
  | nil => unfold TypeStr.parse at h; rw [if_neg hlen] at h; simp only [he] at h; cases h
  | cons c2 rem =>
  cases htc : TypeChar.fromChar c2 with
  | none => unfold TypeStr.parse at h; rw [if_neg hlen] at h; simp only [he, htc] at h; cases h; exact .inl rfl
  | some tc =>
  rw [parse_cons_cons hlen he htc] at h
  exact .inr ⟨c, c2, rem, e, tc, rfl, (fromChar_endian_iff _ _).mp he, (fromChar_type_iff _ _).mp htc, h⟩

theorem parseUnits_err {r : Text} {e : TypeStrErr} (h : TypeStr.parseUnits r = .err e) : e = .syntaxError := by
  unfold TypeStr.parseUnits at h
  repeat' split at h
  all_goals cases h
  all_goals rfl

theorem hasForm_parse {s : Text} {t : TypeStr} (h : HasForm s t) : TypeStr.parse s = t.validate := by
  obtain ⟨e, c, ds, us, rfl, he, hc, hs, hu⟩ := h
  have hlen : ¬ utf8Len (e :: c :: (ds ++ us)) < 2 := by
    have := utf8Size_ge_one e; have := utf8Size_ge_one c
    simp [utf8Len]; omega
  have hd := sizeText_digits hs
  have hh := units_head_not_digit hu
  rw [parse_cons_cons hlen ((fromChar_endian_iff _ _).mpr he) ((fromChar_type_iff _ _).mpr hc)]
  simp only [
    takeWhile_append_of_all _ _ _ hd hh, dropWhile_append_of_all _ _ _ hd hh,
    (parseSize_ok_iff _ _ hd _).mpr hs, (parseUnits_ok_iff _ _).mpr hu, Out.bind_ok]

theorem hugeSize_parse {s : Text} (h : HugeSize s) : TypeStr.parse s = .err .parseIntError := by
  obtain ⟨e, c, ds, rest, rfl, ⟨en, he⟩, ⟨tc, hc, hno⟩, hd, hh, hbig⟩ := h
  have hlen : ¬ utf8Len (e :: c :: (ds ++ rest)) < 2 := by
    have := utf8Size_ge_one e; have := utf8Size_ge_one c
    simp [utf8Len]; omega
  rw [parse_cons_cons hlen ((fromChar_endian_iff _ _).mpr he) ((fromChar_type_iff _ _).mpr hc)]
  simp only [takeWhile_append_of_all _ _ _ hd hh]
  cases ds with
  | nil => simp [Nat.ofDigitChars] at hbig
  | cons d ds =>
    have hp : TypeStr.parseSize tc (d :: ds) =
        if Nat.ofDigitChars 10 (d :: ds) 0 < u64Lim then .ok (Nat.ofDigitChars 10 (d :: ds) 0)
        else .err .parseIntError := by
      cases tc <;> first | rfl | contradiction
    rw [hp, if_neg (by simp only [u64Lim]; omega)]
    rfl

theorem parseSize_err {c : TypeChar} {ds : Text} {e : TypeStrErr} (h : TypeStr.parseSize c ds = .err e) :
    e = .syntaxError ∨ (e = .parseIntError ∧ c ≠ .object ∧ 2 ^ 64 ≤ Nat.ofDigitChars 10 ds 0) := by
  cases ds with
  | nil => cases c <;> cases h <;> exact .inl rfl
  | cons d ds =>
    by_cases hc : c = .object
    · subst hc; cases h; exact .inl rfl
    · have hp : TypeStr.parseSize c (d :: ds) =
          if Nat.ofDigitChars 10 (d :: ds) 0 < u64Lim then .ok (Nat.ofDigitChars 10 (d :: ds) 0)
          else .err .parseIntError := by
        cases c <;> first | rfl | contradiction
      rw [hp] at h
      split at h
      · cases h
      · rename_i hl
        cases h
        exact .inr ⟨rfl, hc, by simp only [u64Lim] at hl; omega⟩

theorem dropWhile_head_not {p : Char → Bool} : (l : Text) → ∀ a, (l.dropWhile p).head? = some a → p a = false
  | [], a, h => by cases h
  | b :: l, a, h => by
    rw [List.dropWhile_cons] at h
    cases hb : p b with
    | true => rw [hb] at h; exact dropWhile_head_not l a h
    | false => rw [hb] at h; cases h; exact hb

/-- Every error is about the form, about the size of the number, or about validity. -/
theorem parse_err_cases {s : Text} {err : TypeStrErr} (h : TypeStr.parse s = .err err) :
    err = .syntaxError ∨ (err = .parseIntError ∧ HugeSize s) ∨ ∃ t, HasForm s t ∧ t.validate = .err err := by
  rcases parse_err_split h with rfl | ⟨c, c2, rem, e, tc, rfl, he, hc, h'⟩
  · exact .inl rfl
  · cases h1 : TypeStr.parseSize tc (rem.takeWhile Char.isDigit) with
    | panic => exact absurd h1 (parseSize_ne_panic _ _)
    | err e1 =>
      rw [h1] at h'
      cases h'
      rcases parseSize_err h1 with h2 | ⟨h2, hno, hbig⟩
      · exact .inl h2
      · refine .inr (.inl ⟨h2, c, c2, rem.takeWhile Char.isDigit, rem.dropWhile Char.isDigit, ?_, ⟨e, he⟩, ⟨tc, hc, hno⟩,
          mem_takeWhile_pos _ _, dropWhile_head_not rem, hbig⟩)
        rw [List.takeWhile_append_dropWhile]
    | ok n =>
      cases h2 : TypeStr.parseUnits (rem.dropWhile Char.isDigit) with
      | panic => exact absurd h2 (parseUnits_ne_panic _)
      | err e2 =>
        rw [h1, Out.bind_ok, h2] at h'
        cases h'
        exact .inl (parseUnits_err h2)
      | ok u =>
        rw [h1, Out.bind_ok, h2, Out.bind_ok] at h'
        refine .inr (.inr ⟨_, ⟨c, c2, rem.takeWhile Char.isDigit, rem.dropWhile Char.isDigit, ?_, he, hc,
          (parseSize_ok_iff _ _ (mem_takeWhile_pos _ _) _).mp h1, (parseUnits_ok_iff _ _).mp h2⟩, h'⟩)
        rw [List.takeWhile_append_dropWhile]

theorem validate_err {t : TypeStr} {err : TypeStrErr} (h : t.validate = .err err) :
    (err = .invalidEndianness t ∧ t.typeChar.requiresEndianness t.size = true ∧ t.endianness = .irrelevant) ∨
    (err = .invalidSize t ∧ t.sizeIsInvalid = true) ∨
    (err = .missingOrUnexpectedUnits t ∧ t.typeChar.hasUnits ≠ t.timeUnits.isSome) := by
  unfold TypeStr.validate at h
  split at h
  · rename_i hc; cases h; exact .inl ⟨rfl, hc⟩
  · split at h
    · rename_i hc; cases h; exact .inr (.inl ⟨rfl, hc⟩)
    · split at h
      · rename_i hc; cases h; exact .inr (.inr ⟨rfl, hc⟩)
      · cases h

theorem commaSep_eq : (l : List Text) → commaSep l = List.intercalate [',', ' '] l
  | [] => rfl
  | [x] => by simp [commaSep, List.intercalate]
  | x :: y :: l => by
    show x ++ txt ", " ++ commaSep (y :: l) = _
    rw [commaSep_eq (y :: l)]
    simp [List.intercalate, txt]

theorem validSizes_spec {c : TypeChar} {l : List Nat} (h : c.validSizes = some l) (n : Nat) : n ∈ l ↔ SizeAllowed c n := by
  cases c <;> cases h <;> simp [SizeAllowed]

theorem requiresEndianness_spec {c : TypeChar} {n : Nat} (h : c.requiresEndianness n = true) : OrderMatters c n := by
  cases c <;> simp_all [TypeChar.requiresEndianness, OrderMatters]

theorem hasUnits_spec (c : TypeChar) : c.hasUnits = true ↔ (c = .timeDelta ∨ c = .dateTime) := by
  cases c <;> simp [TypeChar.hasUnits]

/-- Displaying an error of `parse` does not panic, and the text is true. -/
theorem parse_err_explained {s : Text} {err : TypeStrErr} (h : TypeStr.parse s = .err err) :
    ∃ m, err.message = .ok m ∧ Explained s m := by
  rcases parse_err_cases h with rfl | ⟨rfl, hb⟩ | ⟨t, hf, hv⟩
  · refine ⟨_, rfl, .noForm (fun t hf => ?_) fun hb => ?_⟩
    · have := (hasForm_parse hf).symm.trans h
      rcases validate_err this with ⟨h, -⟩ | ⟨h, -⟩ | ⟨h, -⟩ <;> cases h
    · have := (hugeSize_parse hb).symm.trans h
      cases this
  · exact ⟨_, rfl, .huge hb⟩
  · rcases validate_err hv with ⟨rfl, h1, h2⟩ | ⟨rfl, h1⟩ | ⟨rfl, h1⟩
    · exact ⟨_, rfl, .order hf (requiresEndianness_spec h1) h2⟩
    · cases hs : t.typeChar.validSizes with
      | none => simp [TypeStr.sizeIsInvalid, hs] at h1
      | some l =>
        have hn : ¬ SizeAllowed t.typeChar t.size := by
          rw [← validSizes_spec hs]
          simpa [TypeStr.sizeIsInvalid, hs] using h1
        refine ⟨_, ?_, .size hf hn (validSizes_spec hs)⟩
        simp only [TypeStrErr.message, hs, debugNums, commaSep_eq, numList]
        simp [txt]
    · cases hu : t.typeChar.hasUnits with
      | true =>
        cases ht : t.timeUnits with
        | some u => rw [hu, ht] at h1; exact absurd rfl h1
        | none =>
          refine ⟨_, ?_, .missing hf ((hasUnits_spec _).mp hu) ht⟩
          simp only [TypeStrErr.message, hu]
          rfl
      | false =>
        cases ht : t.timeUnits with
        | none => rw [hu, ht] at h1; exact absurd rfl h1
        | some u =>
          refine ⟨_, ?_, .unexpected hf (fun h => ?_) ht⟩
          · simp only [TypeStrErr.message, hu]
            rfl
          · rw [(hasUnits_spec _).mpr h] at hu; cases hu

theorem parse_err_message {s : Text} {err : TypeStrErr} (h : TypeStr.parse s = .err err) : ∃ m, err.message = .ok m := by
  obtain ⟨m, hm, -⟩ := parse_err_explained h
  exact ⟨m, hm⟩

theorem endian_toStr (e : Endianness) : ∃ c, e.toStr = [c] ∧ (c, e) ∈ endianTable := by
  cases e <;> exact ⟨_, rfl, by decide⟩

theorem type_toStr (t : TypeChar) : ∃ c, t.toStr = [c] ∧ (c, t) ∈ typeTable := by
  cases t <;> exact ⟨_, rfl, by decide⟩

theorem units_toStr (u : TimeUnits) : (u.toStr, u) ∈ unitTable := by
  cases u <;> decide

theorem spells_display {t : TypeStr} (h : t.Wf) : Spells t.display t := by
  obtain ⟨e, he, hem⟩ := endian_toStr t.endianness
  obtain ⟨c, hc, hcm⟩ := type_toStr t.typeChar
  refine ⟨e, c, if t.usesPickledArray then [] else Nat.toDigits 10 t.size,
TypeStr.displayUnits t.timeUnits, ?_, hem, hcm, ?_, ?_, h.valid⟩
  · simp [TypeStr.display, he, hc]
  · unfold SizeText TypeStr.usesPickledArray
    by_cases ho : t.typeChar = .object
    · simp [ho, h.obj ho]
    · have : (t.typeChar == .object) = false := by simp [ho]
      simp only [this, if_neg ho]
      exact ⟨by simp, by simpa using toDigits_all_digit _,
        by simp [Nat.ofDigitChars_ten_toDigits], h.size_lt⟩
  · cases hu : t.timeUnits with
    | none => simp [UnitsText, TypeStr.displayUnits]
    | some u => exact ⟨u.toStr, units_toStr u, by simp [TypeStr.displayUnits]⟩

theorem wf_of_spells {s : Text} {t : TypeStr} (h : Spells s t) : t.Wf := by
  obtain ⟨e, c, ds, us, rfl, he, hc, hs, hu, hv⟩ := h
  refine ⟨hv, ?_, ?_⟩ <;> unfold SizeText at hs
  · split at hs
    · omega
    · exact hs.2.2.2
  · intro ho; rw [if_pos ho] at hs; exact hs.2

theorem wf_of_parse {s : Text} {t : TypeStr} (h : TypeStr.parse s = .ok t) : t.Wf :=
  wf_of_spells ((parse_ok_iff _ _).mp h)

theorem parse_display {t : TypeStr} (h : t.Wf) : TypeStr.parse t.display = .ok t :=
  (parse_ok_iff _ _).mpr (spells_display h)

theorem withAuto_ok {M : Machine} {c n u t} (h : TypeStr.withAutoEndianness M c n u = .ok t) :
    Valid t ∧ t.size = n ∧ t.typeChar = c ∧ t.timeUnits = u := by
  unfold TypeStr.withAutoEndianness at h
  simp only at h
  split at h
  · rename_i t' ht
    rw [validate_ok_iff] at ht
    simp only [Out.ok.injEq] at h
    obtain ⟨rfl, hv⟩ := ht
    subst h
    exact ⟨hv, rfl, rfl, rfl⟩
  · simp at h
  · simp at h

end Npyz
