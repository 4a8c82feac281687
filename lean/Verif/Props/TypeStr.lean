import Verif.Proofs.TypeStr
/-!
Properties C01-C04 and the scalar part of C05: NumPy type strings.
-/
namespace Npyz.Props
open Spec

/-- The type strings a user can get hold of: results of parsing, and default dtypes of non-object
types (`with_auto_endianness`, whose size argument is a `u64`). -/
inductive Obtainable : TypeStr → Prop
  | parsed {s t} : TypeStr.parse s = .ok t → Obtainable t
  | default {M c n t} : c ≠ .object → n < 2 ^ 64 →
      TypeStr.withAutoEndianness M c n none = .ok t → Obtainable t

/-- C01: `Display` then `FromStr` is the identity. -/
theorem C01_display_parse (t : TypeStr) (h : Obtainable t) : TypeStr.parse t.display = .ok t := by
  cases h with
  | parsed h => exact parse_display (wf_of_parse h)
  | default hc hn h =>
    obtain ⟨hv, hs, hc', _⟩ := withAuto_ok h
    exact parse_display ⟨hv, by omega, fun ho => absurd (hc'.symm.trans ho) hc⟩

example : Obtainable ⟨.little, .dateTime, 8, some .nanosecond⟩ :=
  .parsed (s := "<M8[ns]".toList) (by decide)
example : Obtainable ⟨.big, .unicodeStr, 18446744073709551615, none⟩ :=
  .parsed (s := ">U18446744073709551615".toList) (by decide)
example : Obtainable ⟨.big, .float, 8, none⟩ :=
  .default (M := ⟨true, 64, true⟩) (c := .float) (n := 8) (by decide) (by decide) (by decide)

/-- C02: the accepted language is exactly the documented one, with exactly the documented meaning. -/
theorem C02_parse_iff (s : Text) (t : TypeStr) : TypeStr.parse s = .ok t ↔ Spells s t :=
  parse_ok_iff s t

/-- C02: no input makes the parser panic. -/
theorem C02_parse_never_panics (s : Text) : TypeStr.parse s ≠ .panic := parse_ne_panic s

/-- C02: everything else is an error (never a panic, never a wrong value). -/
theorem C02_parse_err_iff (s : Text) : (∃ e, TypeStr.parse s = .err e) ↔ ¬ ∃ t, Spells s t := by
  constructor
  · rintro ⟨e, he⟩ ⟨t, ht⟩
    rw [← parse_ok_iff, he] at ht; cases ht
  · intro h
    cases hp : TypeStr.parse s with
    | ok t => exact absurd ⟨t, (parse_ok_iff _ _).mp hp⟩ h
    | err e => exact ⟨e, rfl⟩
    | panic => exact absurd hp (parse_ne_panic s)

example : Spells "|a7".toList ⟨.irrelevant, .byteStr, 7, none⟩ :=
  (C02_parse_iff _ _).mp (by decide)
-- a multi-byte first character passes the byte-length guard but not the character table
example : TypeStr.parse ['é'] = .err .syntaxError := by decide
-- 2^64 does not fit
example : TypeStr.parse "|S18446744073709551616".toList = .err .parseIntError := by decide

/-- C03: the canonical spelling is a fixed point. -/
theorem C03_canonical_fixpoint (s : Text) (t : TypeStr) (h : TypeStr.parse s = .ok t) :
    TypeStr.parse t.display = .ok t :=
  parse_display (wf_of_parse h)

/-- C03_canonical_fixpoint, C01_display_parse. -/
example : TypeStr.parse (TypeStr.display ⟨.irrelevant, .byteStr, 7, none⟩) = .ok ⟨.irrelevant, .byteStr, 7, none⟩ :=
  C03_canonical_fixpoint "|a007".toList _ (by decide)

/-- C03: how the canonical spelling differs from the accepted input: `a` becomes `S`, redundant
leading zeros of the size are dropped, everything else is kept verbatim. -/
theorem C03_display_of_parse (e c : Char) (digits rest : Text) (t : TypeStr)
    (hd : ∀ d ∈ digits, d.isDigit = true) (hr : ∀ a, rest.head? = some a → a.isDigit = false)
    (h : TypeStr.parse (e :: c :: (digits ++ rest)) = .ok t) :
    t.display = e :: (if c = 'a' then 'S' else c) :: (stripZeros digits ++ rest) := by
  rw [parse_ok_iff] at h
  obtain ⟨e', c', ds, us, heq, he, hc, hs, hu, hv⟩ := h
  simp only [List.cons.injEq] at heq
  obtain ⟨rfl, rfl, heq⟩ := heq
  have hds : digits = ds := by
    rw [← takeWhile_append_of_all _ digits rest hd hr, heq,
      takeWhile_append_of_all _ ds us (sizeText_digits hs) (units_head_not_digit hu)]
  have hus : rest = us := by
    rw [← dropWhile_append_of_all _ digits rest hd hr, heq,
      dropWhile_append_of_all _ ds us (sizeText_digits hs) (units_head_not_digit hu)]
  subst hds hus
  have h1 : t.endianness.toStr = [e] := by
    simp only [endianTable, List.mem_cons, Prod.mk.injEq, List.not_mem_nil, or_false] at he
    rcases he with ⟨rfl, h⟩ | ⟨rfl, h⟩ | ⟨rfl, h⟩ <;> rw [h] <;> rfl
  have h2 : t.typeChar.toStr = [if c = 'a' then 'S' else c] := by
    simp only [typeTable, List.mem_cons, Prod.mk.injEq, List.not_mem_nil, or_false] at hc
    rcases hc with h | h | h | h | h | h | h | h | h | h | h | h <;> obtain ⟨rfl, h⟩ := h <;> rw [h] <;> rfl
  have h3 : (if t.usesPickledArray then [] else Nat.toDigits 10 t.size) = stripZeros digits := by
    unfold SizeText at hs
    unfold TypeStr.usesPickledArray
    split at hs
    · rename_i ho; simp [ho, hs.1, stripZeros]
    · rename_i ho
      have : (t.typeChar == .object) = false := by simp [ho]
      rw [this, hs.2.2.1]
      simpa using toDigits_ofDigitChars _ hs.1 hs.2.1
  have h4 : TypeStr.displayUnits t.timeUnits = rest := by
    cases hut : t.timeUnits with
    | none => rw [hut] at hu; simpa [UnitsText, TypeStr.displayUnits] using hu.symm
    | some u =>
      rw [hut] at hu
      obtain ⟨name, hm, rfl⟩ := hu
      have : u.toStr = name := by
        simp only [unitTable, List.mem_cons, Prod.mk.injEq, List.not_mem_nil, or_false] at hm
        rcases hm with h | h | h | h | h | h | h | h | h | h | h | h | h <;>
          obtain ⟨rfl, h⟩ := h <;> rw [h] <;> rfl
      simp [this, TypeStr.displayUnits]
  unfold TypeStr.display
  rw [h3, h1, h2, h4]
  simp

example : TypeStr.parse "|a007".toList = .ok ⟨.irrelevant, .byteStr, 7, none⟩ ∧
    TypeStr.display ⟨.irrelevant, .byteStr, 7, none⟩ = "|S7".toList := by decide

/-- C04: accepted type strings obey the documented rules. -/
theorem C04_accepted_valid (s : Text) (t : TypeStr) (h : TypeStr.parse s = .ok t) : Valid t :=
  (wf_of_parse h).valid

/-- C04, converse: every combination obeying the rules has an accepted spelling (nothing valid is
refused). -/
theorem C04_valid_accepted (t : TypeStr) (hv : Valid t) (hs : t.size < 2 ^ 64)
    (ho : t.typeChar = .object → t.size = 0) : ∃ s, TypeStr.parse s = .ok t :=
  ⟨_, parse_display ⟨hv, hs, ho⟩⟩

example : Valid ⟨.big, .complex, 32, none⟩ := C04_accepted_valid ">c32".toList _ (by decide)

/-- C05 (scalars): `num_bytes` is the exact item size, or `None` if the item is a pickled object or
a size does not fit `usize`. -/
theorem C05_scalar_num_bytes (M : Machine) (t : TypeStr) (n : Nat) :
    t.numBytes M = some n ↔ itemBytes t = some n ∧ n < M.usizeLim := by
  obtain ⟨e, c, sz, u⟩ := t
  cases c <;> simp [TypeStr.numBytes, itemBytes] <;> first | omega | grind

example : TypeStr.numBytes ⟨false, 32, true⟩ ⟨.little, .unicodeStr, 2 ^ 30, none⟩ = none := by decide
example : TypeStr.numBytes ⟨false, 64, true⟩ ⟨.little, .unicodeStr, 2 ^ 30, none⟩ = some (2 ^ 32) := by decide

end Npyz.Props
