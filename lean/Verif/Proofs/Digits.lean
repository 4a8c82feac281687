import Verif.Model.Basic
/-! Lemmas about decimal digit strings. -/
namespace Npyz

theorem isDigit_toDigits {n : Nat} {c : Char} (h : c ∈ Nat.toDigits 10 n) : c.isDigit = true :=
  Nat.isDigit_of_mem_toDigits (by omega) (by omega) h

theorem toDigits_all_digit (n : Nat) : ∀ c ∈ Nat.toDigits 10 n, c.isDigit = true :=
  fun _ h => isDigit_toDigits h

theorem takeWhile_append_of_all {α} (p : α → Bool) (l r : List α) (hl : ∀ a ∈ l, p a = true)
    (hr : ∀ a, r.head? = some a → p a = false) : (l ++ r).takeWhile p = l := by
  induction l with
  | nil =>
    cases r with
    | nil => rfl
    | cons a r => simp [hr a rfl]
  | cons a l ih =>
    simp only [List.cons_append, List.takeWhile_cons, hl a (by simp), if_true]
    rw [ih (fun b hb => hl b (by simp [hb]))]

theorem dropWhile_append_of_all {α} (p : α → Bool) (l r : List α) (hl : ∀ a ∈ l, p a = true)
    (hr : ∀ a, r.head? = some a → p a = false) : (l ++ r).dropWhile p = r := by
  induction l with
  | nil =>
    cases r with
    | nil => rfl
    | cons a r => simp [hr a rfl]
  | cons a l ih =>
    simp only [List.cons_append, List.dropWhile_cons, hl a (by simp), if_true]
    exact ih (fun b hb => hl b (by simp [hb]))

theorem mem_takeWhile_pos {α} (p : α → Bool) (l : List α) : ∀ a ∈ l.takeWhile p, p a = true := by
  induction l with
  | nil => simp
  | cons b l ih =>
    intro a ha
    simp only [List.takeWhile_cons] at ha
    split at ha
    · rcases List.mem_cons.mp ha with rfl | h
      · assumption
      · exact ih a h
    · simp at ha

theorem head_dropWhile_neg {α} (p : α → Bool) (l : List α) :
    ∀ a, (l.dropWhile p).head? = some a → p a = false := by
  induction l with
  | nil => simp
  | cons b l ih =>
    intro a ha
    simp only [List.dropWhile_cons] at ha
    split at ha
    · exact ih a ha
    · rename_i h; simp at ha; subst ha; simpa using h

/-- Shortest spelling of a digit string: leading zeros dropped, one digit kept. -/
def stripZeros : Text → Text
  | [] => []
  | [d] => [d]
  | d :: d' :: ds => if d = '0' then stripZeros (d' :: ds) else d :: d' :: ds

theorem digit_eq_digitChar {c : Char} (h : c.isDigit = true) : c = Nat.digitChar (c.toNat - 48) ∧ c.toNat - 48 < 10 := by
  have h' : 48 ≤ c.toNat ∧ c.toNat ≤ 57 := by
    simp only [Char.isDigit, ge_iff_le, Bool.and_eq_true, decide_eq_true_eq] at h
    exact ⟨UInt32.le_iff_toNat_le.mp h.1, UInt32.le_iff_toNat_le.mp h.2⟩
  obtain ⟨h1, h2⟩ := h'
  refine ⟨?_, by omega⟩
  apply Char.toNat_inj.mp
  have : c.toNat = 48 ∨ c.toNat = 49 ∨ c.toNat = 50 ∨ c.toNat = 51 ∨ c.toNat = 52 ∨ c.toNat = 53 ∨
      c.toNat = 54 ∨ c.toNat = 55 ∨ c.toNat = 56 ∨ c.toNat = 57 := by omega
  rcases this with h | h | h | h | h | h | h | h | h | h <;> rw [h] <;> rfl

theorem ofDigitChars_pos {ds : Text} {init : Nat} (h : 0 < init) : 0 < Nat.ofDigitChars 10 ds init := by
  induction ds generalizing init with
  | nil => simpa
  | cons d ds ih =>
    rw [Nat.ofDigitChars_cons]
    exact ih (by omega)

theorem toDigits_ofDigitChars_aux (ds : Text) (hd : ∀ d ∈ ds, d.isDigit = true) (init : Nat) (hi : 0 < init) :
    Nat.toDigits 10 (Nat.ofDigitChars 10 ds init) = Nat.toDigits 10 init ++ ds := by
  induction ds generalizing init with
  | nil => simp
  | cons d ds ih =>
    rw [Nat.ofDigitChars_cons]
    obtain ⟨hc, hlt⟩ := digit_eq_digitChar (hd d (by simp))
    rw [ih (fun d h => hd d (by simp [h])) _ (by omega)]
    have := Nat.toDigits_append_toDigits (b := 10) (n := init) (d := d.toNat - 48) (by omega) hi hlt
    rw [Nat.toDigits_of_lt_base hlt] at this
    rw [← hc] at this
    have e : ('0' : Char).toNat = 48 := rfl
    rw [e, ← this]
    simp

/-- Printing the value of a digit string gives the string without redundant leading zeros. -/
theorem toDigits_ofDigitChars (ds : Text) (hne : ds ≠ []) (hd : ∀ d ∈ ds, d.isDigit = true) :
    Nat.toDigits 10 (Nat.ofDigitChars 10 ds 0) = stripZeros ds := by
  induction ds with
  | nil => contradiction
  | cons d ds ih =>
    obtain ⟨hc, hlt⟩ := digit_eq_digitChar (hd d (by simp))
    have e : ('0' : Char).toNat = 48 := rfl
    rw [Nat.ofDigitChars_cons]
    by_cases h0 : d = '0'
    · subst h0
      cases ds with
      | nil => simp [stripZeros, e, Nat.toDigits_zero]
      | cons d' ds =>
        simp only [stripZeros, if_true]
        exact ih (by simp) (fun x h => hd x (by simp [h]))
    · have hpos : 0 < d.toNat - 48 := by
        rcases Nat.eq_zero_or_pos (d.toNat - 48) with h | h
        · rw [h] at hc; exact absurd hc h0
        · exact h
      rw [e, toDigits_ofDigitChars_aux ds (fun x h => hd x (by simp [h])) _ (by omega)]
      have : Nat.toDigits 10 (10 * 0 + (d.toNat - 48)) = [d] := by
        rw [Nat.mul_zero, Nat.zero_add, Nat.toDigits_of_lt_base hlt, ← hc]
      rw [this]
      cases ds with
      | nil => simp [stripZeros]
      | cons d' ds => simp [stripZeros, h0]

end Npyz
