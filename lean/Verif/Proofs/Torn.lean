import Verif.Proofs.Finish
/-! What the reference parser makes of incomplete and torn headers. -/
namespace Npyz
open Spec Py

namespace Py

/-- Prepend an entry. -/
def consEntry (kv : PyVal × PyVal) : Option (List (PyVal × PyVal) × Text) → Option (List (PyVal × PyVal) × Text)
  | some (kvs, r) => some (kv :: kvs, r)
  | Option.none => Option.none

theorem entryTail_comma (kv : PyVal × PyVal) (more : Text → Option (List (PyVal × PyVal) × Text)) (r : Text) :
    entryTail kv more (',' :: r) = consEntry kv (more (skipWs r)) := by
  simp only [entryTail]
  rw [if_neg (by decide), if_pos trivial]
  rcases more (skipWs r) with _ | ⟨kvs, r'⟩ <;> rfl

theorem entries_step {tk tv : Text} {k v : PyVal} (b1 : Nat) (hk : Lit tk k) (hv : Lit tv v) {fuel : Nat} (h1 : tk.length < fuel)
    (h2 : tv.length < fuel) (R : Text) :
    parseEntries (fuel + 1) (tk ++ ':' :: (List.replicate b1 ' ' ++ (tv ++ ',' :: R))) =
      consEntry (k, v) (parseEntries fuel (skipWs R)) := by
  obtain ⟨⟨c, r, hcr, n1, n2, n3, n4⟩, hp⟩ := hk
  obtain ⟨⟨c', r', hcr', n1', -⟩, hp'⟩ := hv
  have hpk := hp fuel (':' :: (List.replicate b1 ' ' ++ (tv ++ ',' :: R))) h1 (noDigitHead_cons (by decide))
  have hpv := hp' fuel (',' :: R) h2 (noDigitHead_cons (by decide))
  rw [hcr] at hpk ⊢
  simp only [List.cons_append, parseEntries, if_neg n4] at hpk ⊢
  rw [hpk]
  simp only [skipWs_cons_ne (show ':' ≠ ' ' by decide), expectColon, if_true]
  rw [skipWs_replicate, skipWs_of_head ⟨c', r', hcr', n1'⟩, hpv]
  simp only [skipWs_cons_ne (show ',' ≠ ' ' by decide)]
  exact entryTail_comma _ _ _

/-- The third entry. -/
theorem entries_shape {fuel : Nat} (hf : 7 < fuel) (X : Text) :
    parseEntries (fuel + 2) (txt "'shape': (" ++ X) = match mkTuple (parseItems fuel ')' (skipWs X)) with
      | some (v, r) => entryTail (.str (txt "shape"), v) (parseEntries (fuel + 1)) (skipWs r)
      | Option.none => Option.none := by
  have hk := (lit_key (txt "shape") (by decide)).parse (fuel + 1) (':' :: ' ' :: '(' :: X) (by simp [txt]; omega) (noDigitHead_cons (by decide))
  have e : txt "'shape': (" ++ X = '\'' :: (txt "shape" ++ ['\'']) ++ (':' :: ' ' :: '(' :: X) := by simp [txt]
  rw [e]
  simp only [List.cons_append] at hk ⊢
  rw [parseEntries, if_neg (by decide), hk]
  simp only [skipWs_cons_ne (show ':' ≠ ' ' by decide), expectColon, if_true, skipWs_blank, skipWs_cons_ne (show '(' ≠ ' ' by decide)]
  rw [parseVal, if_neg (by decide), if_pos rfl]
  rfl

/-- The part of the text the crate writes before the shape is parsed as expected, whatever follows. -/
theorem parse_prefix {d : DType} (hn : d.NotArray) (o : Order) (X : Text) : ∃ F, 7 < F ∧ X.length + 1 < F ∧
    parse (dictPrefix d o ++ X) = finish (mkDict (consEntry (.str (txt "descr"), d.pyElem)
      (consEntry (.str (txt "fortran_order"), .bool (o == .fortran)) (parseEntries (F + 2) (txt "'shape': (" ++ X))))) := by
  have hT : dictPrefix d o ++ X = '{' :: ('\'' :: (txt "descr" ++ ['\'']) ++ ':' :: (List.replicate 1 ' ' ++ (d.descr ++ ',' ::
      (' ' :: ('\'' :: (txt "fortran_order" ++ ['\'']) ++ ':' :: (List.replicate 1 ' ' ++ (orderText o ++ ',' ::
      (' ' :: (txt "'shape': (" ++ X))))))))) := by
    simp [dictPrefix, txt]
  have hw : ∃ F, (dictPrefix d o ++ X).length = F + 4 ∧ 20 < F ∧ X.length + 1 < F ∧ d.descr.length < F ∧ (orderText o).length < F := by
    refine ⟨(dictPrefix d o ++ X).length - 4, ?_⟩
    rw [hT]
    simp only [txt, List.length_append, List.length_cons, List.length_replicate, List.length_nil]
    have e1 : "descr".toList.length = 5 := by decide
    have e2 : "fortran_order".toList.length = 13 := by decide
    have e3 : "'shape': (".toList.length = 10 := by decide
    omega
  obtain ⟨F, h1, h2, h3, h4, h5⟩ := hw
  refine ⟨F, by omega, h3, ?_⟩
  unfold parse
  rw [h1, hT, skipWs_cons_ne (by decide), parseVal, if_neg (by decide), if_neg (by decide), if_neg (by decide), if_pos rfl]
  have s1 : ∀ r : Text, skipWs ('\'' :: (txt "descr" ++ ['\'']) ++ r) = '\'' :: (txt "descr" ++ ['\'']) ++ r :=
    fun r => skipWs_cons_ne (by decide)
  have s2 : ∀ r : Text, skipWs (' ' :: ('\'' :: (txt "fortran_order" ++ ['\'']) ++ r)) = '\'' :: (txt "fortran_order" ++ ['\'']) ++ r :=
    fun r => (skipWs_blank _).trans (skipWs_cons_ne (by decide))
  have s3 : ∀ r : Text, skipWs (' ' :: (txt "'shape': (" ++ r)) = txt "'shape': (" ++ r :=
    fun r => (skipWs_blank _).trans (skipWs_cons_ne (by decide))
  rw [s1, entries_step 1 (lit_key (txt "descr") (by decide)) (lit_descr hn) (by simp [txt]; omega) (by omega), s2,
    entries_step 1 (lit_key (txt "fortran_order") (by decide)) (lit_order o) (by simp [txt]; omega) (by omega), s3]

/-- Characters of the part of a header that `finish` rewrites, besides digits. -/
def Punct (c : Char) : Prop := c = ',' ∨ c = ')' ∨ c = ' ' ∨ c = '}' ∨ c = '*'

theorem parseVal_punct {fuel : Nat} {c : Char} {r : Text} (h : Punct c) : parseVal fuel (c :: r) = Option.none := by
  cases fuel with
  | zero => rfl
  | succ fuel =>
    rcases h with rfl | rfl | rfl | rfl | rfl <;>
      (rw [parseVal, if_neg (by decide), if_neg (by decide), if_neg (by decide), if_neg (by decide), if_neg (by decide), if_neg (by decide)]; rfl)

theorem skipWs_punct {s : Text} (h : ∀ c ∈ s, Punct c) : ∀ c ∈ skipWs s, Punct c :=
  fun c hc => h c ((List.dropWhile_sublist _).subset hc)

theorem parseItems_punct {fuel : Nat} {s : Text} (h : ∀ c ∈ s, Punct c) :
    parseItems fuel ')' s = Option.none ∨ ∃ r, s = ')' :: r ∧ parseItems fuel ')' s = some ([], false, r) := by
  cases fuel with
  | zero => left; rfl
  | succ fuel =>
    cases s with
    | nil => left; rfl
    | cons c r =>
      rw [parseItems]
      by_cases hc : c = ')'
      · subst hc; right; exact ⟨r, rfl, by rw [if_pos rfl]⟩
      · left
        rw [if_neg hc, parseVal_punct (h c (by simp))]

theorem parseEntries_punct {fuel : Nat} {s : Text} (h : ∀ c ∈ s, Punct c) :
    parseEntries fuel s = Option.none ∨ ∃ r, parseEntries fuel s = some ([], r) := by
  cases fuel with
  | zero => left; rfl
  | succ fuel =>
    cases s with
    | nil => left; rfl
    | cons c r =>
      rw [parseEntries]
      by_cases hc : c = '}'
      · subst hc; right; exact ⟨r, by rw [if_pos rfl]⟩
      · left
        rw [if_neg hc, parseVal_punct (h c (by simp))]

theorem takeWhile_digits {D : Text} (hD : ∀ c ∈ D, c.isDigit = true) {c : Char} (hc : c.isDigit = false) (r : Text) :
    (D ++ c :: r).takeWhile Char.isDigit = D ∧ (D ++ c :: r).dropWhile Char.isDigit = c :: r := by
  induction D with
  | nil => simp [hc]
  | cons x D ih =>
    have h1 := hD x (by simp)
    have h2 := ih fun c hc => hD c (by simp [hc])
    simp [h1, h2]

/-- A run of digits (perhaps none) before a star is not an item. -/
theorem parseItems_star {fuel : Nat} {D Z : Text} (hD : ∀ c ∈ D, c.isDigit = true) :
    parseItems fuel ')' (D ++ '*' :: Z) = Option.none := by
  cases fuel with
  | zero => rfl
  | succ fuel =>
    cases D with
    | nil => rw [List.nil_append, parseItems, if_neg (by decide), parseVal_punct (by simp [Punct])]
    | cons x D =>
      have hx := hD x (by simp)
      rw [List.cons_append, parseItems, if_neg (digit_ne hx _ (by decide))]
      cases fuel with
      | zero => rfl
      | succ fuel =>
        rw [parseVal, if_neg (by
          rintro (h | h)
          · exact digit_ne hx _ (by decide) h
          · exact digit_ne hx _ (by decide) h), if_neg (digit_ne hx _ (by decide)), if_neg (digit_ne hx _ (by decide)),
          if_neg (digit_ne hx _ (by decide)), if_pos hx]
        unfold parseNat
        rw [← List.cons_append, (takeWhile_digits hD (by decide) Z).1, (takeWhile_digits hD (by decide) Z).2]
        cases digitsVal (x :: D) with
        | none => rfl
        | some n => rfl

end Py

open Py

theorem skipWs_digits {D Z : Text} (hD : ∀ c ∈ D, c.isDigit = true) : skipWs (D ++ '*' :: Z) = D ++ '*' :: Z := by
  cases D with
  | nil => exact skipWs_cons_ne (by decide)
  | cons x D => exact skipWs_cons_ne (digit_ne (hD x (by simp)) _ (by decide))

/-- A star in the first dimension: the header is rejected. -/
theorem parse_star {d : DType} (hn : d.NotArray) (o : Order) {D Z : Text} (hD : ∀ c ∈ D, c.isDigit = true) :
    parse (dictPrefix d o ++ (D ++ '*' :: Z)) = none := by
  obtain ⟨F, h1, -, h2⟩ := parse_prefix hn o (D ++ '*' :: Z)
  rw [h2, entries_shape h1, skipWs_digits hD, parseItems_star hD]
  rfl

/-- A star in the second dimension: the header is rejected. -/
theorem parse_star2 {d : DType} (hn : d.NotArray) (o : Order) (r : Nat) (Z : Text) :
    parse (dictPrefix d o ++ (Nat.toDigits 10 r ++ (txt ", " ++ '*' :: Z))) = none := by
  obtain ⟨F, h1, h3, h2⟩ := parse_prefix hn o (Nat.toDigits 10 r ++ (txt ", " ++ '*' :: Z))
  obtain ⟨⟨c, rr, hcr, n1, n2, -⟩, hp⟩ := lit_nat r
  simp only [List.length_append, List.length_cons] at h3
  rw [h2, entries_shape h1, skipWs_of_head ⟨c, rr, hcr, n1⟩]
  have : parseItems F ')' (Nat.toDigits 10 r ++ (txt ", " ++ '*' :: Z)) = none := by
    cases F with
    | zero => rfl
    | succ F =>
      have hpv := hp F (txt ", " ++ '*' :: Z) (by omega) (noDigitHead_cons (by decide))
      rw [hcr] at hpv ⊢
      rw [List.cons_append] at hpv ⊢
      rw [parseItems, if_neg n2, hpv]
      simp only
      have e : txt ", " ++ '*' :: Z = ',' :: ' ' :: '*' :: Z := by simp [txt]
      rw [e, skipWs_cons_ne (by decide)]
      simp only [itemTail]
      rw [if_neg (by decide), if_pos trivial, skipWs_blank, skipWs_cons_ne (by decide)]
      rw [← List.nil_append ('*' :: Z), parseItems_star (by simp)]
  rw [this]
  rfl

/-- A complete first dimension followed by any mixture of punctuation: the header is rejected or shows
that one dimension. -/
theorem parse_punct {d : DType} (hn : d.NotArray) (o : Order) (n : Nat) {R : Text} (hR : ∀ c ∈ R, Punct c) :
    parse (dictPrefix d o ++ (Nat.toDigits 10 n ++ R)) = none ∨
    parse (dictPrefix d o ++ (Nat.toDigits 10 n ++ R)) = some (.dict (headerDict d o [.int n])) := by
  obtain ⟨F, h1, h3, h2⟩ := parse_prefix hn o (Nat.toDigits 10 n ++ R)
  obtain ⟨⟨c, rr, hcr, n1, n2, -⟩, hp⟩ := lit_nat n
  simp only [List.length_append] at h3
  rw [h2, entries_shape h1, skipWs_of_head ⟨c, rr, hcr, n1⟩]
  have hnd : NoDigitHead R := by
    intro x hx
    cases R with
    | nil => cases hx
    | cons y R =>
      simp only [List.head?_cons, Option.some.injEq] at hx
      subst hx
      rcases hR y (by simp) with rfl | rfl | rfl | rfl | rfl <;> decide
  -- the items
  have hitems : (mkTuple (parseItems F ')' (Nat.toDigits 10 n ++ R)) = none) ∨
      ∃ r, (∀ c ∈ r, Punct c) ∧ mkTuple (parseItems F ')' (Nat.toDigits 10 n ++ R)) = some (.tuple [.int n], r) := by
    cases F with
    | zero => omega
    | succ F =>
      have hpv := hp F R (by omega) hnd
      rw [hcr] at hpv ⊢
      rw [List.cons_append] at hpv ⊢
      rw [parseItems, if_neg n2, hpv]
      simp only
      have hs := skipWs_punct hR
      generalize skipWs R = R' at hs
      cases R' with
      | nil => left; rfl
      | cons x R' =>
        simp only [itemTail]
        by_cases hx : x = ')'
        · left; rw [if_pos hx]; rfl
        · rw [if_neg hx]
          by_cases hx : x = ','
          · rw [if_pos hx]
            have hs' : ∀ c ∈ skipWs R', Punct c := skipWs_punct fun c hc => hs c (by simp [hc])
            rcases parseItems_punct (fuel := F) hs' with h | ⟨r, h, h'⟩
            · left; rw [h]; rfl
            · right
              exact ⟨r, fun c hc => hs' c (by rw [h]; simp [hc]), by rw [h']; rfl⟩
          · left; rw [if_neg hx]; rfl
  rcases hitems with h | ⟨r, hr, h⟩
  · left; rw [h]; rfl
  · rw [h]
    simp only
    have hs := skipWs_punct hr
    generalize skipWs r = R' at hs
    cases R' with
    | nil => left; rfl
    | cons x R' =>
      simp only [entryTail]
      have fin : ∀ r : Text, finish (mkDict (consEntry (.str (txt "descr"), d.pyElem)
          (consEntry (.str (txt "fortran_order"), .bool (o == .fortran)) (some ([(.str (txt "shape"), .tuple [.int n])], r))))) = none ∨
          finish (mkDict (consEntry (.str (txt "descr"), d.pyElem)
          (consEntry (.str (txt "fortran_order"), .bool (o == .fortran)) (some ([(.str (txt "shape"), .tuple [.int n])], r))))) =
            some (.dict (headerDict d o [.int n])) := by
        intro r
        by_cases hr : skipWs r = []
        · right; show (if skipWs r = [] then _ else _) = _; rw [if_pos hr]; rfl
        · left; show (if skipWs r = [] then _ else _) = _; rw [if_neg hr]
      by_cases hx : x = '}'
      · rw [if_pos hx]; exact fin R'
      · rw [if_neg hx]
        by_cases hx : x = ','
        · rw [if_pos hx]
          rcases parseEntries_punct (fuel := F + 1) (skipWs_punct (s := R') fun c hc => hs c (by simp [hc])) with h | ⟨r, h⟩
          · left; rw [h]; rfl
          · rw [h]; exact fin r
        · left; rw [if_neg hx]; rfl

end Npyz
