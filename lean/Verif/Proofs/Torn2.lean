import Verif.Proofs.Crash
/-! Torn headers of two-dimensional files. -/
namespace Npyz
open Spec Py

/-- Characters of the part of the header that is rewritten. -/
def ShapeChar (c : Char) : Prop := c.isDigit = true ∨ Punct c

namespace Py

theorem parseItems_first {F n : Nat} {R : Text} (hF : (Nat.toDigits 10 n).length + 1 < F) (hR : NoDigitHead R) :
    parseItems F ')' (Nat.toDigits 10 n ++ R) = itemTail ')' (.int n) (parseItems (F - 1) ')') (skipWs R) := by
  obtain ⟨⟨c, rr, hcr, n1, n2, -⟩, hp⟩ := lit_nat n
  cases F with
  | zero => omega
  | succ F =>
    have hpv := hp F R (by omega) hR
    rw [hcr] at hpv ⊢
    rw [List.cons_append] at hpv ⊢
    rw [parseItems, if_neg n2, hpv]
    rfl

theorem itemTail_comma (v : PyVal) (more : Text → Option (List PyVal × Bool × Text)) (r : Text) :
    itemTail ')' v more (',' :: r) = match more (skipWs r) with
      | some (vs, _, r') => some (v :: vs, true, r')
      | Option.none => Option.none := by
  simp only [itemTail]
  rw [if_neg (by decide), if_pos trivial]
  rcases more (skipWs r) with _ | ⟨vs, b, r'⟩ <;> rfl

/-- Entries that begin with digits or punctuation. -/
theorem parseEntries_shape {fuel : Nat} {s : Text} (h : ∀ c ∈ s, ShapeChar c) :
    parseEntries fuel s = Option.none ∨ ∃ r, parseEntries fuel s = some ([], r) := by
  cases fuel with
  | zero => left; rfl
  | succ fuel =>
    cases s with
    | nil => left; rfl
    | cons c r =>
      rw [parseEntries]
      by_cases hc : c = '}'
      · subst hc; right; exact ⟨r, by rw [if_pos rfl]⟩
      · left
        rw [if_neg hc]
        rcases h c (by simp) with hd | hp
        · -- a number is not followed by a colon
          cases fuel with
          | zero => rfl
          | succ fuel =>
            rw [parseVal, if_neg (by
              rintro (h | h)
              · exact digit_ne hd _ (by decide) h
              · exact digit_ne hd _ (by decide) h), if_neg (digit_ne hd _ (by decide)), if_neg (digit_ne hd _ (by decide)),
              if_neg (digit_ne hd _ (by decide)), if_pos hd]
            unfold parseNat
            cases digitsVal ((c :: r).takeWhile Char.isDigit) with
            | none => rfl
            | some n =>
              simp only
              have hsub : ∀ x ∈ skipWs ((c :: r).dropWhile Char.isDigit), ShapeChar x := fun x hx =>
                h x ((List.dropWhile_sublist _).subset ((List.dropWhile_sublist _).subset hx))
              generalize skipWs ((c :: r).dropWhile Char.isDigit) = R at hsub
              cases R with
              | nil => rfl
              | cons x R =>
                have hx : x ≠ ':' := by
                  rcases hsub x (by simp) with hd | rfl | rfl | rfl | rfl | rfl
                  · exact digit_ne hd _ (by decide)
                  all_goals decide
                simp only [expectColon, if_neg hx]
        · rw [parseVal_punct hp]

end Py

open Py

theorem skipWs_shape {s : Text} (h : ∀ c ∈ s, ShapeChar c) : ∀ c ∈ skipWs s, ShapeChar c :=
  fun c hc => h c ((List.dropWhile_sublist _).subset hc)

/-- Digits or a comma before a star. -/
theorem parse_star_second {d : DType} (hn : d.NotArray) (o : Order) (x j : Nat) {D Z : Text} (hD : ∀ c ∈ D, c.isDigit = true) :
    parse (dictPrefix d o ++ (Nat.toDigits 10 x ++ ',' :: (List.replicate j ' ' ++ (D ++ '*' :: Z)))) = none := by
  obtain ⟨F, h1, h3, h2⟩ := parse_prefix hn o (Nat.toDigits 10 x ++ ',' :: (List.replicate j ' ' ++ (D ++ '*' :: Z)))
  obtain ⟨⟨c, rr, hcr, n1, -⟩, -⟩ := lit_nat x
  simp only [List.length_append, List.length_cons] at h3
  rw [h2, entries_shape h1, skipWs_of_head ⟨c, rr, hcr, n1⟩, parseItems_first (by omega) (noDigitHead_cons (by decide)),
    skipWs_cons_ne (by decide), itemTail_comma, skipWs_replicate, skipWs_digits hD, parseItems_star hD]
  rfl

/-- A complete shape: whatever follows, the header is rejected or shows that shape. -/
theorem parse_closed {d : DType} (hn : d.NotArray) (o : Order) (x y : Nat) {R : Text} (hR : ∀ c ∈ R, ShapeChar c) :
    parse (dictPrefix d o ++ (Nat.toDigits 10 x ++ (',' :: ' ' :: (Nat.toDigits 10 y ++ ')' :: R)))) = none ∨
    parse (dictPrefix d o ++ (Nat.toDigits 10 x ++ (',' :: ' ' :: (Nat.toDigits 10 y ++ ')' :: R)))) =
      some (.dict (headerDict d o [.int x, .int y])) := by
  obtain ⟨F, h1, h3, h2⟩ := parse_prefix hn o (Nat.toDigits 10 x ++ (',' :: ' ' :: (Nat.toDigits 10 y ++ ')' :: R)))
  obtain ⟨⟨c, rr, hcr, n1, -⟩, -⟩ := lit_nat x
  obtain ⟨⟨c', rr', hcr', n1', -⟩, -⟩ := lit_nat y
  simp only [List.length_append, List.length_cons] at h3
  have hi : mkTuple (parseItems F ')' (skipWs (Nat.toDigits 10 x ++ (',' :: ' ' :: (Nat.toDigits 10 y ++ ')' :: R))))) =
      some (.tuple [.int x, .int y], R) := by
    rw [skipWs_of_head ⟨c, rr, hcr, n1⟩, parseItems_first (by omega) (noDigitHead_cons (by decide)), skipWs_cons_ne (by decide),
      itemTail_comma, skipWs_blank, skipWs_of_head ⟨c', rr', hcr', n1'⟩, parseItems_first (by omega) (noDigitHead_cons (by decide)),
      skipWs_cons_ne (by decide)]
    simp only [itemTail, if_true]
    rfl
  rw [h2, entries_shape h1, hi]
  simp only
  have hs := skipWs_shape hR
  generalize skipWs R = R' at hs
  cases R' with
  | nil => left; rfl
  | cons z R' =>
    simp only [entryTail]
    have fin : ∀ r : Text, finish (mkDict (consEntry (.str (txt "descr"), d.pyElem)
        (consEntry (.str (txt "fortran_order"), .bool (o == .fortran)) (some ([(.str (txt "shape"), .tuple [.int x, .int y])], r))))) = none ∨
        finish (mkDict (consEntry (.str (txt "descr"), d.pyElem)
        (consEntry (.str (txt "fortran_order"), .bool (o == .fortran)) (some ([(.str (txt "shape"), .tuple [.int x, .int y])], r))))) =
          some (.dict (headerDict d o [.int x, .int y])) := by
      intro r
      by_cases hr : skipWs r = []
      · right; show (if skipWs r = [] then _ else _) = _; rw [if_pos hr]; rfl
      · left; show (if skipWs r = [] then _ else _) = _; rw [if_neg hr]
    by_cases hx : z = '}'
    · rw [if_pos hx]; exact fin R'
    · rw [if_neg hx]
      by_cases hx : z = ','
      · rw [if_pos hx]
        rcases parseEntries_shape (fuel := F + 1) (skipWs_shape (s := R') fun c hc => hs c (by simp [hc])) with h | ⟨r, h⟩
        · left; rw [h]; rfl
        · rw [h]; exact fin r
      · left; rw [if_neg hx]; rfl

/-- What a torn two-dimensional shape can look like. -/
def TornForm (x y : Nat) (X : Text) : Prop :=
  (∃ D Z, (∀ c ∈ D, c.isDigit = true) ∧ X = D ++ '*' :: Z) ∨
  (∃ j D Z, (∀ c ∈ D, c.isDigit = true) ∧ X = Nat.toDigits 10 x ++ ',' :: (List.replicate j ' ' ++ (D ++ '*' :: Z))) ∨
  (∃ R, (∀ c ∈ R, ShapeChar c) ∧ X = Nat.toDigits 10 x ++ (',' :: ' ' :: (Nat.toDigits 10 y ++ ')' :: R)))

theorem TornForm.parse {d : DType} (hn : d.NotArray) (o : Order) {x y : Nat} {X : Text} (h : TornForm x y X) :
    Py.parse (dictPrefix d o ++ X) = none ∨ Py.parse (dictPrefix d o ++ X) = some (.dict (headerDict d o [.int x, .int y])) := by
  rcases h with ⟨D, Z, hD, rfl⟩ | ⟨j, D, Z, hD, rfl⟩ | ⟨R, hR, rfl⟩
  · exact .inl (parse_star hn o hD)
  · exact .inl (parse_star_second hn o x j hD)
  · exact parse_closed hn o x y hR

theorem stars_drop {n : Nat} (h : n < 20) (T : Text) : (List.replicate 20 '*' ++ T).drop n = '*' :: (List.replicate 20 '*' ++ T).drop (n + 1) := by
  have hl : n < (List.replicate 20 '*' ++ T).length := by simp; omega
  rw [List.drop_eq_getElem_cons hl]
  congr 1
  rw [List.getElem_append_left (by simp; omega)]
  exact List.getElem_replicate _

theorem digits_shape (n : Nat) : ∀ c ∈ Nat.toDigits 10 n, ShapeChar c :=
  fun _ hc => .inl (Nat.isDigit_of_mem_toDigits (by decide) (by decide) hc)

theorem placeholder_shape (o : Order) (hint : ShapeHint) : ∀ c ∈ placeholder o hint, ShapeChar c := placeholder_chars o hint

theorem finishedSuffix_shape (o : Order) (r m : Nat) : ∀ c ∈ finishedSuffix o (.twoD r) m, ShapeChar c := by
  have h1 : ∀ c ∈ txt ", ", ShapeChar c := by
    intro c hc
    right
    have : ∀ c ∈ txt ", ", c = ',' ∨ c = ')' ∨ c = ' ' ∨ c = '}' ∨ c = '*' := by decide +kernel
    exact this c hc
  have h2 : ∀ c ∈ txt "), }", ShapeChar c := by
    intro c hc
    right
    have : ∀ c ∈ txt "), }", c = ',' ∨ c = ')' ∨ c = ' ' ∨ c = '}' ∨ c = '*' := by decide +kernel
    exact this c hc
  intro c hc
  simp only [finishedSuffix, suffixText, List.mem_append, List.mem_replicate] at hc
  rcases hc with (hc | hc) | ⟨-, rfl⟩
  · cases o <;> simp only [axes2d, List.mem_append] at hc <;> rcases hc with (hc | hc) | hc
    all_goals first
      | exact digits_shape _ c hc
      | exact h1 c hc
  · exact h2 c hc
  · right; simp [Punct]

theorem tornSuffix_shape (o : Order) (r m n k : Nat) : ∀ c ∈ tornSuffix o (.twoD r) m n ++ List.replicate k ' ', ShapeChar c := by
  intro c hc
  simp only [tornSuffix, List.mem_append, List.mem_replicate] at hc
  rcases hc with (hc | hc) | ⟨-, rfl⟩
  · exact finishedSuffix_shape o r m c (List.mem_of_mem_take hc)
  · exact placeholder_shape o _ c (List.mem_of_mem_drop hc)
  · right; simp [Punct]

/-- The three forms, from the tail after the first axis and `", "`. -/
theorem take_closed {D T : Text} {j : Nat} (h : D.length < j) : (D ++ ')' :: T).take j = D ++ ')' :: T.take (j - D.length - 1) := by
  rw [List.take_append, List.take_of_length_le (by omega)]
  congr 1
  have : j - D.length = (j - D.length - 1) + 1 := by omega
  rw [this, List.take_succ_cons]
  simp

theorem torn_fortran (r : Nat) {m : Nat} (hm : m < 2 ^ 64) (n k : Nat) :
    TornForm r m (tornSuffix .fortran (.twoD r) m n ++ List.replicate k ' ') := by
  have hall := tornSuffix_shape .fortran r m n k
  have hle := toDigits_length_le hm
  have hD : ∀ c ∈ Nat.toDigits 10 m, c.isDigit = true := fun c hc => Nat.isDigit_of_mem_toDigits (by decide) (by decide) hc
  have hpl : placeholder .fortran (.twoD r) = (Nat.toDigits 10 r ++ txt ", ") ++ (List.replicate 20 '*' ++ txt "), }") := by
    rw [← suffixText_filler]
    simp [suffixText, axes2d, filler]
  have hfs : finishedSuffix .fortran (.twoD r) m = (Nat.toDigits 10 r ++ txt ", ") ++ (Nat.toDigits 10 m ++ ')' ::
      (txt ", }" ++ List.replicate (20 - (Nat.toDigits 10 m).length) ' ')) := by
    have e : txt "), }" = ')' :: txt ", }" := by decide +kernel
    simp [finishedSuffix, suffixText, axes2d, e]
  have hc : txt ", " = [',', ' '] := by decide +kernel
  unfold tornSuffix at hall ⊢
  rw [hpl, hfs] at hall ⊢
  generalize hP : Nat.toDigits 10 r ++ txt ", " = P at hall ⊢
  by_cases h0 : n ≤ P.length
  · -- nothing has changed
    right; left
    refine ⟨1, [], (List.replicate 19 '*' ++ txt "), }") ++ List.replicate k ' ', by simp, ?_⟩
    rw [List.take_append_of_le_length h0, List.drop_append_of_le_length h0, ← List.append_assoc, List.take_append_drop, ← hP, hc]
    rw [show List.replicate 20 '*' = '*' :: List.replicate 19 '*' from rfl]
    simp
  · rw [List.take_append, List.take_of_length_le (by omega), List.drop_append, List.drop_eq_nil_of_le (by omega), List.nil_append] at hall ⊢
    generalize n - P.length = j at hall ⊢
    by_cases h1 : j < 20 ∧ j ≤ (Nat.toDigits 10 m).length
    · right; left
      refine ⟨1, (Nat.toDigits 10 m).take j, (List.replicate 20 '*' ++ txt "), }").drop (j + 1) ++ List.replicate k ' ',
        fun c hc => hD c (List.mem_of_mem_take hc), ?_⟩
      rw [List.take_append_of_le_length h1.2, stars_drop h1.1, ← hP, hc]
      simp
    · right; right
      by_cases h2 : (Nat.toDigits 10 m).length < j
      · rw [take_closed h2] at hall ⊢
        refine ⟨_, ?_, by rw [← hP, hc]; simp only [List.append_assoc, List.cons_append, List.nil_append]; rfl⟩
        intro c hc
        apply hall c
        simp only [List.mem_append, List.mem_cons] at hc ⊢
        rcases hc with hc | hc | hc
        · exact .inl (.inl (.inr (.inr (.inr hc))))
        · exact .inl (.inr hc)
        · exact .inr hc
      · have hj : j = 20 := by omega
        have hm20 : (Nat.toDigits 10 m).length = 20 := by omega
        subst hj
        have e : txt "), }" = ')' :: txt ", }" := by decide +kernel
        rw [List.take_append_of_le_length (by omega), List.take_of_length_le (by omega), List.drop_append,
          List.drop_eq_nil_of_le (by simp), List.nil_append] at hall ⊢
        rw [show 20 - (List.replicate 20 '*').length = 0 by simp, List.drop_zero, e] at hall ⊢
        refine ⟨txt ", }" ++ List.replicate k ' ', ?_, by rw [← hP, hc]; simp⟩
        intro c hc
        apply hall c
        simp only [List.mem_append, List.mem_cons] at hc ⊢
        rcases hc with hc | hc
        · exact .inl (.inr (.inr hc))
        · exact .inr hc

theorem torn_c {r m : Nat} (h17 : (Nat.toDigits 10 m).length + (Nat.toDigits 10 r).length ≤ 17) (n k : Nat) :
    TornForm m r (tornSuffix .c (.twoD r) m n ++ List.replicate k ' ') := by
  have hall := tornSuffix_shape .c r m n k
  have hDm : ∀ c ∈ Nat.toDigits 10 m, c.isDigit = true := fun c hc => Nat.isDigit_of_mem_toDigits (by decide) (by decide) hc
  have hDr : ∀ c ∈ Nat.toDigits 10 r, c.isDigit = true := fun c hc => Nat.isDigit_of_mem_toDigits (by decide) (by decide) hc
  have hpl : placeholder .c (.twoD r) = List.replicate 20 '*' ++ (txt ", " ++ Nat.toDigits 10 r ++ txt "), }") := by
    rw [← suffixText_filler]
    simp [suffixText, axes2d, filler]
  have hc : txt ", " = [',', ' '] := by decide +kernel
  have hfs : finishedSuffix .c (.twoD r) m = Nat.toDigits 10 m ++ ',' :: ' ' :: (Nat.toDigits 10 r ++ ')' ::
      (txt ", }" ++ List.replicate (20 - (Nat.toDigits 10 m).length) ' ')) := by
    have e : txt "), }" = ')' :: txt ", }" := by decide +kernel
    simp [finishedSuffix, suffixText, axes2d, e, hc]
  unfold tornSuffix at hall ⊢
  rw [hpl, hfs] at hall ⊢
  unfold TornForm
  generalize Nat.toDigits 10 m = M at *
  generalize Nat.toDigits 10 r = R at *
  generalize txt ", " ++ R ++ txt "), }" = T at hall ⊢
  by_cases h0 : n ≤ M.length
  · left
    refine ⟨M.take n, (List.replicate 20 '*' ++ T).drop (n + 1) ++ List.replicate k ' ', fun c hc => hDm c (List.mem_of_mem_take hc), ?_⟩
    rw [List.take_append_of_le_length h0, stars_drop (by omega)]
    simp
  · right
    rw [List.take_append, List.take_of_length_le (by omega)] at hall ⊢
    by_cases h1 : n = M.length + 1
    · left
      refine ⟨0, [], (List.replicate 20 '*' ++ T).drop (n + 1) ++ List.replicate k ' ', by simp, ?_⟩
      rw [stars_drop (by omega), show n - M.length = 1 by omega]
      simp
    · have h2 : n - M.length = (n - M.length - 2) + 2 := by omega
      rw [h2, List.take_succ_cons, List.take_succ_cons] at hall ⊢
      generalize hj : n - M.length - 2 = j at hall ⊢
      by_cases h3 : j ≤ R.length
      · left
        refine ⟨1, R.take j, (List.replicate 20 '*' ++ T).drop (n + 1) ++ List.replicate k ' ', fun c hc => hDr c (List.mem_of_mem_take hc), ?_⟩
        rw [List.take_append_of_le_length h3, stars_drop (by omega)]
        simp
      · right
        rw [take_closed (by omega)] at hall ⊢
        refine ⟨_, ?_, by simp only [List.append_assoc, List.cons_append]; rfl⟩
        intro c hc
        apply hall c
        simp only [List.mem_append, List.mem_cons] at hc ⊢
        rcases hc with hc | hc | hc
        · exact .inl (.inl (.inr (.inr (.inr (.inr (.inr hc))))))
        · exact .inl (.inr hc)
        · exact .inr hc

end Npyz
