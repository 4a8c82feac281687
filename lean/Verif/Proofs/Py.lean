import Verif.Model.Py
import Verif.Proofs.Digits
/-! The reference parser inverts the printers: building blocks. -/
namespace Npyz.Py

/-- No digit at the start of the following text. -/
def NoDigitHead (rest : Text) : Prop := ∀ c, rest.head? = some c → c.isDigit = false

/-- `t` is a spelling of the literal `v`, in every context that does not continue a number. -/
structure Lit (t : Text) (v : PyVal) : Prop where
  head : ∃ c r, t = c :: r ∧ c ≠ ' ' ∧ c ≠ ')' ∧ c ≠ ']' ∧ c ≠ '}'
  parse : ∀ fuel rest, t.length < fuel → NoDigitHead rest → parseVal fuel (t ++ rest) = some (v, rest)

/-- `t` (which includes the closing bracket) spells the remaining items `vs`. -/
def Items (close : Char) (t : Text) (vs : List PyVal) : Prop :=
  (∃ c r, t = c :: r ∧ c ≠ ' ') ∧
  ∀ fuel rest, t.length < fuel → parseItems fuel close (t ++ rest) = some (vs, !vs.isEmpty, rest)

/-- `t` (which includes the closing brace) spells the remaining entries `kvs`. -/
def Entries (t : Text) (kvs : List (PyVal × PyVal)) : Prop :=
  (∃ c r, t = c :: r ∧ c ≠ ' ') ∧
  ∀ fuel rest, t.length < fuel → parseEntries fuel (t ++ rest) = some (kvs, rest)

theorem skipWs_cons_ne {c : Char} {r : Text} (h : c ≠ ' ') : skipWs (c :: r) = c :: r := by
  simp [skipWs, h]

theorem skipWs_blank (r : Text) : skipWs (' ' :: r) = skipWs r := by
  simp [skipWs]

theorem skipWs_replicate (n : Nat) (r : Text) : skipWs (List.replicate n ' ' ++ r) = skipWs r := by
  induction n with
  | zero => rfl
  | succ n ih => simp [List.replicate_succ, skipWs_blank, ih]

theorem skipWs_replicate_nil (n : Nat) : skipWs (List.replicate n ' ') = [] := by
  simp [skipWs]

theorem skipWs_of_head {t : Text} (h : ∃ c r, t = c :: r ∧ c ≠ ' ') (rest : Text) :
    skipWs (t ++ rest) = t ++ rest := by
  obtain ⟨c, r, rfl, hc⟩ := h
  exact skipWs_cons_ne hc

theorem noDigitHead_cons {c : Char} {r : Text} (h : c.isDigit = false) : NoDigitHead (c :: r) := by
  intro x hx; simp at hx; subst hx; exact h

theorem noDigitHead_nil : NoDigitHead [] := by intro x hx; simp at hx

theorem items_nil (close : Char) (h : close ≠ ' ') : Items close [close] [] := by
  refine ⟨⟨_, _, rfl, h⟩, ?_⟩
  intro fuel rest hf
  cases fuel with
  | zero => simp at hf
  | succ fuel => simp [parseItems]

theorem items_cons {close : Char} {tv : Text} {v : PyVal} {t : Text} {vs : List PyVal} (blanks : Nat)
    (hclose : close = ')' ∨ close = ']') (hv : Lit tv v) (ht : Items close t vs) :
    Items close (tv ++ ',' :: (List.replicate blanks ' ' ++ t)) (v :: vs) := by
  obtain ⟨⟨c, r, hcr, h1, h2, h3, h4⟩, hp⟩ := hv
  obtain ⟨hh, ht⟩ := ht
  refine ⟨⟨c, r ++ ',' :: (List.replicate blanks ' ' ++ t), by simp [hcr], h1⟩, ?_⟩
  intro fuel rest hf
  cases fuel with
  | zero => simp at hf
  | succ fuel =>
    simp only [List.length_append, List.length_cons, List.length_replicate] at hf
    have hne : c ≠ close := by rcases hclose with rfl | rfl <;> assumption
    have e : tv ++ ',' :: (List.replicate blanks ' ' ++ t) ++ rest
        = tv ++ ',' :: (List.replicate blanks ' ' ++ (t ++ rest)) := by simp
    have hpv := hp fuel (',' :: (List.replicate blanks ' ' ++ (t ++ rest))) (by omega)
      (noDigitHead_cons (by decide))
    rw [e]
    rw [hcr] at hpv ⊢
    simp only [List.cons_append, parseItems, if_neg hne] at hpv ⊢
    rw [hpv]
    simp only [skipWs_cons_ne (show ',' ≠ ' ' by decide), itemTail]
    rw [if_neg (by rcases hclose with rfl | rfl <;> decide), if_pos trivial, skipWs_replicate,
      skipWs_of_head hh, ht fuel rest (by omega)]
    simp

/-- A last item that is not followed by a comma (only used after other items). -/
theorem items_cons_last {close : Char} {tv : Text} {v : PyVal} (hclose : close = ')' ∨ close = ']')
    (hv : Lit tv v) :
    ∀ fuel rest, (tv ++ [close]).length < fuel →
      parseItems fuel close (tv ++ [close] ++ rest) = some ([v], false, rest) := by
  obtain ⟨⟨c, r, hcr, h1, h2, h3, h4⟩, hp⟩ := hv
  intro fuel rest hf
  cases fuel with
  | zero => simp at hf
  | succ fuel =>
    simp only [List.length_append, List.length_cons] at hf
    have hne : c ≠ close := by rcases hclose with rfl | rfl <;> assumption
    have hpv := hp fuel (close :: rest) (by omega)
      (noDigitHead_cons (by rcases hclose with rfl | rfl <;> decide))
    have e : tv ++ [close] ++ rest = tv ++ close :: rest := by simp
    rw [e]
    rw [hcr] at hpv ⊢
    simp only [List.cons_append, parseItems, if_neg hne] at hpv ⊢
    rw [hpv]
    simp only [skipWs_cons_ne (show close ≠ ' ' by rcases hclose with rfl | rfl <;> decide), itemTail]
    simp

/-- `v, w)` without trailing comma. -/
theorem items_cons_cons_last {close : Char} {tv tw : Text} {v w : PyVal} (blanks : Nat)
    (hclose : close = ')' ∨ close = ']') (hv : Lit tv v) (hw : Lit tw w) :
    Items close (tv ++ ',' :: (List.replicate blanks ' ' ++ (tw ++ [close]))) [v, w] := by
  have hl := items_cons_last hclose hw
  obtain ⟨⟨c, r, hcr, h1, h2, h3, h4⟩, hp⟩ := hv
  obtain ⟨⟨c', r', hcr', h1', -⟩, -⟩ := hw
  refine ⟨⟨c, r ++ ',' :: (List.replicate blanks ' ' ++ (tw ++ [close])), by simp [hcr], h1⟩, ?_⟩
  intro fuel rest hf
  cases fuel with
  | zero => simp at hf
  | succ fuel =>
    simp only [List.length_append, List.length_cons, List.length_replicate] at hf
    have hne : c ≠ close := by rcases hclose with rfl | rfl <;> assumption
    have e : tv ++ ',' :: (List.replicate blanks ' ' ++ (tw ++ [close])) ++ rest
        = tv ++ ',' :: (List.replicate blanks ' ' ++ (tw ++ [close] ++ rest)) := by simp
    have hpv := hp fuel (',' :: (List.replicate blanks ' ' ++ (tw ++ [close] ++ rest))) (by omega)
      (noDigitHead_cons (by decide))
    rw [e]
    rw [hcr] at hpv ⊢
    simp only [List.cons_append, parseItems, if_neg hne] at hpv ⊢
    rw [hpv]
    simp only [skipWs_cons_ne (show ',' ≠ ' ' by decide), itemTail]
    rw [if_neg (by rcases hclose with rfl | rfl <;> decide), if_pos trivial, skipWs_replicate,
      skipWs_of_head (t := tw ++ [close]) ⟨c', r' ++ [close], by simp [hcr'], h1'⟩,
      hl fuel rest (by simp; omega)]
    simp

/-- `u, v, w)` without trailing comma. -/
theorem items_three {close : Char} {tu tv tw : Text} {u v w : PyVal} (b1 b2 : Nat)
    (hclose : close = ')' ∨ close = ']') (hu : Lit tu u) (hv : Lit tv v) (hw : Lit tw w) :
    Items close (tu ++ ',' :: (List.replicate b1 ' ' ++ (tv ++ ',' :: (List.replicate b2 ' ' ++ (tw ++ [close])))))
      [u, v, w] :=
  items_cons b1 hclose hu (items_cons_cons_last b2 hclose hv hw)

theorem lit_tuple {t : Text} {vs : List PyVal} (h : Items ')' t vs) : Lit ('(' :: t) (.tuple vs) := by
  obtain ⟨hh, h⟩ := h
  refine ⟨⟨_, _, rfl, by decide, by decide, by decide, by decide⟩, ?_⟩
  intro fuel rest hf _
  cases fuel with
  | zero => simp at hf
  | succ fuel =>
    simp only [List.length_cons] at hf
    simp only [List.cons_append, parseVal]
    rw [if_neg (by decide), if_pos trivial, skipWs_of_head hh, h fuel rest (by omega)]
    cases vs <;> simp [mkTuple]

theorem lit_list {t : Text} {vs : List PyVal} (h : Items ']' t vs) : Lit ('[' :: t) (.list vs) := by
  obtain ⟨hh, h⟩ := h
  refine ⟨⟨_, _, rfl, by decide, by decide, by decide, by decide⟩, ?_⟩
  intro fuel rest hf _
  cases fuel with
  | zero => simp at hf
  | succ fuel =>
    simp only [List.length_cons] at hf
    simp only [List.cons_append, parseVal]
    rw [if_neg (by decide), if_neg (by decide), if_pos trivial, skipWs_of_head hh, h fuel rest (by omega)]
    simp [mkList]

theorem entries_nil : Entries ['}'] [] := by
  refine ⟨⟨_, _, rfl, by decide⟩, ?_⟩
  intro fuel rest hf
  cases fuel with
  | zero => simp at hf
  | succ fuel => simp [parseEntries]

theorem entries_cons {tk tv t : Text} {k v : PyVal} {kvs : List (PyVal × PyVal)} (b1 b2 : Nat)
    (hk : Lit tk k) (hv : Lit tv v) (ht : Entries t kvs) :
    Entries (tk ++ ':' :: (List.replicate b1 ' ' ++ (tv ++ ',' :: (List.replicate b2 ' ' ++ t)))) ((k, v) :: kvs) := by
  obtain ⟨⟨c, r, hcr, h1, h2, h3, h4⟩, hp⟩ := hk
  obtain ⟨⟨c', r', hcr', h1', -⟩, hp'⟩ := hv
  obtain ⟨hh, ht⟩ := ht
  refine ⟨⟨c, r ++ _, by rw [hcr]; rfl, h1⟩, ?_⟩
  intro fuel rest hf
  cases fuel with
  | zero => simp at hf
  | succ fuel =>
    simp only [List.length_append, List.length_cons, List.length_replicate] at hf
    have e : tk ++ ':' :: (List.replicate b1 ' ' ++ (tv ++ ',' :: (List.replicate b2 ' ' ++ t))) ++ rest
        = tk ++ ':' :: (List.replicate b1 ' ' ++ (tv ++ ',' :: (List.replicate b2 ' ' ++ (t ++ rest)))) := by simp
    have hpk := hp fuel (':' :: (List.replicate b1 ' ' ++ (tv ++ ',' :: (List.replicate b2 ' ' ++ (t ++ rest)))))
      (by omega) (noDigitHead_cons (by decide))
    have hpv := hp' fuel (',' :: (List.replicate b2 ' ' ++ (t ++ rest)))
      (by omega) (noDigitHead_cons (by decide))
    rw [e]
    rw [hcr] at hpk ⊢
    simp only [List.cons_append, parseEntries, if_neg h4] at hpk ⊢
    rw [hpk]
    simp only [skipWs_cons_ne (show ':' ≠ ' ' by decide), expectColon, if_true]
    rw [skipWs_replicate, skipWs_of_head ⟨c', r', hcr', h1'⟩, hpv]
    simp only [skipWs_cons_ne (show ',' ≠ ' ' by decide), entryTail]
    rw [if_neg (by decide), if_pos trivial, skipWs_replicate, skipWs_of_head hh, ht fuel rest (by omega)]

theorem lit_dict {t : Text} {kvs : List (PyVal × PyVal)} (h : Entries t kvs) : Lit ('{' :: t) (.dict kvs) := by
  obtain ⟨hh, h⟩ := h
  refine ⟨⟨_, _, rfl, by decide, by decide, by decide, by decide⟩, ?_⟩
  intro fuel rest hf _
  cases fuel with
  | zero => simp at hf
  | succ fuel =>
    simp only [List.length_cons] at hf
    simp only [List.cons_append, parseVal]
    rw [if_neg (by decide), if_neg (by decide), if_neg (by decide), if_pos trivial, skipWs_of_head hh,
      h fuel rest (by omega)]
    simp [mkDict]

theorem lit_true : Lit ['T', 'r', 'u', 'e'] (.bool true) := by
  refine ⟨⟨_, _, rfl, by decide, by decide, by decide, by decide⟩, ?_⟩
  intro fuel rest hf _
  cases fuel with
  | zero => simp at hf
  | succ fuel =>
    simp only [List.cons_append, parseVal, List.nil_append]
    repeat rw [if_neg (by decide)]
    rfl

theorem lit_false : Lit ['F', 'a', 'l', 's', 'e'] (.bool false) := by
  refine ⟨⟨_, _, rfl, by decide, by decide, by decide, by decide⟩, ?_⟩
  intro fuel rest hf _
  cases fuel with
  | zero => simp at hf
  | succ fuel =>
    simp only [List.cons_append, parseVal, List.nil_append]
    repeat rw [if_neg (by decide)]
    rfl

theorem toDigits_head_zero {n : Nat} {ds : Text} (h : Nat.toDigits 10 n = '0' :: ds) : ds = [] := by
  cases ds with
  | nil => rfl
  | cons d ds =>
    have h1 := toDigits_ofDigitChars (Nat.toDigits 10 n) (by simp) (toDigits_all_digit n)
    rw [Nat.ofDigitChars_ten_toDigits, h] at h1
    simp only [stripZeros, if_true] at h1
    have hlen : ∀ l : Text, (stripZeros l).length ≤ l.length := by
      intro l
      induction l with
      | nil => simp [stripZeros]
      | cons a l ih =>
        cases l with
        | nil => simp [stripZeros]
        | cons b l =>
          simp only [stripZeros]
          split
          · simp only [List.length_cons] at ih ⊢; omega
          · simp
    have := hlen (d :: ds)
    rw [← h1] at this
    simp at this
    omega

theorem digitsVal_toDigits (n : Nat) : digitsVal (Nat.toDigits 10 n) = some n := by
  cases h : Nat.toDigits 10 n with
  | nil => simp at h
  | cons d ds =>
    have : ¬ (d = '0' ∧ ds ≠ []) := by
      rintro ⟨rfl, hne⟩
      exact hne (toDigits_head_zero h)
    simp only [digitsVal, if_neg this, ← h, Nat.ofDigitChars_ten_toDigits]

theorem digit_ne {c : Char} (h : c.isDigit = true) (d : Char) (hd : d.isDigit = false) : c ≠ d := by
  rintro rfl; rw [h] at hd; cases hd

theorem lit_nat (n : Nat) : Lit (Nat.toDigits 10 n) (.int n) := by
  cases h : Nat.toDigits 10 n with
  | nil => simp at h
  | cons d ds =>
    have hd : d.isDigit = true := toDigits_all_digit n d (by simp [h])
    refine ⟨⟨_, _, rfl, digit_ne hd _ (by decide), digit_ne hd _ (by decide), digit_ne hd _ (by decide),
      digit_ne hd _ (by decide)⟩, ?_⟩
    intro fuel rest hf hr
    cases fuel with
    | zero => simp at hf
    | succ fuel =>
      simp only [List.cons_append, parseVal]
      have n1 : ¬ (d = '\'' ∨ d = '"') := by
        rintro (h | h)
        · exact digit_ne hd '\'' (by decide) h
        · exact digit_ne hd '"' (by decide) h
      rw [if_neg n1, if_neg (digit_ne hd _ (by decide)), if_neg (digit_ne hd _ (by decide)),
        if_neg (digit_ne hd _ (by decide)), if_pos hd]
      have e : d :: (ds ++ rest) = Nat.toDigits 10 n ++ rest := by simp [h]
      rw [e, parseNat, takeWhile_append_of_all _ _ _ (toDigits_all_digit n) hr,
        dropWhile_append_of_all _ _ _ (toDigits_all_digit n) hr, digitsVal_toDigits]

/-- Escaped form of one character inside a single-quoted literal. -/
def esc (c : Char) : Text :=
  if c = '\\' then ['\\', '\\']
  else if c = '\'' then ['\\', '\'']
  else if c = '\r' then ['\\', 'r']
  else if c = '\n' then ['\\', 'n']
  else [c]

theorem strBody_cons (q c : Char) (r : Text) : strBody q (c :: r) =
    if c = q then some ([], r)
    else if c = '\\' then
      match r with
      | [] => Option.none
      | e :: r' => consChar (escape e) (strBody q r')
    else if c = '\n' ∨ c = '\r' then Option.none
    else consChar (some c) (strBody q r) := by
  cases r <;> rfl

theorem strBody_esc (s rest : Text) : strBody '\'' (s.flatMap esc ++ '\'' :: rest) = some (s, rest) := by
  induction s with
  | nil => simp [strBody_cons]
  | cons c s ih =>
    simp only [List.flatMap_cons, List.append_assoc]
    generalize s.flatMap esc ++ '\'' :: rest = tl at ih ⊢
    unfold esc
    by_cases h1 : c = '\\'
    · subst h1; simp [strBody_cons, ih, escape, consChar]
    by_cases h2 : c = '\''
    · subst h2; simp [strBody_cons, ih, escape, consChar]
    by_cases h3 : c = '\r'
    · subst h3; simp [strBody_cons, ih, escape, consChar]
    by_cases h4 : c = '\n'
    · subst h4; simp [strBody_cons, ih, escape, consChar]
    simp [h1, h2, h3, h4, strBody_cons, ih, consChar]

theorem lit_quoted (s : Text) : Lit ('\'' :: (s.flatMap esc ++ ['\''])) (.str s) := by
  refine ⟨⟨_, _, rfl, by decide, by decide, by decide, by decide⟩, ?_⟩
  intro fuel rest hf _
  cases fuel with
  | zero => simp at hf
  | succ fuel =>
    simp only [List.cons_append, parseVal]
    rw [if_pos (Or.inl trivial)]
    have e : s.flatMap esc ++ ['\''] ++ rest = s.flatMap esc ++ '\'' :: rest := by simp
    rw [e, strBody_esc]

theorem esc_of_plain {s : Text} (h : ∀ c ∈ s, c ≠ '\\' ∧ c ≠ '\'' ∧ c ≠ '\r' ∧ c ≠ '\n') : s.flatMap esc = s := by
  induction s with
  | nil => rfl
  | cons c s ih =>
    obtain ⟨h1, h2, h3, h4⟩ := h c (by simp)
    rw [List.flatMap_cons, ih (fun x hx => h x (by simp [hx]))]
    simp [esc, h1, h2, h3, h4]

theorem parse_of_lit {t : Text} {v : PyVal} (h : Lit t v) (n : Nat) :
    parse (t ++ List.replicate n ' ') = some v := by
  obtain ⟨⟨c, r, hcr, h1, -⟩, hp⟩ := h
  unfold parse
  rw [skipWs_of_head ⟨c, r, hcr, h1⟩, hp _ _ (by simp; omega)]
  · simp [finish, skipWs_replicate_nil]
  · intro x hx
    cases n with
    | zero => simp at hx
    | succ n => simp [List.replicate_succ] at hx; subst hx; decide

end Npyz.Py
