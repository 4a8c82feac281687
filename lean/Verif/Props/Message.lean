import Verif.Props.Errors
import Verif.Props.DType
import Verif.Props.TypeStr
/-!
C115: the text of an error, and of a dtype, says which one it is.
-/
namespace Npyz.Props
set_option autoImplicit false
open Npyz Spec Py

/-! ### Texts that can be told apart -/

theorem digits_sep {c : Char} (hc : c.isDigit = false) {n n' : Nat} {x x' : Text}
    (h : Nat.toDigits 10 n ++ c :: x = Nat.toDigits 10 n' ++ c :: x') : n = n' ∧ x = x' := by
  have aux : ∀ (a b : Text), (∀ c ∈ a, c.isDigit = true) → (∀ c ∈ b, c.isDigit = true) → a ++ c :: x = b ++ c :: x' → a = b ∧ x = x' := by
    intro a
    induction a with
    | nil =>
      intro b _ hb h
      cases b with
      | nil => exact ⟨rfl, (List.cons.inj h).2⟩
      | cons d b =>
        have := hb d (by simp)
        rw [← (List.cons.inj h).1, hc] at this
        cases this
    | cons d a ih =>
      intro b ha hb h
      cases b with
      | nil =>
        have := ha d (by simp)
        rw [(List.cons.inj h).1, hc] at this
        cases this
      | cons d' b =>
        obtain ⟨h1, h2⟩ := List.cons.inj h
        obtain ⟨h3, h4⟩ := ih b (fun x hx => ha x (by simp [hx])) (fun x hx => hb x (by simp [hx])) h2
        exact ⟨by rw [h1, h3], h4⟩
  obtain ⟨h1, h2⟩ := aux _ _ (toDigits_all_digit n) (toDigits_all_digit n') h
  have e := digitsVal_toDigits n
  rw [h1, digitsVal_toDigits] at e
  exact ⟨(Option.some.inj e).symm, h2⟩

/-- `debugStr` without the quotes. -/
def escaped (s : Text) : Text := s.flatMap (fun c => if c = '"' ∨ c = '\\' then ['\\', c] else [c])

theorem escaped_cons (c : Char) (s : Text) : escaped (c :: s) = (if c = '"' ∨ c = '\\' then ['\\', c] else [c]) ++ escaped s := rfl

theorem escaped_sep : ∀ {s s' x x' : Text}, escaped s ++ '"' :: x = escaped s' ++ '"' :: x' → s = s' ∧ x = x'
  | [], [], _, _, h => ⟨rfl, (List.cons.inj h).2⟩
  | [], c :: s', _, _, h => by
    rw [escaped_cons] at h
    by_cases hc : c = '"' ∨ c = '\\'
    · rw [if_pos hc] at h
      exact absurd (List.cons.inj h).1 (by decide)
    · rw [if_neg hc] at h
      exact absurd (.inl (List.cons.inj h).1.symm) hc
  | c :: s, [], _, _, h => by
    rw [escaped_cons] at h
    by_cases hc : c = '"' ∨ c = '\\'
    · rw [if_pos hc] at h
      exact absurd (List.cons.inj h).1 (by decide)
    · rw [if_neg hc] at h
      exact absurd (.inl (List.cons.inj h).1) hc
  | c :: s, c' :: s', x, x', h => by
    rw [escaped_cons, escaped_cons] at h
    by_cases hc : c = '"' ∨ c = '\\' <;> by_cases hc' : c' = '"' ∨ c' = '\\'
    · rw [if_pos hc, if_pos hc'] at h
      obtain ⟨h1, h2⟩ := List.cons.inj (List.cons.inj h).2
      obtain ⟨h3, h4⟩ := escaped_sep (s := s) (s' := s') h2
      exact ⟨by rw [h1, h3], h4⟩
    · rw [if_pos hc, if_neg hc'] at h
      exact absurd (.inr (List.cons.inj h).1.symm) hc'
    · rw [if_neg hc, if_pos hc'] at h
      exact absurd (.inr (List.cons.inj h).1) hc
    · rw [if_neg hc, if_neg hc'] at h
      obtain ⟨h1, h2⟩ := List.cons.inj h
      obtain ⟨h3, h4⟩ := escaped_sep (s := s) (s' := s') h2
      exact ⟨by rw [h1, h3], h4⟩

theorem debugStr_sep {s s' x x' : Text} (h : debugStr s ++ x = debugStr s' ++ x') : s = s' ∧ x = x' := by
  have e : ∀ s x : Text, debugStr s ++ x = '"' :: (escaped s ++ '"' :: x) := fun s x => by simp [debugStr, escaped, txt]
  rw [e, e] at h
  exact escaped_sep (List.cons.inj h).2

theorem debugStrs_sep {x x' : Text} : ∀ {l l' : List Text},
    commaSep (l.map debugStr) ++ ']' :: x = commaSep (l'.map debugStr) ++ ']' :: x' → l = l' ∧ x = x' := by
  have head : ∀ s : Text, debugStr s = '"' :: (escaped s ++ ['"']) := fun s => by simp [debugStr, escaped, txt]
  have start : ∀ (s : Text) (l : List Text), ∃ y, commaSep ((s :: l).map debugStr) = '"' :: y := fun s l => by
    cases l with
    | nil => exact ⟨_, head s⟩
    | cons a l => exact ⟨escaped s ++ ['"'] ++ (txt ", " ++ commaSep ((a :: l).map debugStr)), by simp [commaSep, head]⟩
  intro l
  induction l with
  | nil =>
    intro l' h
    cases l' with
    | nil => exact ⟨rfl, (List.cons.inj h).2⟩
    | cons a l' =>
      obtain ⟨y, hy⟩ := start a l'
      rw [hy] at h
      exact absurd (List.cons.inj h).1 (by decide)
  | cons s l ih =>
    intro l' h
    cases l' with
    | nil =>
      obtain ⟨y, hy⟩ := start s l
      rw [hy] at h
      exact absurd (List.cons.inj h).1 (by decide)
    | cons s' l' =>
      cases l with
      | nil =>
        cases l' with
        | nil =>
          obtain ⟨h1, h2⟩ := debugStr_sep (s := s) (s' := s') h
          exact ⟨by rw [h1], (List.cons.inj h2).2⟩
        | cons a' l' =>
          have h : debugStr s ++ ']' :: x = (debugStr s' ++ txt ", " ++ commaSep ((a' :: l').map debugStr)) ++ ']' :: x' := h
          rw [List.append_assoc, List.append_assoc] at h
          exact absurd (List.cons.inj (debugStr_sep h).2).1 (by decide)
      | cons a l =>
        cases l' with
        | nil =>
          have h : (debugStr s ++ txt ", " ++ commaSep ((a :: l).map debugStr)) ++ ']' :: x = debugStr s' ++ ']' :: x' := h
          rw [List.append_assoc, List.append_assoc] at h
          exact absurd (List.cons.inj (debugStr_sep h).2).1 (by decide)
        | cons a' l' =>
          have h : (debugStr s ++ txt ", " ++ commaSep ((a :: l).map debugStr)) ++ ']' :: x =
            (debugStr s' ++ txt ", " ++ commaSep ((a' :: l').map debugStr)) ++ ']' :: x' := h
          rw [List.append_assoc, List.append_assoc, List.append_assoc, List.append_assoc] at h
          obtain ⟨h1, h2⟩ := debugStr_sep h
          obtain ⟨h3, h4⟩ := ih (List.append_cancel_left h2)
          exact ⟨by rw [h1, h3], h4⟩

/-! ### Dtypes -/

/-- C115: different dtypes have different texts, arrays included. -/
theorem C115_descr : ∀ (d d' : DType), d.Wf → d'.Wf → d.descr = d'.descr → d = d'
  | .array n d, .array n' d', h, h', he => by
    have e : ∀ n (d : DType), (DType.array n d).descr = txt "<< array " ++ (Nat.toDigits 10 n ++ ' ' :: (txt "of " ++ d.descr ++ txt " >>")) := by
      intro n d; simp [DType.descr, txt]
    rw [e, e] at he
    obtain ⟨h1, h2⟩ := digits_sep (by decide) (List.append_cancel_left he)
    have h3 := List.append_cancel_right h2
    have h4 := C115_descr d d' h.2 h'.2 (List.append_cancel_left h3)
    rw [h1, h4]
  | .array _ _, .plain _, _, _, he => absurd (List.cons.inj he).1 (by decide)
  | .array _ _, .record _, _, _, he => absurd (List.cons.inj he).1 (by decide)
  | .plain _, .array _ _, _, _, he => absurd (List.cons.inj he).1 (by decide)
  | .record _, .array _ _, _, _, he => absurd (List.cons.inj he).1 (by decide)
  | .plain _, .plain _, h, h', he => C06_descr_injective _ _ trivial trivial h h' he
  | .plain _, .record _, h, h', he => C06_descr_injective _ _ trivial trivial h h' he
  | .record _, .plain _, h, h', he => C06_descr_injective _ _ trivial trivial h h' he
  | .record _, .record _, h, h', he => C06_descr_injective _ _ trivial trivial h h' he

/-! ### Errors -/

theorem display_inj {s s' : TypeStr} (h : s.Wf) (h' : s'.Wf) (he : s.display = s'.display) : s = s' := by
  have e := parse_display h
  rw [he, parse_display h'] at e
  exact (Out.ok.inj e).symm

/-- C115: for one Rust type and one operation, different errors have different messages. -/
theorem C115_message {verb rustType : Text} (hv : verb = txt "read" ∨ verb = txt "write") {e e' : DTypeErr}
    (hw : ∀ s, e = .badScalar s → s.Wf) (hw' : ∀ s, e' = .badScalar s → s.Wf)
    (h : e.message verb rustType = e'.message verb rustType) : e = e' := by
  cases e <;> cases e'
  case expectedScalar.expectedScalar => exact congrArg _ (List.append_cancel_left h)
  case expectedRecord.expectedRecord => exact congrArg _ (List.append_cancel_left h)
  case expectedArray.expectedArray => exact congrArg _ (List.append_cancel_left (List.append_cancel_right h))
  case wrongArrayLen.wrongArrayLen a b a' b' =>
    have e : ∀ a b, (DTypeErr.wrongArrayLen a b).message verb rustType =
        txt "wrong array size (expected " ++ (Nat.toDigits 10 a ++ ',' :: (txt " got " ++ (Nat.toDigits 10 b ++ ')' :: []))) := by
      intro a b; simp [DTypeErr.message, txt]
    rw [e, e] at h
    obtain ⟨h1, h2⟩ := digits_sep (by decide) (List.append_cancel_left h)
    obtain ⟨h3, -⟩ := digits_sep (by decide) (List.append_cancel_left h2)
    rw [h1, h3]
  case wrongFields.wrongFields a b a' b' =>
    have e : ∀ a b, (DTypeErr.wrongFields a b).message verb rustType =
        txt "field names do not match (expected [" ++ (commaSep (a.map debugStr) ++ ']' :: (txt ", got [" ++ (commaSep (b.map debugStr) ++ ']' :: txt ")"))) := by
      intro a b; simp [DTypeErr.message, debugStrs, txt]
    rw [e, e] at h
    obtain ⟨h1, h2⟩ := debugStrs_sep (List.append_cancel_left h)
    obtain ⟨h3, -⟩ := debugStrs_sep (List.append_cancel_left h2)
    rw [h1, h3]
  case badScalar.badScalar s s' =>
    exact congrArg _ (display_inj (hw s rfl) (hw' s' rfl) (List.append_cancel_left (List.append_cancel_right h)))
  case usizeOverflow.usizeOverflow x x' =>
    have e : ∀ x, (DTypeErr.usizeOverflow x).message verb rustType = txt "cannot cast " ++ (Nat.toDigits 10 x ++ ' ' :: txt "as usize") := by
      intro x; simp [DTypeErr.message, txt]
    rw [e, e] at h
    obtain ⟨h1, -⟩ := digits_sep (by decide) (List.append_cancel_left h)
    rw [h1]
  case requiresPickle.requiresPickle => rfl
  all_goals
    rcases hv with rfl | rfl <;> simp [DTypeErr.message, txt] at h

theorem wf_fieldAt {fs : TFields} {dfs : Fields} {t : Ty} {d : DType} (h : FieldAt fs dfs t d) (hw : dfs.Wf) : d.Wf := by
  induction h with
  | head => exact hw.1
  | tail _ ih => exact ih hw.2

theorem wf_within {t t' : Ty} {d d' : DType} (h : Within t d t' d') (hw : d.Wf) : d'.Wf := by
  induction h with
  | here => exact hw
  | elem _ ih => exact ih hw.2
  | field _ hf _ ih => exact ih (wf_fieldAt hf hw)

theorem wf_truthful {lim : Nat} {Suits : Ty → TypeStr → Prop} {t : Ty} {d : DType} {s : TypeStr} (h : Truthful lim Suits t d (.badScalar s))
    (hw : d.Wf) : s.Wf := by
  obtain ⟨t', d', h1, h2⟩ := h
  have h2 : ScalarTy t' ∧ d' = .plain s ∧ ¬ Suits t' s := h2
  have := wf_within h1 hw
  rw [h2.2.1] at this
  exact this

variable {M M' : Machine} {t t' : Ty} {d d' : DType} {e e' : DTypeErr} {rustType : Text}

/-- C115: when reading is refused, the message determines the error with all its details. -/
theorem C115_reader (hd : d.Wf) (hd' : d'.Wf) (h : t.reader M d = .err e) (h' : t'.reader M' d' = .err e')
    (he : e.message (txt "read") rustType = e'.message (txt "read") rustType) : e = e' :=
  C115_message (.inl rfl) (fun s hs => by subst hs; exact wf_truthful (C71_reader_partial M t d h (by simp)) hd)
    (fun s hs => by subst hs; exact wf_truthful (C71_reader_partial M' t' d' h' (by simp)) hd') he

/-- C115: when writing is refused, the message determines the error with all its details. -/
theorem C115_writer (hd : d.Wf) (hd' : d'.Wf) (h : t.writer M d = .err e) (h' : t'.writer M' d' = .err e')
    (he : e.message (txt "write") rustType = e'.message (txt "write") rustType) : e = e' :=
  C115_message (.inr rfl) (fun s hs => by subst hs; exact wf_truthful (C71_writer_partial M t d h (by simp)) hd)
    (fun s hs => by subst hs; exact wf_truthful (C71_writer_partial M' t' d' h' (by simp)) hd') he

/-- C115: when a scalar type refuses a dtype without Python objects or sizes beyond the machine, the message determines the dtype. -/
theorem C115_scalar (ht : ScalarTy t) (hd : d.Wf) (hd' : d'.Wf) (ho : ¬ HasObject d) (ho' : ¬ HasObject d') (hs : SizesFit M.usizeLim d)
    (hs' : SizesFit M.usizeLim d') (h : t.reader M d = .err e) (h' : t.reader M d' = .err e')
    (he : e.message (txt "read") rustType = e'.message (txt "read") rustType) : d = d' := by
  have hee := C115_reader hd hd' h h' he
  subst hee
  have key : ∀ {d : DType}, d.Wf → ¬ HasObject d → SizesFit M.usizeLim d → t.reader M d = .err e →
      (e = .expectedScalar d.descr ∨ ∃ s, e = .badScalar s ∧ d = .plain s) := by
    intro d hd ho hs h
    have ht0 : Truthful M.usizeLim SuitsRead t d e ∨ ∃ a b, e = .wrongFields a b := by
      by_cases hn : ∃ a b, e = .wrongFields a b
      · exact .inr hn
      · exact .inl (C71_reader_partial M t d h (fun a b hab => hn ⟨a, b, hab⟩))
    have ht0 : Truthful M.usizeLim SuitsRead t d (swapNames e) := by
      rcases ht0 with h0 | ⟨a, b, rfl⟩
      · cases e <;> first | exact h0 | exact (C71_fields_swapped M t d).1 h
      · exact (C71_fields_swapped M t d).1 h
    obtain ⟨t1, d1, hwi, htrue⟩ := ht0
    cases hwi with
    | elem _ => exact absurd rfl (ht.1 _ _)
    | field _ _ _ => exact absurd rfl (ht.2 _)
    | here =>
      cases e with
      | expectedScalar x => exact .inl (by rw [show x = d.descr from htrue.2.2])
      | badScalar s => exact .inr ⟨s, rfl, htrue.2.1⟩
      | expectedArray x => obtain ⟨n, t2, h2⟩ := htrue.1; exact absurd h2 (ht.1 _ _)
      | wrongArrayLen a b => obtain ⟨t2, h2⟩ := htrue.2.1; exact absurd h2 (ht.1 _ _)
      | expectedRecord x => obtain ⟨fs, h2⟩ := htrue.1; exact absurd h2 (ht.2 _)
      | wrongFields a b => obtain ⟨fs, h2, -⟩ := htrue.2.1; exact absurd h2 (ht.2 _)
      | usizeOverflow x =>
        obtain ⟨s, rfl, h2, h3⟩ := htrue
        have hs : s.size < M.usizeLim := hs
        omega
      | requiresPickle => exact absurd htrue ho
  rcases key hd ho hs h with h1 | ⟨s, h1, rfl⟩ <;> rcases key hd' ho' hs' h' with h2 | ⟨s', h2, rfl⟩
  · rw [h1] at h2
    exact C115_descr d d' hd hd' (DTypeErr.expectedScalar.inj h2)
  · rw [h1] at h2; cases h2
  · rw [h1] at h2; cases h2
  · rw [h1] at h2; cases h2; rfl

/-- An array of arrays of records. -/
def nested : DType := .array 3 (.array 12 (.record (.cons (txt "x") (.plain ⟨.little, .float, 8, none⟩) .nil)))

/-- C115_message, C115_writer: two numbers that cannot be written as such. -/
example : (DTypeErr.badScalar ⟨.little, .int, 4, none⟩).message (txt "write") (txt "f64") ≠ (DTypeErr.badScalar ⟨.big, .int, 4, none⟩).message (txt "write") (txt "f64") := by
  have hl : (DType.plain ⟨.little, .int, 4, none⟩).Wf := wf_of_parse (s := "<i4".toList) (by decide)
  have hb : (DType.plain ⟨.big, .int, 4, none⟩).Wf := wf_of_parse (s := ">i4".toList) (by decide)
  intro h
  cases C115_message (.inr rfl) (fun s h => by cases h; exact hl) (fun s h => by cases h; exact hb) h
example (M M' : Machine) (d : DType) (hd : d.Wf) (e : DTypeErr) (h : f64.writer M' d = .err e)
    (he : e.message (txt "write") (txt "f64") = (DTypeErr.badScalar ⟨.little, .int, 4, none⟩).message (txt "write") (txt "f64")) :
    e = .badScalar ⟨.little, .int, 4, none⟩ :=
  C115_writer (M' := M) (t' := f64) (d' := .plain ⟨.little, .int, 4, none⟩) hd (wf_of_parse (s := "<i4".toList) (by decide)) h rfl he

example : nested.descr = txt "<< array 3 of << array 12 of [('x', '<f8'), ] >> >>" ∧ nested.Wf := by
  refine ⟨by decide +kernel, by decide, by decide, ?_, trivial⟩
  exact wf_of_parse (s := "<f8".toList) (by decide)

/-- The hypotheses of `C115_reader` and `C115_scalar` are met by a number type that refuses this array, and one that refuses integers. -/
example (M : Machine) : ScalarTy f64 ∧ ¬ HasObject nested ∧ f64.reader M nested = .err (.expectedScalar nested.descr) ∧
    (DTypeErr.expectedScalar nested.descr).message (txt "read") (txt "f64") =
      txt "type f64 requires a scalar (string) dtype, not << array 3 of << array 12 of [('x', '<f8'), ] >> >>" ∧
    f64.reader M (.plain ⟨.little, .int, 4, none⟩) = .err (.badScalar ⟨.little, .int, 4, none⟩) ∧
    (DTypeErr.badScalar ⟨.little, .int, 4, none⟩).message (txt "read") (txt "f64") = txt "cannot read type f64 with type-string '<i4'" :=
  ⟨⟨fun _ _ h => (by cases h), fun _ h => (by cases h)⟩, fun h => absurd ((usesPickled_iff _).mpr h) (by decide), rfl, by decide +kernel, rfl,
    by decide +kernel⟩

/-- Field names with quotes, backslashes and commas in them do not run into each other. -/
example : (DTypeErr.wrongFields [txt "a", txt "b"] [txt "a\", \"b"]).message (txt "write") (txt "T") =
      txt "field names do not match (expected [\"a\", \"b\"], got [\"a\\\", \\\"b\"])" := by decide +kernel

end Npyz.Props
