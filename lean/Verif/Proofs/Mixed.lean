import Verif.Proofs.Torn2
/-!
Header texts of which each character is old or new.
-/
namespace Npyz
set_option autoImplicit false
open Spec Py

/-- A list of which each member is that of one list or that of the other. -/
inductive Mixed {α : Type} : List α → List α → List α → Prop
  | nil : Mixed [] [] []
  | old {a b x : List α} (c e : α) : Mixed a b x → Mixed (c :: a) (e :: b) (c :: x)
  | new {a b x : List α} (c e : α) : Mixed a b x → Mixed (c :: a) (e :: b) (e :: x)

namespace Mixed
variable {α : Type}

theorem lengths {a b x : List α} (h : Mixed a b x) : a.length = x.length ∧ b.length = x.length := by
  induction h with
  | nil => exact ⟨rfl, rfl⟩
  | old _ _ _ ih => simp [ih]
  | new _ _ _ ih => simp [ih]

theorem mem {a b x : List α} (h : Mixed a b x) : ∀ c ∈ x, c ∈ a ∨ c ∈ b := by
  induction h with
  | nil => simp
  | old c e _ ih =>
    intro y hy
    rcases List.mem_cons.mp hy with rfl | hy
    · exact .inl List.mem_cons_self
    · rcases ih y hy with h | h
      · exact .inl (List.mem_cons_of_mem _ h)
      · exact .inr (List.mem_cons_of_mem _ h)
  | new c e _ ih =>
    intro y hy
    rcases List.mem_cons.mp hy with rfl | hy
    · exact .inr List.mem_cons_self
    · rcases ih y hy with h | h
      · exact .inl (List.mem_cons_of_mem _ h)
      · exact .inr (List.mem_cons_of_mem _ h)

theorem same {a x : List α} (h : Mixed a a x) : x = a := by
  generalize hb : a = b at h
  have : ∀ {a b x : List α}, Mixed a b x → a = b → x = a := by
    intro a b x h
    induction h with
    | nil => intro _; rfl
    | old c e _ ih => intro hab; cases hab; rw [ih rfl]
    | new c e _ ih => intro hab; cases hab; rw [ih rfl]
  exact this (hb ▸ h) rfl

theorem append {a b x a' b' x' : List α} (h : Mixed a b x) (h' : Mixed a' b' x') : Mixed (a ++ a') (b ++ b') (x ++ x') := by
  induction h with
  | nil => exact h'
  | old _ _ _ ih => exact .old _ _ ih
  | new _ _ _ ih => exact .new _ _ ih

theorem mapTo {β : Type} {a b x : List α} (f : α → β) (h : Mixed a b x) : Mixed (a.map f) (b.map f) (x.map f) := by
  induction h with
  | nil => exact .nil
  | old _ _ _ ih => exact .old _ _ ih
  | new _ _ _ ih => exact .new _ _ ih

theorem refl_new {a b : List α} (h : a.length = b.length) : Mixed a b b := by
  induction a generalizing b with
  | nil => cases b with
    | nil => exact .nil
    | cons => cases h
  | cons c a ih => cases b with
    | nil => cases h
    | cons e b => exact .new c e (ih (by simpa using h))

/-- Mixed lists, member by member. -/
theorem of_getElem {a b x : List α} (h1 : a.length = x.length) (h2 : b.length = x.length)
    (h : ∀ (i : Nat) (c : α), x[i]? = some c → a[i]? = some c ∨ b[i]? = some c) : Mixed a b x := by
  induction x generalizing a b with
  | nil =>
    rw [List.length_nil] at h1 h2
    rw [List.length_eq_zero_iff.mp h1, List.length_eq_zero_iff.mp h2]
    exact .nil
  | cons y x ih =>
    cases a with
    | nil => cases h1
    | cons c a =>
      cases b with
      | nil => cases h2
      | cons e b =>
        have hrest : Mixed a b x := ih (by simpa using h1) (by simpa using h2) fun i z hz => by
          have := h (i + 1) z (by simpa using hz)
          simpa using this
        have h0 := h 0 y rfl
        simp only [List.getElem?_cons_zero, Option.some.injEq] at h0
        rcases h0 with rfl | rfl
        · exact .old _ _ hrest
        · exact .new _ _ hrest

theorem getElem {a b x : List α} (h : Mixed a b x) : ∀ (i : Nat) (c : α), x[i]? = some c → a[i]? = some c ∨ b[i]? = some c := by
  induction h with
  | nil => intro i c h; simp at h
  | old c e _ ih =>
    intro i y hy
    cases i with
    | zero => left; simpa using hy
    | succ i => simpa using ih i y (by simpa using hy)
  | new c e _ ih =>
    intro i y hy
    cases i with
    | zero => right; simpa using hy
    | succ i => simpa using ih i y (by simpa using hy)

theorem append_split {a b a' b' x : List α} (h : Mixed (a ++ a') (b ++ b') x) (hl : a.length = b.length) :
    ∃ y y', x = y ++ y' ∧ Mixed a b y ∧ Mixed a' b' y' := by
  induction a generalizing b x with
  | nil =>
    cases b with
    | nil => exact ⟨[], x, rfl, .nil, h⟩
    | cons => cases hl
  | cons c a ih =>
    cases b with
    | nil => cases hl
    | cons e b =>
      rw [List.cons_append, List.cons_append] at h
      cases h with
      | old _ _ h =>
        obtain ⟨y, y', rfl, h1, h2⟩ := ih h (by simpa using hl)
        exact ⟨c :: y, y', rfl, .old _ _ h1, h2⟩
      | new _ _ h =>
        obtain ⟨y, y', rfl, h1, h2⟩ := ih h (by simpa using hl)
        exact ⟨e :: y, y', rfl, .new _ _ h1, h2⟩

theorem map {β : Type} (f : α → β) {a b : List α} {x : List β} (h : Mixed (a.map f) (b.map f) x) :
    ∃ y, x = y.map f ∧ Mixed a b y := by
  induction a generalizing b x with
  | nil =>
    cases b with
    | nil => cases h; exact ⟨[], rfl, .nil⟩
    | cons => cases h
  | cons c a ih =>
    cases b with
    | nil => cases h
    | cons e b =>
      rw [List.map_cons, List.map_cons] at h
      cases h with
      | old _ _ h =>
        obtain ⟨y, rfl, h1⟩ := ih h
        exact ⟨c :: y, rfl, .old _ _ h1⟩
      | new _ _ h =>
        obtain ⟨y, rfl, h1⟩ := ih h
        exact ⟨e :: y, rfl, .new _ _ h1⟩

/-- Stars replaced by characters: a star is left, or they are all replaced. -/
theorem stars {k : Nat} {T B T' X : Text} (h : Mixed (List.replicate k '*' ++ T) (B ++ T') X) (hl : B.length ≤ k) :
    (∃ j Z, j < B.length ∧ X = B.take j ++ '*' :: Z) ∨ ∃ R, X = B ++ R ∧ Mixed (List.replicate (k - B.length) '*' ++ T) T' R := by
  induction B generalizing k X with
  | nil => exact .inr ⟨X, rfl, h⟩
  | cons c B ih =>
    cases k with
    | zero => simp at hl
    | succ k =>
      rw [List.replicate_succ, List.cons_append, List.cons_append] at h
      cases h with
      | old _ _ h => exact .inl ⟨0, _, by simp, rfl⟩
      | new _ _ h =>
        rcases ih h (by simpa using hl) with ⟨j, Z, h1, rfl⟩ | ⟨R, rfl, h1⟩
        · exact .inl ⟨j + 1, Z, by simpa using h1, rfl⟩
        · refine .inr ⟨R, rfl, ?_⟩
          rw [List.length_cons, Nat.add_sub_add_right]
          exact h1

end Mixed

theorem mixed_oneD {d : DType} (hn : d.NotArray) (o : Order) {m : Nat} (hm : m < 2 ^ 64) {X : Text}
    (h : Mixed (placeholder o .oneD) (finishedSuffix o .oneD m) X) (k : Nat) :
    parse (dictPrefix d o ++ (X ++ List.replicate k ' ')) = none ∨
     parse (dictPrefix d o ++ (X ++ List.replicate k ' ')) = some (.dict (headerDict d o [.int m])) := by
  have hD : ∀ c ∈ Nat.toDigits 10 m, c.isDigit = true := fun c hc => Nat.isDigit_of_mem_toDigits (by decide) (by decide) hc
  have hP : ∀ c ∈ txt ",), }", c = ',' ∨ c = ')' ∨ c = ' ' ∨ c = '}' ∨ c = '*' := by decide +kernel
  have hpl : placeholder o .oneD = List.replicate 20 '*' ++ txt ",), }" := by
    have : txt "********************,), }" = List.replicate 20 '*' ++ txt ",), }" := by decide +kernel
    exact this
  have hfs : finishedSuffix o .oneD m = Nat.toDigits 10 m ++ (txt ",), }" ++ List.replicate (20 - (Nat.toDigits 10 m).length) ' ') := by
    simp [finishedSuffix, suffixText]
  rw [hpl, hfs] at h
  rcases h.stars (toDigits_length_le hm) with ⟨j, Z, -, rfl⟩ | ⟨R, rfl, hR⟩
  · left
    rw [List.append_assoc, List.cons_append]
    exact parse_star hn o fun c hc => hD c (List.mem_of_mem_take hc)
  · rw [List.append_assoc]
    refine parse_punct hn o m fun c hc => ?_
    rcases List.mem_append.mp hc with hc | hc
    · rcases hR.mem c hc with hc | hc
      · rcases List.mem_append.mp hc with hc | hc
        · rw [List.mem_replicate] at hc; rw [hc.2]; simp [Punct]
        · exact hP c hc
      · rcases List.mem_append.mp hc with hc | hc
        · exact hP c hc
        · rw [List.mem_replicate] at hc; rw [hc.2]; simp [Punct]
    · rw [List.mem_replicate] at hc; rw [hc.2]; simp [Punct]

theorem mixed_fortran (r : Nat) {m : Nat} (hm : m < 2 ^ 64) {X : Text}
    (h : Mixed (placeholder .fortran (.twoD r)) (finishedSuffix .fortran (.twoD r) m) X) (k : Nat) :
    TornForm r m (X ++ List.replicate k ' ') := by
  have hD : ∀ c ∈ Nat.toDigits 10 m, c.isDigit = true := fun c hc => Nat.isDigit_of_mem_toDigits (by decide) (by decide) hc
  have hall : ∀ c ∈ X ++ List.replicate k ' ', ShapeChar c := by
    intro c hc
    rcases List.mem_append.mp hc with hc | hc
    · rcases h.mem c hc with hc | hc
      · exact placeholder_shape _ _ c hc
      · exact finishedSuffix_shape _ _ _ c hc
    · rw [List.mem_replicate] at hc; rw [hc.2]; right; simp [Punct]
  have hpl : placeholder .fortran (.twoD r) = (Nat.toDigits 10 r ++ txt ", ") ++ (List.replicate 20 '*' ++ txt "), }") := by
    rw [← suffixText_filler]
    simp [suffixText, axes2d, filler]
  have hfs : finishedSuffix .fortran (.twoD r) m = (Nat.toDigits 10 r ++ txt ", ") ++ (Nat.toDigits 10 m ++ ')' ::
      (txt ", }" ++ List.replicate (20 - (Nat.toDigits 10 m).length) ' ')) := by
    have e : txt "), }" = ')' :: txt ", }" := by decide +kernel
    simp [finishedSuffix, suffixText, axes2d, e]
  have hc : txt ", " = [',', ' '] := by decide +kernel
  rw [hpl, hfs] at h
  obtain ⟨Y, Y', rfl, h1, h2⟩ := h.append_split rfl
  have := h1.same
  subst this
  rw [hc] at hall ⊢
  rcases h2.stars (toDigits_length_le hm) with ⟨j, Z, -, rfl⟩ | ⟨R, rfl, hR⟩
  · right; left
    exact ⟨1, (Nat.toDigits 10 m).take j, Z ++ List.replicate k ' ', fun c hc => hD c (List.mem_of_mem_take hc), by simp⟩
  · have hR' : ∃ c R', R = c :: R' ∧ (c = '*' ∨ c = ')') := by
      have e : txt "), }" = ')' :: txt ", }" := by decide +kernel
      rw [e] at hR
      generalize 20 - (Nat.toDigits 10 m).length = q at hR
      cases q with
      | zero =>
        cases hR with
        | old => exact ⟨_, _, rfl, .inr rfl⟩
        | new => exact ⟨_, _, rfl, .inr rfl⟩
      | succ q =>
        rw [List.replicate_succ, List.cons_append] at hR
        cases hR with
        | old => exact ⟨_, _, rfl, .inl rfl⟩
        | new => exact ⟨_, _, rfl, .inr rfl⟩
    obtain ⟨c, R', rfl, rfl | rfl⟩ := hR'
    · right; left
      exact ⟨1, Nat.toDigits 10 m, R' ++ List.replicate k ' ', hD, by simp⟩
    · right; right
      refine ⟨R' ++ List.replicate k ' ', fun c hc => hall c ?_, by simp⟩
      simp only [List.mem_append, List.mem_cons] at hc ⊢
      rcases hc with hc | hc
      · exact .inl (.inr (.inr (.inr hc)))
      · exact .inr hc

theorem mixed_c {r m : Nat} (h17 : (Nat.toDigits 10 m).length + (Nat.toDigits 10 r).length ≤ 17) {X : Text}
    (h : Mixed (placeholder .c (.twoD r)) (finishedSuffix .c (.twoD r) m) X) (k : Nat) :
    TornForm m r (X ++ List.replicate k ' ') := by
  have hDm : ∀ c ∈ Nat.toDigits 10 m, c.isDigit = true := fun c hc => Nat.isDigit_of_mem_toDigits (by decide) (by decide) hc
  have hDr : ∀ c ∈ Nat.toDigits 10 r, c.isDigit = true := fun c hc => Nat.isDigit_of_mem_toDigits (by decide) (by decide) hc
  have hall : ∀ c ∈ X ++ List.replicate k ' ', ShapeChar c := by
    intro c hc
    rcases List.mem_append.mp hc with hc | hc
    · rcases h.mem c hc with hc | hc
      · exact placeholder_shape _ _ c hc
      · exact finishedSuffix_shape _ _ _ c hc
    · rw [List.mem_replicate] at hc; rw [hc.2]; right; simp [Punct]
  have hpl : placeholder .c (.twoD r) = List.replicate 20 '*' ++ (txt ", " ++ Nat.toDigits 10 r ++ txt "), }") := by
    rw [← suffixText_filler]
    simp [suffixText, axes2d, filler]
  have hfs : finishedSuffix .c (.twoD r) m = (Nat.toDigits 10 m ++ (',' :: ' ' :: (Nat.toDigits 10 r ++ [')']))) ++
      (txt ", }" ++ List.replicate (20 - (Nat.toDigits 10 m).length) ' ') := by
    have e : txt "), }" = ')' :: txt ", }" := by decide +kernel
    have hc : txt ", " = [',', ' '] := by decide +kernel
    simp [finishedSuffix, suffixText, axes2d, e, hc]
  rw [hpl, hfs] at h
  rcases h.stars (by simp; omega) with ⟨j, Z, hj, rfl⟩ | ⟨R, rfl, hR⟩
  · by_cases h1 : j ≤ (Nat.toDigits 10 m).length
    · left
      refine ⟨(Nat.toDigits 10 m).take j, Z ++ List.replicate k ' ', fun c hc => hDm c (List.mem_of_mem_take hc), ?_⟩
      rw [List.take_append_of_le_length h1]
      simp
    · right; left
      obtain ⟨i, hi⟩ : ∃ i, j = (Nat.toDigits 10 m).length + (i + 1) := ⟨j - (Nat.toDigits 10 m).length - 1, by omega⟩
      subst hi
      rw [List.take_append, List.take_of_length_le (by omega), Nat.add_sub_cancel_left, List.take_succ_cons]
      cases i with
      | zero => exact ⟨0, [], Z ++ List.replicate k ' ', by simp, by simp⟩
      | succ i =>
        rw [List.take_succ_cons]
        have hi : i ≤ (Nat.toDigits 10 r).length := by simp at hj; omega
        rw [List.take_append_of_le_length hi]
        exact ⟨1, (Nat.toDigits 10 r).take i, Z ++ List.replicate k ' ', fun c hc => hDr c (List.mem_of_mem_take hc), by simp⟩
  · right; right
    refine ⟨R ++ List.replicate k ' ', fun c hc => hall c ?_, by simp⟩
    simp only [List.mem_append, List.mem_cons] at hc ⊢
    rcases hc with hc | hc
    · exact .inl (.inr hc)
    · exact .inr hc

end Npyz
