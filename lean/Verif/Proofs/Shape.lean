import Verif.Model.Header
import Verif.Spec.Shape
/-! Products and strides. -/
namespace Npyz
open Spec

theorem mulU64_ok {M : Machine} {a b c : Nat} (h : M.mulU64 a b = .ok c) : c = a * b % 2 ^ 64 := by
  unfold Machine.mulU64 at h
  split at h
  · cases h; rw [Nat.mod_eq_of_lt (by assumption)]
  · split at h
    · cases h
    · cases h; rfl

theorem mulU64_lt {M : Machine} {a b : Nat} (h : a * b < 2 ^ 64) : M.mulU64 a b = .ok (a * b) := by
  simp [Machine.mulU64, u64Lim, h]

theorem mulU64_release {M : Machine} (hM : M.overflowChecks = false) (a b : Nat) :
    M.mulU64 a b = .ok (a * b % 2 ^ 64) := by
  unfold Machine.mulU64
  split
  · rw [Nat.mod_eq_of_lt (by assumption)]
  · simp [hM]

theorem mulU64_ne_err {M : Machine} {a b : Nat} {e : Err} : M.mulU64 a b ≠ .err e := by
  unfold Machine.mulU64
  split
  · simp
  · split <;> simp

theorem shapeProduct_ok {M : Machine} {shape : List Nat} {acc n : Nat} (hacc : acc < 2 ^ 64)
    (h : shapeProduct M acc shape = .ok n) : n = acc * shape.prod % 2 ^ 64 := by
  induction shape generalizing acc with
  | nil => simp only [shapeProduct, Out.ok.injEq] at h; simp [List.prod_nil, ← h, Nat.mod_eq_of_lt hacc]
  | cons x xs ih =>
    simp only [shapeProduct, Out.bind_eq_ok] at h
    obtain ⟨a, ha, h⟩ := h
    have := mulU64_ok ha
    subst this
    rw [ih (Nat.mod_lt _ (by decide)) h, List.prod_cons]
    rw [← Nat.mul_assoc, Nat.mod_mul_mod]

theorem shapeProduct_release {M : Machine} (hM : M.overflowChecks = false) (shape : List Nat) (acc : Nat) :
    ∃ n, shapeProduct M acc shape = .ok n := by
  induction shape generalizing acc with
  | nil => exact ⟨_, rfl⟩
  | cons x xs ih => simpa [shapeProduct, mulU64_release hM] using ih _

/-- Exact prefix products. -/
def prefixes : Nat → List Nat → List Nat
  | _, [] => []
  | acc, x :: xs => acc :: prefixes (acc * x) xs

theorem prod_pos {l : List Nat} (h : ∀ n ∈ l, 0 < n) : 0 < l.prod := by
  induction l with
  | nil => simp [List.prod_nil]
  | cons x xs ih =>
    rw [List.prod_cons]
    exact Nat.mul_pos (h x (by simp)) (ih fun n hn => h n (by simp [hn]))

theorem nonzeroProd_cons (x : Nat) (xs : List Nat) :
    nonzeroProd (x :: xs) = (if x = 0 then 1 else x) * nonzeroProd xs := by
  unfold nonzeroProd
  by_cases h : x = 0
  · simp [h]
  · simp [h, List.prod_cons]

theorem nonzeroProd_pos (l : List Nat) : 0 < nonzeroProd l := by
  apply prod_pos
  intro n hn
  have := (List.mem_filter.mp hn).2
  simp at this; omega

theorem nonzeroProd_of_pos {l : List Nat} (h : ∀ n ∈ l, 0 < n) : nonzeroProd l = l.prod := by
  unfold nonzeroProd
  rw [List.filter_eq_self.mpr]
  intro n hn
  have := h n hn
  simp; omega

theorem nonzeroProd_reverse (l : List Nat) : nonzeroProd l.reverse = nonzeroProd l := by
  unfold nonzeroProd
  rw [List.filter_reverse, List.prod_reverse]

theorem prod_le_nonzeroProd (l : List Nat) : l.prod ≤ nonzeroProd l := by
  induction l with
  | nil => exact Nat.le_refl _
  | cons x xs ih =>
    rw [nonzeroProd_cons, List.prod_cons]
    split
    · simp [*]
    · exact Nat.mul_le_mul_left _ ih

theorem mul_head_lt {acc x : Nat} {xs : List Nat} (hlt : acc * nonzeroProd (x :: xs) < 2 ^ 64) :
    acc * x < 2 ^ 64 ∧ acc * x * nonzeroProd xs < 2 ^ 64 := by
  rw [nonzeroProd_cons] at hlt
  by_cases hx : x = 0
  · subst hx; simp
  · rw [if_neg hx, ← Nat.mul_assoc] at hlt
    exact ⟨Nat.lt_of_le_of_lt (Nat.le_mul_of_pos_right _ (nonzeroProd_pos xs)) hlt, hlt⟩

theorem shapeProduct_exact {M : Machine} {shape : List Nat} {acc : Nat}
    (hlt : acc * nonzeroProd shape < 2 ^ 64) : shapeProduct M acc shape = .ok (acc * shape.prod) := by
  induction shape generalizing acc with
  | nil => simp [shapeProduct, List.prod_nil]
  | cons x xs ih =>
    obtain ⟨h1, h2⟩ := mul_head_lt hlt
    simp only [shapeProduct, mulU64_lt h1, Out.bind_ok]
    rw [List.prod_cons, ← Nat.mul_assoc]
    exact ih h2

theorem prefixProducts_exact {M : Machine} {shape : List Nat} {acc : Nat}
    (hlt : acc * nonzeroProd shape < 2 ^ 64) : prefixProducts M acc shape = .ok (prefixes acc shape) := by
  induction shape generalizing acc with
  | nil => simp [prefixProducts, prefixes]
  | cons x xs ih =>
    obtain ⟨h1, h2⟩ := mul_head_lt hlt
    simp only [prefixProducts, mulU64_lt h1, Out.bind_ok, prefixes]
    rw [ih h2]
    rfl

theorem prefixProducts_release {M : Machine} (hM : M.overflowChecks = false) (shape : List Nat) (acc : Nat) :
    ∃ s, prefixProducts M acc shape = .ok s := by
  induction shape generalizing acc with
  | nil => exact ⟨_, rfl⟩
  | cons x xs ih =>
    obtain ⟨s, hs⟩ := ih (acc * x % 2 ^ 64)
    exact ⟨acc :: s, by simp [prefixProducts, mulU64_release hM, hs]⟩

theorem shapeProduct_ne_err {M : Machine} {shape : List Nat} {acc : Nat} {e : Err} :
    shapeProduct M acc shape ≠ .err e := by
  induction shape generalizing acc with
  | nil => simp [shapeProduct]
  | cons x xs ih =>
    simp only [shapeProduct]
    cases h : M.mulU64 acc x with
    | ok a => simpa using ih
    | err e => exact absurd h mulU64_ne_err
    | panic => simp

theorem prefixProducts_ne_err {M : Machine} {shape : List Nat} {acc : Nat} {e : Err} :
    prefixProducts M acc shape ≠ .err e := by
  induction shape generalizing acc e with
  | nil => simp [prefixProducts]
  | cons x xs ih =>
    simp only [prefixProducts]
    cases h : M.mulU64 acc x with
    | ok a =>
      simp only [Out.bind_ok]
      cases h' : prefixProducts M a xs with
      | ok a => simp
      | err e => exact absurd h' ih
      | panic => simp
    | err e => exact absurd h mulU64_ne_err
    | panic => simp

theorem computeStrides_release {M : Machine} (hM : M.overflowChecks = false) (o : Order) (shape : List Nat) :
    ∃ s, computeStrides M o shape = .ok s := by
  cases o with
  | c =>
    obtain ⟨s, hs⟩ := prefixProducts_release hM shape.reverse 1
    exact ⟨s.reverse, by simp [computeStrides, hs]⟩
  | fortran => exact prefixProducts_release hM shape 1

/-- Exact strides. -/
def exactStrides : Order → List Nat → List Nat
  | .c, shape => (prefixes 1 shape.reverse).reverse
  | .fortran, shape => prefixes 1 shape

theorem computeStrides_exact {M : Machine} {o : Order} {shape : List Nat}
    (hlt : nonzeroProd shape < 2 ^ 64) : computeStrides M o shape = .ok (exactStrides o shape) := by
  cases o with
  | c =>
    rw [computeStrides, prefixProducts_exact (by rw [nonzeroProd_reverse]; simpa using hlt)]
    rfl
  | fortran => exact prefixProducts_exact (by simpa using hlt)

theorem Spec.InShape.length {idx shape : List Nat} (h : InShape idx shape) : idx.length = shape.length := by
  induction h with
  | nil => rfl
  | cons _ _ ih => simp [ih]

theorem Spec.InShape.pos {idx shape : List Nat} (h : InShape idx shape) : ∀ n ∈ shape, 0 < n := by
  induction h with
  | nil => simp
  | cons h1 _ ih =>
    intro n hn
    rcases List.mem_cons.mp hn with rfl | hn
    · omega
    · exact ih n hn

/-- Value of a little-endian mixed-radix numeral. -/
def mixed : List Nat → List Nat → Nat
  | i :: is, n :: ns => i + n * mixed is ns
  | _, _ => 0

theorem flat_prefixes (idx shape : List Nat) (acc : Nat) (h : idx.length = shape.length) :
    flatIndex idx (prefixes acc shape) = acc * mixed idx shape := by
  induction idx generalizing shape acc with
  | nil => cases shape <;> simp [flatIndex, mixed]
  | cons i is ih =>
    cases shape with
    | nil => simp at h
    | cons n ns =>
      have := ih ns (acc * n) (by simpa using h)
      simp only [flatIndex] at this
      simp only [flatIndex, prefixes, List.zipWith_cons_cons, List.sum_cons, mixed, this]
      rw [Nat.mul_add, Nat.mul_comm i, Nat.mul_assoc]

theorem mixed_lt {idx shape : List Nat} (h : InShape idx shape) : mixed idx shape < shape.prod := by
  induction h with
  | nil => simp [mixed, List.prod_nil]
  | @cons i n is ns hi _ ih =>
    simp only [mixed, List.prod_cons]
    calc i + n * mixed is ns < n + n * mixed is ns := by omega
      _ = n * (mixed is ns + 1) := by rw [Nat.mul_add]; omega
      _ ≤ n * ns.prod := Nat.mul_le_mul_left _ ih

theorem mixed_inj {idx idx' shape : List Nat} (h : InShape idx shape) (h' : InShape idx' shape)
    (he : mixed idx shape = mixed idx' shape) : idx = idx' := by
  induction h generalizing idx' with
  | nil => cases h'; rfl
  | @cons i n is ns hi _ ih =>
    cases h' with
    | @cons i' _ is' _ hi' h' =>
      simp only [mixed] at he
      have h1 : i = i' := by
        have := congrArg (· % n) he
        simpa [Nat.add_mul_mod_self_left, Nat.mod_eq_of_lt hi, Nat.mod_eq_of_lt hi'] using this
      subst h1
      have h2 : mixed is ns = mixed is' ns := by
        have h3 : n * mixed is ns = n * mixed is' ns := by omega
        exact Nat.eq_of_mul_eq_mul_left (by omega) h3
      rw [ih h' h2]

theorem mixed_surj {shape : List Nat} {k : Nat} (h : k < shape.prod) : ∃ idx, InShape idx shape ∧ mixed idx shape = k := by
  induction shape generalizing k with
  | nil => exact ⟨[], .nil, by simp [List.prod_nil] at h; simp [mixed, h]⟩
  | cons n ns ih =>
    rw [List.prod_cons] at h
    have hn : 0 < n := by
      rcases Nat.eq_zero_or_pos n with rfl | h'
      · simp at h
      · exact h'
    obtain ⟨is, h1, h2⟩ := ih (k := k / n) (Nat.div_lt_of_lt_mul h)
    exact ⟨k % n :: is, .cons (Nat.mod_lt _ hn) h1, by simp [mixed, h2, Nat.mod_add_div]⟩

theorem Spec.InShape.append {a b s t : List Nat} (h : InShape a s) (h' : InShape b t) : InShape (a ++ b) (s ++ t) := by
  induction h with
  | nil => exact h'
  | cons hi _ ih => exact .cons hi ih

theorem Spec.InShape.reverse {idx shape : List Nat} (h : InShape idx shape) : InShape idx.reverse shape.reverse := by
  induction h with
  | nil => exact .nil
  | cons hi _ ih => simpa using ih.append (.cons hi .nil)

theorem mixed_append {a b s t : List Nat} (h : a.length = s.length) :
    mixed (a ++ b) (s ++ t) = mixed a s + s.prod * mixed b t := by
  induction a generalizing s with
  | nil => cases s with
    | nil => simp [mixed, List.prod_nil]
    | cons => simp at h
  | cons i is ih =>
    cases s with
    | nil => simp at h
    | cons n ns =>
      simp only [List.cons_append, mixed, ih (s := ns) (by simpa using h), List.prod_cons]
      rw [Nat.mul_add, Nat.mul_assoc, Nat.add_assoc]

/-- Lexicographic order becomes numeric order of the reversed numeral. -/
theorem mixed_reverse_lt {idx idx' shape : List Nat} (h : InShape idx shape) (h' : InShape idx' shape)
    (hlt : idx < idx') : mixed idx.reverse shape.reverse < mixed idx'.reverse shape.reverse := by
  induction h generalizing idx' with
  | nil => cases h'; exact absurd hlt (by simp)
  | @cons i n is ns hi hin ih =>
    cases h' with
    | @cons i' _ is' _ hi' h' =>
      simp only [List.reverse_cons]
      rw [mixed_append (by simp [hin.length]), mixed_append (by simp [h'.length])]
      simp only [mixed, Nat.mul_zero, Nat.add_zero]
      rw [List.cons_lt_cons_iff] at hlt
      rcases hlt with hlt | ⟨rfl, hlt⟩
      · have h1 := mixed_lt hin.reverse
        calc _ < ns.reverse.prod + ns.reverse.prod * i := by omega
          _ = ns.reverse.prod * (i + 1) := by rw [Nat.mul_add]; omega
          _ ≤ ns.reverse.prod * i' := Nat.mul_le_mul_left _ hlt
          _ ≤ _ := by omega
      · have := ih h' hlt
        omega

theorem length_prefixes (acc : Nat) (l : List Nat) : (prefixes acc l).length = l.length := by
  induction l generalizing acc with
  | nil => rfl
  | cons x xs ih => simp [prefixes, ih]

theorem zipWith_reverse' {α β γ} (f : α → β → γ) (a : List α) (b : List β) (h : a.length = b.length) :
    List.zipWith f a.reverse b.reverse = (List.zipWith f a b).reverse := by
  rw [List.reverse_zipWith h]

theorem flatIndex_reverse {a b : List Nat} (h : a.length = b.length) : flatIndex a b.reverse = flatIndex a.reverse b := by
  have := zipWith_reverse' (fun x y : Nat => x * y) a.reverse b (by simpa using h)
  rw [List.reverse_reverse] at this
  simp only [flatIndex]
  rw [this, List.sum_reverse]

theorem flat_c {idx shape : List Nat} (h : InShape idx shape) :
    flatIndex idx (exactStrides .c shape) = mixed idx.reverse shape.reverse := by
  rw [exactStrides, flatIndex_reverse (by simp [length_prefixes, h.length]), flat_prefixes _ _ _ (by simp [h.length])]
  simp

theorem flat_fortran {idx shape : List Nat} (h : InShape idx shape) :
    flatIndex idx (exactStrides .fortran shape) = mixed idx shape := by
  rw [exactStrides, flat_prefixes _ _ _ h.length]; simp

end Npyz
