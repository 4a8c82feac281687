import Verif.Spec.Index
import Verif.Proofs.Shape
/-!
The position given by the strides is the place of the index in the storage order.
-/
set_option autoImplicit false
namespace Npyz
open Spec

theorem getElem?_flatMap_range' {α : Type} {f : Nat → List α} {L : Nat} (hf : ∀ i, (f i).length = L) (n : Nat) :
    ∀ (a i j : Nat), i < n → j < L → ((List.range' a n).flatMap f)[i * L + j]? = (f (a + i))[j]? := by
  induction n with
  | zero => intro a i j h; omega
  | succ n ih =>
    intro a i j hi hj
    rw [List.range'_succ, List.flatMap_cons]
    cases i with
    | zero => rw [Nat.zero_mul, Nat.zero_add, List.getElem?_append_left (by rw [hf]; exact hj), Nat.add_zero]
    | succ i =>
      rw [List.getElem?_append_right (by rw [hf, Nat.add_mul]; omega), hf, Nat.add_mul, Nat.one_mul,
        show i * L + L + j - L = i * L + j by omega, ih (a + 1) i j (by omega) hj, show a + 1 + i = a + (i + 1) by omega]

theorem length_indices (dims : List Nat) : (indices dims).length = dims.prod := by
  induction dims with
  | nil => rfl
  | cons n ns ih =>
    rw [indices, List.length_flatMap, List.prod_cons]
    have : ∀ k, ((List.range k).map fun i => ((indices ns).map (i :: ·)).length).sum = k * ns.prod := by
      intro k
      induction k with
      | zero => simp
      | succ k ih' => rw [List.range_succ, List.map_append, List.sum_append, ih']; simp [ih, Nat.add_mul]
    exact this n

theorem indices_at {idx dims : List Nat} (h : InShape idx dims) : (indices dims)[mixed idx.reverse dims.reverse]? = some idx := by
  induction h with
  | nil => rfl
  | @cons i n is ns hi hs ih =>
    have hlt := mixed_lt hs.reverse
    rw [List.prod_reverse] at hlt
    rw [List.reverse_cons, List.reverse_cons, mixed_append (by simp [hs.length]), List.prod_reverse]
    simp only [mixed, Nat.mul_zero, Nat.add_zero]
    rw [indices, List.range_eq_range', Nat.add_comm, Nat.mul_comm,
      getElem?_flatMap_range' (L := ns.prod) (fun i => by rw [List.length_map, length_indices]) n 0 i _ hi hlt, List.getElem?_map, ih]
    simp

theorem length_storage (o : Order) (dims : List Nat) : (storage o dims).length = dims.prod := by
  cases o with
  | c => exact length_indices dims
  | fortran => rw [storage, List.length_map, length_indices, List.prod_reverse]

/-- The strides lead to the place of the index in the storage order. -/
theorem storage_at {o : Order} {idx dims : List Nat} (h : InShape idx dims) :
    (storage o dims)[flatIndex idx (exactStrides o dims)]? = some idx := by
  cases o with
  | c => rw [flat_c h]; exact indices_at h
  | fortran =>
    rw [flat_fortran h, storage, List.getElem?_map]
    have := indices_at h.reverse
    rw [List.reverse_reverse, List.reverse_reverse] at this
    rw [this]; simp

theorem mem_indices {idx dims : List Nat} (h : idx ∈ indices dims) : InShape idx dims := by
  induction dims generalizing idx with
  | nil => simp only [indices, List.mem_singleton] at h; subst h; exact .nil
  | cons n ns ih =>
    simp only [indices, List.mem_flatMap, List.mem_range, List.mem_map] at h
    obtain ⟨i, hi, is, h, rfl⟩ := h
    exact .cons hi (ih h)

theorem mem_storage {o : Order} {idx dims : List Nat} (h : idx ∈ storage o dims) : InShape idx dims := by
  cases o with
  | c => exact mem_indices h
  | fortran =>
    simp only [storage, List.mem_map] at h
    obtain ⟨i, h, rfl⟩ := h
    simpa using (mem_indices h).reverse

/-- The `k`-th index of the storage order is at position `k`. -/
theorem storage_position {o : Order} {dims : List Nat} {k : Nat} (hk : k < (storage o dims).length) :
    InShape (storage o dims)[k] dims ∧ flatIndex (storage o dims)[k] (exactStrides o dims) = k := by
  have hin : InShape (storage o dims)[k] dims := mem_storage (List.getElem_mem hk)
  refine ⟨hin, ?_⟩
  obtain ⟨idx, h1, h2⟩ : ∃ idx, InShape idx dims ∧ flatIndex idx (exactStrides o dims) = k := by
    have hk' := hk
    rw [length_storage] at hk'
    cases o with
    | c =>
      obtain ⟨idx, h1, h2⟩ := mixed_surj (shape := dims.reverse) (k := k) (by rwa [List.prod_reverse])
      have h3 : InShape idx.reverse dims := by simpa using h1.reverse
      exact ⟨idx.reverse, h3, by rw [flat_c h3, List.reverse_reverse]; exact h2⟩
    | fortran =>
      obtain ⟨idx, h1, h2⟩ := mixed_surj hk'
      exact ⟨idx, h1, by rw [flat_fortran h1]; exact h2⟩
  have := storage_at (o := o) h1
  rw [h2, List.getElem?_eq_getElem hk, Option.some.injEq] at this
  rw [this]; exact h2

end Npyz
