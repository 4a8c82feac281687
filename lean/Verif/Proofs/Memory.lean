import Verif.Spec.Memory
import Verif.Proofs.Reads
import Verif.Proofs.Read
/-!
Sizes of buffers.
-/
set_option autoImplicit false
namespace Npyz
open Spec

theorem buffers_bind_ok {α β : Type} {p : RProg α} {f : α → RProg β} {bs rest : Bytes} {a : α} (h : p.run bs = (.ok a, rest)) :
    buffers (p >>= f) bs = buffers p bs ++ buffers (f a) rest := by
  induction p generalizing bs with
  | ret r => simp only [RProg.run, Prod.mk.injEq] at h; obtain ⟨rfl, rfl⟩ := h; rfl
  | read n eof k ih =>
    simp only [RProg.run] at h
    by_cases hn : n ≤ bs.length
    · rw [if_pos hn] at h
      show buffers (RProg.read n eof fun b => (k b).bind f) bs = _
      simp only [buffers, if_pos hn, List.cons_append]
      rw [show buffers ((k (bs.take n)).bind f) (bs.drop n) = _ from ih _ h]
    · rw [if_neg hn] at h; cases (Prod.mk.inj h).1

theorem buffers_bind_not_ok {α β : Type} {p : RProg α} {f : α → RProg β} {bs : Bytes} (h : ∀ a, (p.run bs).1 ≠ .ok a) :
    buffers (p >>= f) bs = buffers p bs := by
  induction p generalizing bs with
  | ret r => cases r with
    | ok a => exact absurd rfl (h a)
    | err e => rfl
    | panic => rfl
  | read n eof k ih =>
    simp only [RProg.run] at h
    show buffers (RProg.read n eof fun b => (k b).bind f) bs = _
    by_cases hn : n ≤ bs.length
    · rw [if_pos hn] at h
      simp only [buffers, if_pos hn]
      rw [show buffers ((k (bs.take n)).bind f) (bs.drop n) = _ from ih _ h]
    · simp only [buffers, if_neg hn]

/-- Buffers that were filled hold bytes of the source. -/
theorem buffers_filled {α : Type} (p : RProg α) (bs : Bytes) : (buffers p bs).dropLast.sum ≤ bs.length := by
  induction p generalizing bs with
  | ret r => simp [buffers]
  | read n eof k ih =>
    simp only [buffers]
    by_cases hn : n ≤ bs.length
    · rw [if_pos hn]
      have := ih (bs.take n) (bs.drop n)
      rw [List.length_drop] at this
      cases hb : buffers (k (bs.take n)) (bs.drop n) with
      | nil => simp
      | cons x xs =>
        rw [hb] at this
        rw [List.dropLast_cons_of_ne_nil (by simp), List.sum_cons]
        omega
    · rw [if_neg hn]; simp

/-- More data never changes the requests already made. -/
theorem buffers_prefix {α : Type} (p : RProg α) (bs more : Bytes) : buffers p bs <+: buffers p (bs ++ more) := by
  induction p generalizing bs with
  | ret r => exact List.prefix_refl _
  | read n eof k ih =>
    simp only [buffers]
    by_cases hn : n ≤ bs.length
    · rw [if_pos hn, if_pos (by rw [List.length_append]; omega), List.take_append_of_le_length hn, List.drop_append_of_le_length hn]
      exact List.cons_prefix_cons.mpr ⟨rfl, ih _ _⟩
    · rw [if_neg hn]; exact List.cons_prefix_cons.mpr ⟨rfl, List.nil_prefix⟩

/-- A run that leaves something has filled all its buffers, from what it consumed. -/
theorem buffers_sum {α : Type} (p : RProg α) (bs : Bytes) (h : (p.run bs).2 ≠ []) : (buffers p bs).sum + (p.run bs).2.length = bs.length := by
  induction p generalizing bs with
  | ret r => simp [buffers, RProg.run]
  | read n eof k ih =>
    simp only [RProg.run] at h ⊢
    by_cases hn : n ≤ bs.length
    · simp only [if_pos hn, buffers] at h ⊢
      have := ih _ _ h
      rw [List.length_drop] at this
      rw [List.sum_cons]; omega
    · rw [if_neg hn] at h; exact absurd rfl h

/-- The buffers of a program that decodes `n` bytes have at most `n` bytes together, whatever the input. -/
theorem Reads.buffers_le {α : Type} {p : RProg α} {n : Nat} {f : Bytes → Option α} (h : Reads p n f) (bs : Bytes) :
    (buffers p bs).sum ≤ n := by
  have hpre := buffers_prefix p bs (List.replicate (n + 1) 0)
  have hle : (buffers p bs).sum ≤ (buffers p (bs ++ List.replicate (n + 1) 0)).sum := by
    obtain ⟨t, ht⟩ := hpre
    rw [← ht, List.sum_append]; omega
  refine Nat.le_trans hle ?_
  generalize hx : bs ++ List.replicate (n + 1) 0 = xs
  have hl : n < xs.length := by rw [← hx]; simp; omega
  have e : xs = xs.take n ++ xs.drop n := (List.take_append_drop n xs).symm
  have ht : (xs.take n).length = n := by simp; omega
  cases hf : f (xs.take n) with
  | some v =>
    have hr := h.ok _ (xs.drop n) v ht hf
    rw [← e] at hr
    have := buffers_sum p xs (by rw [hr]; simp; omega)
    rw [hr] at this
    simp at this; omega
  | none =>
    obtain ⟨why, k, hk, hr⟩ := h.bad _ (xs.drop n) ht hf
    rw [← e] at hr
    have := buffers_sum p xs (by rw [hr]; simp; omega)
    rw [hr] at this
    simp at this; omega

/-- What comes behind the bytes that a successful run consumes does not matter. -/
theorem buffers_exact {α : Type} {p : RProg α} {used : Bytes} {a : α} (h : p.run used = (.ok a, [])) (more : Bytes) :
    buffers p (used ++ more) = buffers p used := by
  induction p generalizing used with
  | ret r => rfl
  | read n eof k ih =>
    simp only [RProg.run] at h
    by_cases hn : n ≤ used.length
    · rw [if_pos hn] at h
      simp only [buffers]
      rw [if_pos hn, if_pos (by rw [List.length_append]; omega), List.take_append_of_le_length hn, List.drop_append_of_le_length hn, ih _ h]
    · rw [if_neg hn] at h; cases (Prod.mk.inj h).1

theorem mem_le_sum {l : List Nat} {x : Nat} (h : x ∈ l) : x ≤ l.sum := by
  induction l with
  | nil => cases h
  | cons y ys ih =>
    rw [List.sum_cons]
    rcases List.mem_cons.mp h with rfl | h
    · omega
    · have := ih h; omega

end Npyz
