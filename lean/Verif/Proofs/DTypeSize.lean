import Verif.Spec.DType
import Verif.Props.TypeStr
/-! `DType::num_bytes` is exact. -/
namespace Npyz
open Spec

mutual
theorem exactBytes_none_iff : (d : DType) → exactBytes d = none ↔ HasObject d
  | .plain t => by
    constructor
    · intro h
      simp only [exactBytes, itemBytes] at h
      split at h
      · exact .plain (by assumption)
      · split at h <;> cases h
    · rintro (h | _)
      simp [exactBytes, itemBytes, h]
  | .array n d => by
    constructor
    · intro h
      simp only [exactBytes, Option.map_eq_none_iff] at h
      exact .array ((exactBytes_none_iff d).mp h)
    · rintro (_ | h)
      simp only [exactBytes, Option.map_eq_none_iff]
      exact (exactBytes_none_iff d).mpr h
  | .record fs => by
    constructor
    · intro h; exact .record ((exactFieldBytes_none_iff fs).mp h)
    · rintro (_ | _ | h)
      exact (exactFieldBytes_none_iff fs).mpr h
theorem exactFieldBytes_none_iff : (fs : Fields) → exactFieldBytes fs = none ↔ FieldsHaveObject fs
  | .nil => by
    constructor
    · intro h; cases h
    · rintro ⟨⟩
  | .cons name d rest => by
    have h1 := exactBytes_none_iff d
    have h2 := exactFieldBytes_none_iff rest
    constructor
    · intro h
      simp only [exactFieldBytes] at h
      cases hd : exactBytes d with
      | none => exact .head (h1.mp hd)
      | some a =>
        cases hr : exactFieldBytes rest with
        | none => exact .tail (h2.mp hr)
        | some b => rw [hd, hr] at h; cases h
    · rintro (h | h)
      · simp [exactFieldBytes, h1.mpr h]
      · simp [exactFieldBytes, h2.mpr h]
end

mutual
theorem usesPickled_iff : (d : DType) → d.usesPickled = true ↔ HasObject d
  | .plain t => by
    simp only [DType.usesPickled, TypeStr.usesPickledArray, beq_iff_eq]
    exact ⟨.plain, fun | .plain h => h⟩
  | .array n d => by
    simp only [DType.usesPickled]
    rw [usesPickled_iff d]
    exact ⟨.array, fun | .array h => h⟩
  | .record fs => by
    simp only [DType.usesPickled]
    rw [fieldsUsePickled_iff fs]
    exact ⟨.record, fun | .record h => h⟩
theorem fieldsUsePickled_iff : (fs : Fields) → fs.usesPickled = true ↔ FieldsHaveObject fs
  | .nil => by
    simp only [Fields.usesPickled, Bool.false_eq_true, false_iff]
    rintro ⟨⟩
  | .cons name d rest => by
    simp only [Fields.usesPickled, Bool.or_eq_true]
    rw [usesPickled_iff d, fieldsUsePickled_iff rest]
    constructor
    · rintro (h | h)
      · exact .head h
      · exact .tail h
    · rintro (h | h)
      · exact .inl h
      · exact .inr h
end

theorem checked_eq_some {M : Machine} {a n : Nat} : M.checked a = some n ↔ a = n ∧ a < M.usizeLim := by
  unfold Machine.checked
  split
  · simp_all
  · simp; omega

theorem numBytesFrom_none (M : Machine) (fs : Fields) : fs.numBytesFrom M none = none := by
  induction fs using Fields.rec (motive_1 := fun _ => True) with
  | plain => trivial
  | array => trivial
  | record => trivial
  | nil => rfl
  | cons name d rest _ ih => simpa [Fields.numBytesFrom] using ih

mutual
theorem numBytes_eq_some : (d : DType) → (M : Machine) → (n : Nat) →
    (d.numBytes M = some n ↔ exactBytes d = some n ∧ AllFit M.usizeLim d)
  | .plain t, M, n => by
    simp only [DType.numBytes, exactBytes, AllFit]
    rw [Props.C05_scalar_num_bytes]
    constructor
    · rintro ⟨h1, h2⟩
      refine ⟨h1, fun m hm => ?_⟩
      rw [h1] at hm; cases hm; exact h2
    · rintro ⟨h1, h2⟩
      exact ⟨h1, h2 n h1⟩
  | .array k d, M, n => by
    have ih := numBytes_eq_some d M
    simp only [DType.numBytes, exactBytes, AllFit, Option.bind_eq_bind, Option.bind_eq_some_iff,
      checked_eq_some, Option.map_eq_some_iff]
    constructor
    · rintro ⟨a, ha, k', ⟨rfl, hk⟩, rfl, hlt⟩
      obtain ⟨h1, h2⟩ := (ih a).mp ha
      refine ⟨⟨a, h1, Nat.mul_comm _ _⟩, h2, hk, fun b hb => ?_⟩
      rw [h1] at hb; cases hb; rw [Nat.mul_comm]; exact hlt
    · rintro ⟨⟨a, ha, rfl⟩, h2, hk, h3⟩
      exact ⟨a, (ih a).mpr ⟨ha, h2⟩, k, ⟨rfl, hk⟩, Nat.mul_comm _ _, by rw [Nat.mul_comm]; exact h3 a ha⟩
  | .record fs, M, n => by
    simp only [DType.numBytes, exactBytes, AllFit]
    rw [numBytesFrom_eq_some fs M 0 n]
    simp only [Nat.zero_add]
    constructor
    · rintro ⟨k, hk, rfl, hf, h⟩
      refine ⟨hk, hf, fun m hm => ?_⟩
      rw [hk] at hm; cases hm
      rcases h with h | h
      · exact h
      · subst h
        cases hk
        exact Nat.pow_pos (by omega)
    · rintro ⟨hk, hf, h⟩
      exact ⟨n, hk, rfl, hf, .inl (h n hk)⟩
theorem numBytesFrom_eq_some : (fs : Fields) → (M : Machine) → (acc n : Nat) →
    (fs.numBytesFrom M (some acc) = some n ↔
      ∃ k, exactFieldBytes fs = some k ∧ acc + k = n ∧ FieldsFit M.usizeLim fs ∧
        (acc + k < M.usizeLim ∨ fs = .nil))
  | .nil, M, acc, n => by
    simp [Fields.numBytesFrom, exactFieldBytes, FieldsFit]
  | .cons name d rest, M, acc, n => by
    have h1 := numBytes_eq_some d M
    have h2 := numBytesFrom_eq_some rest M
    simp only [Fields.numBytesFrom, Option.bind_eq_bind, Option.bind_some]
    cases hd : d.numBytes M with
    | none =>
      simp only [Option.bind_none, numBytesFrom_none, reduceCtorEq, false_iff]
      rintro ⟨k, hk, rfl, hf, -⟩
      simp only [exactFieldBytes] at hk
      simp only [FieldsFit] at hf
      cases he : exactBytes d with
      | none => simp [he] at hk
      | some a =>
        have := (h1 a).mpr ⟨he, hf.1⟩
        rw [hd] at this; cases this
    | some a =>
      obtain ⟨he, hfit⟩ := (h1 a).mp hd
      simp only [Option.bind_some, exactFieldBytes, he, FieldsFit, reduceCtorEq, or_false]
      by_cases hlt : acc + a < M.usizeLim
      · simp only [Machine.checked, if_pos hlt]
        rw [h2 (acc + a) n]
        constructor
        · rintro ⟨k, hk, rfl, hf, h⟩
          refine ⟨a + k, by simp [hk], by omega, ⟨hfit, hf⟩, ?_⟩
          rcases h with h | rfl
          · omega
          · cases hk; omega
        · rintro ⟨k, hk, rfl, hf, h⟩
          cases hr : exactFieldBytes rest with
          | none => simp [hr] at hk
          | some b =>
            simp only [hr, Option.some.injEq] at hk
            subst hk
            exact ⟨b, rfl, by omega, hf.2, .inl (by omega)⟩
      · simp only [Machine.checked, if_neg hlt, numBytesFrom_none, reduceCtorEq, false_iff]
        rintro ⟨k, hk, rfl, hf, h⟩
        cases hr : exactFieldBytes rest with
        | none => simp [hr] at hk
        | some b =>
          simp only [hr, Option.some.injEq] at hk
          subst hk
          omega
end

end Npyz
