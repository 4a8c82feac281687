import Verif.Spec.Kept
import Verif.Proofs.CodecAccept
/-! Lemmas for C112 and for the last part of C37. -/
namespace Npyz
set_option autoImplicit false
open Spec

theorem trimEnd_eq_self_iff {α : Type} {p : α → Bool} {z : α} (hz : ∀ x, p x = true ↔ x = z) (l : List α) :
    trimEnd p l = l ↔ NotEndingIn z l := by
  rcases List.eq_nil_or_concat l with rfl | ⟨init, x, rfl⟩
  · exact ⟨fun _ init h => by simp at h, fun _ => rfl⟩
  · rw [List.concat_eq_append]
    by_cases hx : p x = true
    · constructor
      · intro h
        exfalso
        have := congrArg List.length h
        have h2 : trimEnd p (init ++ [x]) = trimEnd p init := by simp [trimEnd, hx]
        rw [h2] at this
        have := length_trimEnd_le p init
        simp at *
        omega
      · intro h
        exact absurd (by rw [(hz x).mp hx]) (h init)
    · constructor
      · rintro - init' e
        have := List.append_inj_right' e rfl
        exact hx ((hz x).mpr (List.cons.inj this).1)
      · intro _
        simp [trimEnd, hx]

theorem trimEnd_idem {α : Type} (p : α → Bool) (l : List α) : trimEnd p (trimEnd p l) = trimEnd p l := by
  have h : ∀ l : List α, (l.dropWhile p).dropWhile p = l.dropWhile p := by
    intro l
    induction l with
    | nil => rfl
    | cons a l ih => by_cases ha : p a = true <;> simp [List.dropWhile, ha, ih]
  simp [trimEnd, h]

theorem beq_iff {α : Type} [BEq α] [LawfulBEq α] (z : α) : ∀ x, ((fun y => y == z) x) = true ↔ x = z := fun _ => by simp

theorem map_eq_self_iff {α : Type} (f : α → α) (l : List α) : l.map f = l ↔ ∀ x ∈ l, f x = x := by
  induction l with
  | nil => simp
  | cons a l ih => simp [ih]

theorem subtype_eq_iff {α : Type} {P : α → Prop} (a : α) (h : P a) (b : { x : α // P x }) : (⟨a, h⟩ : { x : α // P x }) = b ↔ a = b.1 :=
  Subtype.ext_iff

theorem readBackBytes_eq_iff (s : TypeStr) (v : Bytes) :
    readBackBytes (.plain s) v = v ↔ ∀ s', DType.plain s = .plain s' → s'.typeChar = .byteStr → NotEndingIn 0 v := by
  simp only [readBackBytes]
  by_cases hs : s.typeChar = .byteStr
  · rw [if_pos hs]
    refine (trimEnd_eq_self_iff (beq_iff 0) v).trans ⟨fun h s' e _ => h, fun h => h s rfl hs⟩
  · rw [if_neg hs]
    exact ⟨fun _ s' e h => by cases e; exact absurd h hs, fun _ => rfl⟩

theorem readBackArrayVec_eq_iff {cap : Nat} {s : TypeStr} (hc : (s.typeChar = .rawData ∧ s.size ≤ cap) ∨ s.typeChar = .byteStr)
    (v : { l : Bytes // l.length ≤ cap }) : readBackArrayVec cap (.plain s) v = v ↔ ∀ s', DType.plain s = .plain s' →
      (s'.typeChar = .byteStr → NotEndingIn 0 v.1) ∧ (s'.typeChar = .rawData → v.1.length = cap) := by
  obtain ⟨v, hv⟩ := v
  simp only [readBackArrayVec, arrayVecBytes]
  by_cases hs : s.typeChar = .byteStr
  · rw [if_pos hs, Subtype.mk.injEq, List.take_of_length_le hv]
    refine (trimEnd_eq_self_iff (beq_iff 0) v).trans
      ⟨fun h s' e => by cases e; exact ⟨fun _ => h, fun e => by rw [hs] at e; cases e⟩, fun h => (h s rfl).1 hs⟩
  · rw [if_neg hs, Subtype.mk.injEq]
    have hr : s.typeChar = .rawData := by
      rcases hc with h | h
      · exact h.1
      · exact absurd h hs
    constructor
    · intro h s' e
      cases e
      refine ⟨fun h => absurd h hs, fun _ => ?_⟩
      have := congrArg List.length h
      simp at this
      omega
    · intro h
      have := (h s rfl).2 hr
      rw [List.take_append_of_le_length (by omega), List.take_of_length_le (by omega)]

mutual
theorem readBack_eq_iff : (t : Ty) → (d : DType) → CanRead t d → (v : t.Val) → (readBack t d v = v ↔ Kept t d v)
  | .num _, _, _, _ => by simp only [readBack, Kept]
  | .bool, _, _, _ => by simp only [readBack, Kept]
  | .complex _, _, _, _ => by simp only [readBack, Kept]
  | .fixedBytes _, _, _, _ => by simp only [readBack, Kept]
  | .vecU8, .plain s, _, v => by
    simp only [readBack, Kept]
    exact readBackBytes_eq_iff s v
  | .vecU8, .array _ _, h, _ => by obtain ⟨_, h, -⟩ := h; cases h
  | .vecU8, .record _, h, _ => by obtain ⟨_, h, -⟩ := h; cases h
  | .arrayVecU8 cap, .plain s, hc, v => by
    simp only [readBack, Kept]
    exact readBackArrayVec_eq_iff hc v
  | .arrayVecU8 _, .array _ _, h, _ => by obtain ⟨_, h, -⟩ := h; cases h
  | .arrayVecU8 _, .record _, h, _ => by obtain ⟨_, h, -⟩ := h; cases h
  | .vecU32, _, _, v => by
    simp only [readBack, Kept]
    exact trimEnd_eq_self_iff (beq_iff 0) v
  | .vecChar, _, _, v => by
    simp only [readBack, Kept]
    exact trimEnd_eq_self_iff (beq_iff '\x00') v
  | .string, _, _, v => by
    simp only [readBack, Kept]
    exact trimEnd_eq_self_iff (beq_iff '\x00') v
  | .arrayVecU32 _, _, _, v => by
    simp only [readBack, Kept]
    exact (subtype_eq_iff _ _ v).trans (trimEnd_eq_self_iff (beq_iff 0) v.1)
  | .arrayVecChar _, _, _, v => by
    simp only [readBack, Kept]
    exact (subtype_eq_iff _ _ v).trans (trimEnd_eq_self_iff (beq_iff '\x00') v.1)
  | .arrayString _, _, _, v => by
    simp only [readBack, Kept]
    exact (subtype_eq_iff _ _ v).trans (trimEnd_eq_self_iff (beq_iff '\x00') v.1)
  | .array n t, .plain _, h, _ => by cases h
  | .array n t, .record _, h, _ => by obtain ⟨_, h, -⟩ := h; cases h
  | .array n t, .array _ d, h, v => by
    obtain ⟨t', e, h⟩ := h
    cases e
    simp only [readBack, Kept, elemOf]
    refine (subtype_eq_iff _ _ v).trans ((map_eq_self_iff _ v.1).trans ?_)
    exact ⟨fun h' x hx => (readBack_eq_iff t d h x).mp (h' x hx), fun h' x hx => (readBack_eq_iff t d h x).mpr (h' x hx)⟩
  | .record fs, .plain _, h, _ => by cases h
  | .record fs, .array _ _, h, _ => by obtain ⟨_, h, -⟩ := h; cases h
  | .record fs, .record dfs, h, v => by
    obtain ⟨fs', e, h⟩ := h
    cases e
    simp only [readBack, Kept, fieldsOf]
    exact readBackFields_eq_iff fs dfs h v
  termination_by t => sizeOf t
theorem readBackFields_eq_iff : (fs : TFields) → (dfs : Fields) → CanReadFields fs dfs → (v : fs.Val) →
    (readBackFields fs dfs v = v ↔ FieldsKept fs dfs v)
  | .nil, _, _, _ => by simp only [readBackFields, FieldsKept]
  | .cons _ _ _, .nil, h, _ => by cases h
  | .cons name t rest, .cons _ d dfs, h, v => by
    obtain ⟨t', rest', e, h1, h2⟩ := h
    cases e
    obtain ⟨a, b⟩ := v
    simp only [readBackFields, FieldsKept]
    rw [← readBack_eq_iff t d h1 a, ← readBackFields_eq_iff rest dfs h2 b]
    exact ⟨fun h => ⟨congrArg Prod.fst h, congrArg Prod.snd h⟩, fun h => Prod.ext h.1 h.2⟩
  termination_by fs => sizeOf fs
end

theorem readBackArrayVec_idem (cap : Nat) (d : DType) (v : { l : Bytes // l.length ≤ cap }) :
    readBackArrayVec cap d (readBackArrayVec cap d v) = readBackArrayVec cap d v := by
  obtain ⟨v, hv⟩ := v
  cases d with
  | plain s =>
    simp only [readBackArrayVec, arrayVecBytes]
    by_cases hs : s.typeChar = .byteStr
    · simp only [if_pos hs, Subtype.mk.injEq]
      rw [List.take_of_length_le hv, List.take_of_length_le (Nat.le_trans (length_trimEnd_le _ _) hv), trimEnd_idem]
    · simp only [if_neg hs, Subtype.mk.injEq]
      have hl : (v ++ List.replicate (cap - v.length) 0).length = cap := by simp; omega
      have ht : (v ++ List.replicate (cap - v.length) 0).take cap = v ++ List.replicate (cap - v.length) 0 :=
        List.take_of_length_le (by omega)
      rw [ht, hl, Nat.sub_self, List.replicate_zero, List.append_nil, ht]
  | array => rfl
  | record => rfl

theorem readBackBytes_idem (d : DType) (v : Bytes) : readBackBytes d (readBackBytes d v) = readBackBytes d v := by
  cases d with
  | plain s =>
    simp only [readBackBytes]
    by_cases hs : s.typeChar = .byteStr
    · simp only [if_pos hs]; exact trimEnd_idem _ _
    · simp only [if_neg hs]
  | array => rfl
  | record => rfl

mutual
theorem readBack_idem : (t : Ty) → (d : DType) → (v : t.Val) → readBack t d (readBack t d v) = readBack t d v
  | .num _, _, _ => by simp only [readBack]
  | .bool, _, _ => by simp only [readBack]
  | .complex _, _, _ => by simp only [readBack]
  | .fixedBytes _, _, _ => by simp only [readBack]
  | .vecU8, d, v => by
    simp only [readBack]
    exact readBackBytes_idem d v
  | .arrayVecU8 cap, d, v => by
    simp only [readBack]
    exact readBackArrayVec_idem cap d v
  | .vecU32, _, _ => by simp only [readBack]; exact trimEnd_idem _ _
  | .vecChar, _, _ => by simp only [readBack]; exact trimEnd_idem _ _
  | .string, _, _ => by simp only [readBack]; exact trimEnd_idem _ _
  | .arrayVecU32 _, _, _ => by simp only [readBack]; exact Subtype.ext (trimEnd_idem _ _)
  | .arrayVecChar _, _, _ => by simp only [readBack]; exact Subtype.ext (trimEnd_idem _ _)
  | .arrayString _, _, _ => by simp only [readBack]; exact Subtype.ext (trimEnd_idem _ _)
  | .array n t, d, v => by
    simp only [readBack, List.map_map]
    refine Subtype.ext ?_
    exact List.map_congr_left fun x _ => readBack_idem t (elemOf d) x
  | .record fs, d, v => by
    simp only [readBack]
    exact readBackFields_idem fs (fieldsOf d) v
  termination_by t => sizeOf t
theorem readBackFields_idem : (fs : TFields) → (dfs : Fields) → (v : fs.Val) →
    readBackFields fs dfs (readBackFields fs dfs v) = readBackFields fs dfs v
  | .nil, _, _ => by simp only [readBackFields]
  | .cons _ _ _, .nil, _ => by simp only [readBackFields]
  | .cons name t rest, .cons _ d dfs, v => by
    simp only [readBackFields]
    rw [readBack_idem t d, readBackFields_idem rest dfs]
  termination_by fs => sizeOf fs
end

mutual
theorem canRead_iff_canWrite : (t : Ty) → (d : DType) → (CanRead t d ↔ CanWrite t d ∧ ¬ UnicodeArrayString t d)
  | t, .plain s => by
    cases t <;> simp only [CanRead, CanWrite, writeOnly, scalarAccepts, UnicodeArrayString, or_false, not_false_eq_true, and_true, or_self]
    constructor
    · intro h; rw [h]; exact ⟨.inl rfl, by intro h; cases h⟩
    · rintro ⟨h | h, hn⟩
      · exact h
      · exact absurd h hn
  | t, .array n d => by
    constructor
    · rintro ⟨t', rfl, h⟩
      have := (canRead_iff_canWrite t' d).mp h
      exact ⟨⟨t', rfl, this.1⟩, by simp only [UnicodeArrayString]; exact this.2⟩
    · rintro ⟨⟨t', rfl, h⟩, hn⟩
      simp only [UnicodeArrayString] at hn
      exact ⟨t', rfl, (canRead_iff_canWrite t' d).mpr ⟨h, hn⟩⟩
  | t, .record dfs => by
    constructor
    · rintro ⟨fs, rfl, h⟩
      have := (canReadFields_iff_canWrite fs dfs).mp h
      exact ⟨⟨fs, rfl, this.1⟩, by simp only [UnicodeArrayString]; exact this.2⟩
    · rintro ⟨⟨fs, rfl, h⟩, hn⟩
      simp only [UnicodeArrayString] at hn
      exact ⟨fs, rfl, (canReadFields_iff_canWrite fs dfs).mpr ⟨h, hn⟩⟩
theorem canReadFields_iff_canWrite : (fs : TFields) → (dfs : Fields) →
    (CanReadFields fs dfs ↔ CanWriteFields fs dfs ∧ ¬ FieldsUnicodeArrayString fs dfs)
  | fs, .nil => by
    constructor
    · rintro rfl; exact ⟨rfl, by simp only [FieldsUnicodeArrayString, not_false_eq_true]⟩
    · exact fun h => h.1
  | fs, .cons name d dfs => by
    constructor
    · rintro ⟨t, rest, rfl, h1, h2⟩
      have a := (canRead_iff_canWrite t d).mp h1
      have b := (canReadFields_iff_canWrite rest dfs).mp h2
      exact ⟨⟨t, rest, rfl, a.1, b.1⟩, by simp only [FieldsUnicodeArrayString]; exact fun h => h.elim a.2 b.2⟩
    · rintro ⟨⟨t, rest, rfl, h1, h2⟩, hn⟩
      simp only [FieldsUnicodeArrayString] at hn
      exact ⟨t, rest, rfl, (canRead_iff_canWrite t d).mpr ⟨h1, fun h => hn (.inl h)⟩,
        (canReadFields_iff_canWrite rest dfs).mpr ⟨h2, fun h => hn (.inr h)⟩⟩
end

end Npyz
