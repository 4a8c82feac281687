import Verif.Proofs.CodecRound
/-!
Default dtypes, and the item-level form of the codec theorems.
-/
namespace Npyz
open Spec

mutual
theorem canWrite_of_canRead : (t : Ty) → (d : DType) → CanRead t d → CanWrite t d
  | _, .plain _, h => Or.inl h
  | _, .array _ d, ⟨t', h, hc⟩ => ⟨t', h, canWrite_of_canRead t' d hc⟩
  | _, .record dfs, ⟨fs, h, hc⟩ => ⟨fs, h, canWriteFields_of_canReadFields fs dfs hc⟩
theorem canWriteFields_of_canReadFields : (fs : TFields) → (dfs : Fields) → CanReadFields fs dfs → CanWriteFields fs dfs
  | _, .nil, h => h
  | _, .cons _ d dfs, ⟨t, rest, h, hc, hcs⟩ =>
    ⟨t, rest, h, canWrite_of_canRead t d hc, canWriteFields_of_canReadFields rest dfs hcs⟩
end

theorem scalar_not_object {t : Ty} {s : TypeStr} (h : scalarAccepts t s.typeChar s.size ∨ writeOnly t s.typeChar) :
    s.typeChar ≠ .object := by
  intro ho
  rw [ho] at h
  cases t with
  | num p =>
    rcases h with h | h
    · have := (numAccepts_iff _ _ _).mp h
      rcases prim_kind this.1 with h | h | h | h | h <;> simp at h
    · exact h
  | complex f => cases f <;> simp [scalarAccepts, writeOnly] at h
  | _ => simp [scalarAccepts, writeOnly] at h

mutual
theorem canWrite_exact : (t : Ty) → (d : DType) → CanWrite t d → ∃ n, exactBytes d = some n
  | _, .plain s, h => by
    have := scalar_not_object h
    simp only [exactBytes, itemBytes, if_neg this]
    split <;> exact ⟨_, rfl⟩
  | _, .array m d, ⟨t', _, hc⟩ => by
    obtain ⟨n, hn⟩ := canWrite_exact t' d hc
    exact ⟨m * n, by simp [exactBytes, hn]⟩
  | _, .record dfs, ⟨fs, _, hc⟩ => canWriteFields_exact fs dfs hc
theorem canWriteFields_exact : (fs : TFields) → (dfs : Fields) → CanWriteFields fs dfs → ∃ n, exactFieldBytes dfs = some n
  | _, .nil, _ => ⟨0, rfl⟩
  | _, .cons _ d dfs, ⟨t, rest, _, hc, hcs⟩ => by
    obtain ⟨a, ha⟩ := canWrite_exact t d hc
    obtain ⟨b, hb⟩ := canWriteFields_exact rest dfs hcs
    exact ⟨a + b, by simp [exactFieldBytes, ha, hb]⟩
end

mutual
theorem readBack_exact : (t : Ty) → (d : DType) → (v : t.Val) → Exact t → readBack t d v = v
  | .num _, _, _, _ => rfl
  | .bool, _, _, _ => rfl
  | .complex _, _, _, _ => rfl
  | .fixedBytes _, _, _, _ => rfl
  | .array n t, d, v, h => by
    apply Subtype.ext
    show v.1.map (readBack t (elemOf d)) = v.1
    conv => rhs; rw [← List.map_id v.1]
    exact List.map_congr_left fun x _ => readBack_exact t _ x h
  | .record fs, d, v, h => readBackFields_exact fs (fieldsOf d) v h
theorem readBackFields_exact : (fs : TFields) → (dfs : Fields) → (v : fs.Val) → FieldsExact fs → readBackFields fs dfs v = v
  | .nil, _, _, _ => rfl
  | .cons _ _ _, .nil, _, _ => rfl
  | .cons _ t rest, .cons _ d dfs, v, h => by
    show (readBack t d v.1, readBackFields rest dfs v.2) = v
    rw [readBack_exact t d v.1 h.1, readBackFields_exact rest dfs v.2 h.2]
    rfl
end

theorem Writes.item {p : WProg Unit} {n : Nat} {bs : Bytes} (h : Writes p n (some bs)) : bs.length = n ∧ WritesItem p bs :=
  ⟨h.1, fun s => h.2.exec s⟩

theorem Writes.refuses {p : WProg Unit} {n : Nat} (h : Writes p n none) : RefusesItem p := by
  obtain ⟨bs, why, -, he⟩ := h
  exact ⟨bs, why, fun s => he.exec s⟩

theorem Reads.item {α : Type} {p : RProg α} {n : Nat} {f : Bytes → Option α} (h : Reads p n f) {bs : Bytes} {v : α}
    (hl : bs.length = n) (hv : f bs = some v) : ReadsItem p bs v := fun rest => h.ok bs rest v hl hv

theorem Reads.rejects {α : Type} {p : RProg α} {n : Nat} {f : Bytes → Option α} (h : Reads p n f) {bs : Bytes}
    (hl : bs.length = n) (hv : f bs = none) : RejectsItem p bs := fun rest => by
  obtain ⟨why, k, -, hr⟩ := h.bad bs rest hl hv
  exact ⟨why, by rw [hr]⟩

/-- One write and one read on two machines. -/
theorem round_trip {M M' : Machine} (hM' : M'.Wf) {t : Ty} {d : DType} {n : Nat} {w p} (hw : t.writer M d = .ok w)
    (hp : t.reader M' d = .ok p) (hd : d.Wf) (hn : exactBytes d = some n) (h1 : n ≤ M.isizeMax) (h2 : n ≤ M'.isizeMax)
    (v : t.Val) {bs : Bytes} (he : encode t d v = some bs) :
    bs.length = n ∧ WritesItem (w v) bs ∧ ReadsItem p bs (readBack t d v) := by
  have hc := ((reader_ok_iff hM' t d).mp ⟨p, hp⟩).1
  obtain ⟨hl, hdec⟩ := encode_decode t d n v bs hc hn he
  have hwr := writer_writes t hw hd hn h1 v
  rw [he] at hwr
  exact ⟨hl, hwr.item.2, (reader_reads t hp hd hn h2).item hl hdec⟩

/-! Defaults. -/

theorem requiresEndianness_iff {c : TypeChar} {n : Nat} : c.requiresEndianness n = true ↔ OrderMatters c n := by
  cases c <;> simp [OrderMatters, TypeChar.requiresEndianness]

theorem autoDType_ok {M : Machine} {c : TypeChar} {n : Nat} (hc : c ≠ .object ∧ c ≠ .timeDelta ∧ c ≠ .dateTime)
    (hs : SizeAllowed c n) (hn : n < 2 ^ 64) :
    ∃ s, autoDType M c n = .ok (.plain s) ∧ s.Wf ∧ s.typeChar = c ∧ s.size = n ∧ s.timeUnits = none ∧
      DefaultOrder M.bigEndian s := by
  have hv : Valid ⟨if c.requiresEndianness n then Endianness.ofMachine M else .irrelevant, c, n, none⟩ := by
    refine ⟨hs, ?_, ?_⟩
    · intro ho
      rw [← requiresEndianness_iff] at ho
      simp only [if_pos ho]
      unfold Endianness.ofMachine
      split <;> simp
    · simp [hc]
  refine ⟨_, ?_, ⟨hv, hn, fun h => absurd h hc.1⟩, rfl, rfl, rfl, ?_, ?_⟩
  · unfold autoDType TypeStr.withAutoEndianness
    simp only [(validate_ok_iff _ _).mpr ⟨rfl, hv⟩]
  · intro ho
    rw [← requiresEndianness_iff] at ho
    simp only [if_pos ho]
    rfl
  · intro ho
    rw [← requiresEndianness_iff] at ho
    simp only [if_neg ho]

theorem documented_canRead {t : Ty} {c : TypeChar} {n : Nat} (h : documentedDefault t = some (c, n)) : scalarAccepts t c n := by
  cases t with
  | num p => cases p <;> (cases h; simp [scalarAccepts, numAccepts])
  | complex f => cases f <;> (cases h; simp [scalarAccepts])
  | bool => cases h; simp [scalarAccepts]
  | fixedBytes => cases h; simp [scalarAccepts]
  | arrayVecU32 => cases h; simp [scalarAccepts]
  | arrayVecChar => cases h; simp [scalarAccepts]
  | arrayString => cases h; simp [scalarAccepts]
  | _ => cases h

mutual
theorem default_canRead : (b : Bool) → (t : Ty) → (d : DType) → DefaultFor b t d → CanRead t d
  | _, _, .plain _, h => documented_canRead h.1
  | b, _, .array _ d, ⟨t', h, hc⟩ => ⟨t', h, default_canRead b t' d hc⟩
  | b, _, .record dfs, ⟨fs, h, hc⟩ => ⟨fs, h, defaultFields_canRead b fs dfs hc⟩
theorem defaultFields_canRead : (b : Bool) → (fs : TFields) → (dfs : Fields) → DefaultForFields b fs dfs → CanReadFields fs dfs
  | _, _, .nil, h => h
  | b, _, .cons _ d dfs, ⟨t, rest, h, hc, hcs⟩ =>
    ⟨t, rest, h, default_canRead b t d hc, defaultFields_canRead b rest dfs hcs⟩
end

theorem usizeLim_le {M : Machine} (hM : M.Wf) : M.usizeLim ≤ 2 ^ 64 := by
  unfold Machine.usizeLim
  rcases hM with h | h <;> rw [h] <;> decide

theorem default_scalar {M : Machine} (hM : M.Wf) {t : Ty} {c : TypeChar} {n : Nat} {r : DRes DType}
    (hr : some (autoDType M c n) = some r) (hd : documentedDefault t = some (c, n))
    (hc : c ≠ .object ∧ c ≠ .timeDelta ∧ c ≠ .dateTime) (hs : SizeAllowed c n) (hn : n < M.usizeLim) :
    ∃ d, r = .ok d ∧ d.Wf ∧ DefaultFor M.bigEndian t d ∧ SizesFit M.usizeLim d := by
  have := usizeLim_le hM
  obtain ⟨s, h1, h2, h3, h4, h5, h6⟩ := autoDType_ok (M := M) hc hs (by omega)
  cases hr
  exact ⟨_, h1, h2, ⟨by rw [h3, h4]; exact hd, h5, h6⟩, by rw [← h4] at hn; exact hn⟩

mutual
theorem default_ok {M : Machine} (hM : M.Wf) : (t : Ty) → (r : DRes DType) → ConstsFit M.usizeLim t → t.defaultDType M = some r →
    ∃ d, r = .ok d ∧ d.Wf ∧ DefaultFor M.bigEndian t d ∧ SizesFit M.usizeLim d
  | .num p, r, _, h => by
    refine default_scalar hM (t := .num p) h ?_ ?_ ?_ (prim_size_lt hM p)
    · cases p <;> rfl
    · cases p <;> simp [Prim.mainTy]
    · cases p <;> simp [Prim.mainTy, Prim.size, SizeAllowed]
  | .bool, r, _, h => default_scalar hM (t := .bool) h rfl (by simp) (by simp [SizeAllowed]) (by have := usizeLim_ge hM; omega)
  | .complex f, r, _, h => by
    refine default_scalar hM (t := .complex f) h ?_ (by simp) ?_ (float_size_lt hM f)
    · cases f <;> rfl
    · cases f <;> simp [FloatTy.size, SizeAllowed]
  | .arrayVecU32 n, r, hc, h => default_scalar hM (t := .arrayVecU32 n) h rfl (by simp) trivial hc
  | .arrayVecChar n, r, hc, h => default_scalar hM (t := .arrayVecChar n) h rfl (by simp) trivial hc
  | .arrayString n, r, hc, h => default_scalar hM (t := .arrayString n) h rfl (by simp) trivial hc
  | .array n t, r, hc, h => by
    have hl := usizeLim_le hM
    simp only [Ty.defaultDType] at h
    split at h
    · rename_i r' hr'
      obtain ⟨d, h1, h2, h3, h4⟩ := default_ok hM t r' hc.2 hr'
      cases h
      subst h1
      exact ⟨.array n d, rfl, ⟨Nat.lt_of_lt_of_le hc.1 hl, h2⟩, ⟨t, rfl, h3⟩, h4⟩
    · cases h
  | .record fs, r, hc, h => by
    simp only [Ty.defaultDType] at h
    split at h
    · rename_i r' hr'
      obtain ⟨d, h1, h2, h3, h4⟩ := defaultFields_ok hM fs r' hc hr'
      cases h
      subst h1
      exact ⟨.record d, rfl, h2, ⟨fs, rfl, h3⟩, h4⟩
    · cases h
theorem defaultFields_ok {M : Machine} (hM : M.Wf) : (fs : TFields) → (r : DRes Fields) → FieldConstsFit M.usizeLim fs →
    fs.defaultDType M = some r →
    ∃ d, r = .ok d ∧ d.Wf ∧ DefaultForFields M.bigEndian fs d ∧ FieldSizesFit M.usizeLim d
  | .nil, r, _, h => by cases h; exact ⟨.nil, rfl, trivial, rfl, trivial⟩
  | .cons name t rest, r, hc, h => by
    simp only [TFields.defaultDType] at h
    split at h
    · rename_i r1 r2 hr1 hr2
      obtain ⟨d, h1, h2, h3, h4⟩ := default_ok hM t r1 hc.1 hr1
      obtain ⟨ds, h5, h6, h7, h8⟩ := defaultFields_ok hM rest r2 hc.2 hr2
      cases h
      subst h1 h5
      exact ⟨.cons name d ds, rfl, ⟨h2, h6⟩, ⟨t, rest, rfl, h3, h7⟩, h4, h8⟩
    · cases h
end

theorem encodeAll_some {α : Type} {f : α → Option Bytes} : ∀ (l : List α), (∀ x ∈ l, f x ≠ none) → encodeAll f l ≠ none
  | [], _ => by simp [encodeAll]
  | x :: l, h => by
    have h1 := h x (by simp)
    have h2 := encodeAll_some l (fun y hy => h y (by simp [hy]))
    cases hx : f x with
    | none => exact absurd hx h1
    | some b =>
      cases hl : encodeAll f l with
      | none => exact absurd hl h2
      | some c => simp [encodeAll, hx, hl, both]

mutual
theorem exact_encodes : (t : Ty) → (d : DType) → Exact t → CanRead t d → ∀ v, encode t d v ≠ none
  | .num p, .plain s, _, _, v => by intro h; cases h
  | .bool, .plain s, _, _, v => by intro h; cases h
  | .complex f, .plain s, _, _, v => by intro h; cases h
  | .fixedBytes n, .plain s, _, _, v => by intro h; cases h
  | .array n t, .array k d, he, h, v => by
    obtain ⟨t', h1, h2⟩ := h
    cases h1
    exact encodeAll_some _ fun x _ => exact_encodes t d he h2 x
  | .record fs, .record dfs, he, h, v => by
    obtain ⟨t', h1, h2⟩ := h
    cases h1
    exact fields_encode fs dfs he h2 v
theorem fields_encode : (fs : TFields) → (dfs : Fields) → FieldsExact fs → CanReadFields fs dfs → ∀ v, encodeFields fs dfs v ≠ none
  | .nil, _, _, _, _ => by intro h; cases h
  | .cons _ t rest, .cons _ d dfs, he, h, v => by
    obtain ⟨t', r', h1, h2, h3⟩ := h
    cases h1
    have h4 := exact_encodes t d he.1 h2 v.1
    have h5 := fields_encode rest dfs he.2 h3 v.2
    cases h6 : encode t d v.1 with
    | none => exact absurd h6 h4
    | some b =>
      cases h7 : encodeFields rest dfs v.2 with
      | none => exact absurd h7 h5
      | some c => simp [encodeFields, h6, h7, both]
end

end Npyz
