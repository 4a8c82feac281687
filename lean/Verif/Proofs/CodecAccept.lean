import Verif.Proofs.CodecMain
/-!
Which dtypes readers and writers accept; default dtypes.
-/
namespace Npyz
open Spec

theorem Out.bind_np {ε : Type} {α β : Type u} {x : Out ε α} {f : α → Out ε β} (hx : x ≠ .panic) (hf : ∀ a, f a ≠ .panic) :
    (x >>= f) ≠ .panic := by
  cases x with
  | ok a => exact hf a
  | err e => simp
  | panic => exact absurd rfl hx

theorem bind_map_ok {α β : Type} {x : DRes α} {f : α → β} : (∃ p, (x >>= fun a => .ok (f a)) = .ok p) ↔ ∃ a, x = .ok a := by
  cases x <;> simp

theorem bind_map_panic {α β : Type} {x : DRes α} {f : α → β} (h : x ≠ .panic) : (x >>= fun a => (.ok (f a) : DRes β)) ≠ .panic :=
  Out.bind_np h fun _ => by simp

theorem expectScalar_np (d : DType) : expectScalar d ≠ .panic := by cases d <;> simp [expectScalar]
theorem sizeAsUsize_np (M : Machine) (s : TypeStr) : sizeAsUsize M s ≠ .panic := by unfold sizeAsUsize; split <;> simp
theorem isByteStr_np (s : TypeStr) : isByteStr s ≠ .panic := by unfold isByteStr; split <;> simp
theorem ite_np {ε α : Type} {c : Prop} [Decidable c] {a : α} {e : ε} : (if c then (.ok a : Out ε α) else .err e) ≠ .panic := by
  split <;> simp

theorem checkByteVec_np (M : Machine) (d : DType) : checkByteVec M d ≠ .panic :=
  Out.bind_np (expectScalar_np d) fun s => Out.bind_np (sizeAsUsize_np M s) fun _ =>
    Out.bind_np (isByteStr_np s) fun _ => by simp
theorem checkArrayByteVec_np (M : Machine) (cap : Nat) (d : DType) : checkArrayByteVec M cap d ≠ .panic :=
  Out.bind_np (checkByteVec_np M d) fun i => Out.bind_np (expectScalar_np d) fun _ => by split <;> simp
theorem checkFixed_np (M : Machine) (n : Nat) (d : DType) : checkFixed M n d ≠ .panic :=
  Out.bind_np (expectScalar_np d) fun s => Out.bind_np (sizeAsUsize_np M s) fun _ => ite_np
theorem checkPrim_np (p : Prim) (d : DType) : checkPrim p d ≠ .panic :=
  Out.bind_np (expectScalar_np d) fun s => ite_np
theorem checkBool_np (d : DType) : checkBool d ≠ .panic :=
  Out.bind_np (expectScalar_np d) fun s => ite_np
theorem checkComplex_np (f : FloatTy) (d : DType) : checkComplex f d ≠ .panic :=
  Out.bind_np (expectScalar_np d) fun s => ite_np
theorem checkUnicode_np (M : Machine) (d : DType) : checkUnicode M d ≠ .panic :=
  Out.bind_np (expectScalar_np d) fun s => by
    split
    · exact Out.bind_np (sizeAsUsize_np M s) fun _ => by simp
    · simp
theorem checkUnicodeArrayVec_np (M : Machine) (d : DType) : checkUnicodeArrayVec M d ≠ .panic :=
  Out.bind_np (expectScalar_np d) fun s => Out.bind_np (sizeAsUsize_np M s) fun _ => ite_np
theorem badString_np {α : Type} (d : DType) : (badString d : DRes α) ≠ .panic :=
  Out.bind_np (expectScalar_np d) fun s => by simp
theorem tryUtf8_np {M : Machine} {d : DType} {r : DRes ByteInfo} (h : tryUtf8 M d = some r) : r ≠ .panic := by
  have hc := checkByteVec_np M d
  unfold tryUtf8 at h
  split at h
  · cases h; simp
  · cases h
  · rename_i hp; exact absurd hp hc
  · split at h
    · cases h
    · cases h; simp
theorem tryUtf32_np {M : Machine} {d : DType} {r : DRes (Nat × Endianness)} (h : tryUtf32 M d = some r) : r ≠ .panic := by
  unfold tryUtf32 at h
  split at h
  · rename_i s _
    have hc := sizeAsUsize_np M s
    split at h
    · split at h
      · cases h; simp
      · cases h; simp
      · rename_i hp; exact absurd hp hc
    · cases h
  · cases h
theorem readFormat_np (M : Machine) (d : DType) : readFormat M d ≠ .panic := by
  unfold readFormat
  split
  · rename_i h
    exact Out.bind_np (tryUtf32_np h) fun _ => by simp
  · split
    · rename_i h
      exact Out.bind_np (tryUtf8_np h) fun _ => by simp
    · exact badString_np d
theorem readArrayFormat_np (M : Machine) (d : DType) : readArrayFormat M d ≠ .panic := by
  unfold readArrayFormat
  split
  · rename_i h; exact tryUtf8_np h
  · exact badString_np d
theorem writeFormat_np (M : Machine) (d : DType) : writeFormat M d ≠ .panic :=
  Out.bind_np (expectScalar_np d) fun s => by
    split
    · exact Out.bind_np (sizeAsUsize_np M s) fun _ => by simp
    · exact Out.bind_np (sizeAsUsize_np M s) fun _ => by simp
    · simp
theorem arrayInner_np (n : Nat) (d : DType) : arrayInner n d ≠ .panic := by
  cases d <;> simp [arrayInner]
  split <;> simp
theorem extractFields_np (names : List Text) (d : DType) : extractFields names d ≠ .panic := by
  cases d <;> simp [extractFields]
  split <;> simp

mutual
theorem reader_np (M : Machine) : (t : Ty) → (d : DType) → t.reader M d ≠ .panic
  | .num p, d => bind_map_panic (checkPrim_np p d)
  | .bool, d => bind_map_panic (checkBool_np d)
  | .complex f, d => bind_map_panic (checkComplex_np f d)
  | .vecU8, d => bind_map_panic (checkByteVec_np M d)
  | .arrayVecU8 cap, d => bind_map_panic (checkArrayByteVec_np M cap d)
  | .fixedBytes n, d => bind_map_panic (checkFixed_np M n d)
  | .vecU32, d => bind_map_panic (checkUnicode_np M d)
  | .vecChar, d => bind_map_panic (checkUnicode_np M d)
  | .string, d => bind_map_panic (readFormat_np M d)
  | .arrayVecU32 _, d => bind_map_panic (checkUnicodeArrayVec_np M d)
  | .arrayVecChar _, d => bind_map_panic (checkUnicodeArrayVec_np M d)
  | .arrayString _, d => bind_map_panic (readArrayFormat_np M d)
  | .array n t, d => Out.bind_np (arrayInner_np n d) fun inner => bind_map_panic (reader_np M t inner)
  | .record fs, d => by
    intro h
    change (extractFields fs.names d >>= fun dfs => fs.reader M dfs) = .panic at h
    cases he : extractFields fs.names d with
    | ok dfs =>
      rw [he] at h
      exact fields_reader_np M fs dfs (extractFields_ok.mp he).2 h
    | err e => rw [he] at h; simp at h
    | panic => exact extractFields_np _ _ he
theorem fields_reader_np (M : Machine) : (fs : TFields) → (dfs : Fields) → dfs.names = fs.names → fs.reader M dfs ≠ .panic
  | .nil, .nil, _ => by simp [TFields.reader]
  | .nil, .cons _ _ _, h => by simp [TFields.names, Fields.names] at h
  | .cons _ _ _, .nil, h => by simp [TFields.names, Fields.names] at h
  | .cons _ t rest, .cons _ d dfs, h => by
    simp only [TFields.names, Fields.names, List.cons.injEq] at h
    exact Out.bind_np (reader_np M t d) fun _ => bind_map_panic (fields_reader_np M rest dfs h.2)
end

mutual
theorem writer_np (M : Machine) : (t : Ty) → (d : DType) → t.writer M d ≠ .panic
  | .num p, d => bind_map_panic (checkPrim_np p d)
  | .bool, d => bind_map_panic (checkBool_np d)
  | .complex f, d => bind_map_panic (checkComplex_np f d)
  | .vecU8, d => bind_map_panic (checkByteVec_np M d)
  | .arrayVecU8 cap, d => bind_map_panic (checkArrayByteVec_np M cap d)
  | .fixedBytes n, d => bind_map_panic (checkFixed_np M n d)
  | .vecU32, d => bind_map_panic (checkUnicode_np M d)
  | .vecChar, d => bind_map_panic (checkUnicode_np M d)
  | .string, d => bind_map_panic (writeFormat_np M d)
  | .arrayVecU32 _, d => bind_map_panic (checkUnicode_np M d)
  | .arrayVecChar _, d => bind_map_panic (checkUnicode_np M d)
  | .arrayString _, d => bind_map_panic (writeFormat_np M d)
  | .array n t, d => Out.bind_np (arrayInner_np n d) fun inner => bind_map_panic (writer_np M t inner)
  | .record fs, d => by
    intro h
    change (extractFields fs.names d >>= fun dfs => fs.writer M dfs) = .panic at h
    cases he : extractFields fs.names d with
    | ok dfs =>
      rw [he] at h
      exact fields_writer_np M fs dfs (extractFields_ok.mp he).2 h
    | err e => rw [he] at h; simp at h
    | panic => exact extractFields_np _ _ he
theorem fields_writer_np (M : Machine) : (fs : TFields) → (dfs : Fields) → dfs.names = fs.names → fs.writer M dfs ≠ .panic
  | .nil, .nil, _ => by simp [TFields.writer]
  | .nil, .cons _ _ _, h => by simp [TFields.names, Fields.names] at h
  | .cons _ _ _, .nil, h => by simp [TFields.names, Fields.names] at h
  | .cons _ t rest, .cons _ d dfs, h => by
    simp only [TFields.names, Fields.names, List.cons.injEq] at h
    exact Out.bind_np (writer_np M t d) fun _ => bind_map_panic (fields_writer_np M rest dfs h.2)
end

theorem numAccepts_iff (p : Prim) (c : TypeChar) (n : Nat) : numAccepts p c n ↔ p.supports c = true ∧ n = p.size := by
  cases p <;> simp [numAccepts, Prim.supports, Prim.mainTy, Prim.size, or_assoc]

theorem usizeLim_ge {M : Machine} (hM : M.Wf) : 2 ^ 32 ≤ M.usizeLim := by
  unfold Machine.usizeLim
  rcases hM with h | h <;> rw [h] <;> decide

/-- Acceptance of scalars reduces to a statement about one type string. -/
theorem canRead_scalar {t : Ty} {lim : Nat} {d : DType} (h1 : ∀ n t', t ≠ .array n t') (h2 : ∀ fs, t ≠ .record fs) :
    (CanRead t d ∧ SizesFit lim d) ↔ ∃ s, d = .plain s ∧ s.size < lim ∧ scalarAccepts t s.typeChar s.size := by
  cases d with
  | plain s => simp [CanRead, SizesFit, and_comm]
  | array n d => simp [CanRead, h1]
  | record fs => simp [CanRead, h2]

theorem canWrite_scalar {t : Ty} {lim : Nat} {d : DType} (h1 : ∀ n t', t ≠ .array n t') (h2 : ∀ fs, t ≠ .record fs) :
    (CanWrite t d ∧ SizesFit lim d) ↔ ∃ s, d = .plain s ∧ s.size < lim ∧ (scalarAccepts t s.typeChar s.size ∨ writeOnly t s.typeChar) := by
  cases d with
  | plain s => simp [CanWrite, SizesFit, and_comm]
  | array n d => simp [CanWrite, h1]
  | record fs => simp [CanWrite, h2]

theorem prim_size_lt {M : Machine} (hM : M.Wf) (p : Prim) : p.size < M.usizeLim := by
  have := usizeLim_ge hM
  have : p.size ≤ 8 := by cases p <;> simp [Prim.size]
  omega

theorem float_size_lt {M : Machine} (hM : M.Wf) (f : FloatTy) : 2 * f.size < M.usizeLim := by
  have := usizeLim_ge hM
  have : f.size ≤ 8 := by cases f <;> simp [FloatTy.size]
  omega

theorem complexAccepts_iff (f : FloatTy) (c : TypeChar) (m : Nat) :
    scalarAccepts (.complex f) c m ↔ c = .complex ∧ m = 2 * f.size := by
  cases f <;> simp [scalarAccepts, FloatTy.size]

theorem ok_num {M : Machine} (hM : M.Wf) (p : Prim) (d : DType) : (∃ e, checkPrim p d = .ok e) ↔
    ∃ s, d = .plain s ∧ s.size < M.usizeLim ∧ numAccepts p s.typeChar s.size := by
  have := prim_size_lt hM p
  simp only [checkPrim_ok, numAccepts_iff]
  constructor
  · rintro ⟨e, s, hd, hs, hc, -⟩
    exact ⟨s, hd, by omega, hc, hs⟩
  · rintro ⟨s, hd, -, hc, hs⟩
    exact ⟨_, s, hd, hs, hc, rfl⟩

theorem ok_bool {M : Machine} (hM : M.Wf) (d : DType) : (∃ e, checkBool d = .ok e) ↔
    ∃ s, d = .plain s ∧ s.size < M.usizeLim ∧ s.typeChar = .bool ∧ s.size = 1 := by
  have := usizeLim_ge hM
  simp only [checkBool_ok]
  constructor
  · rintro ⟨-, s, hd, hs, hc⟩
    exact ⟨s, hd, by omega, hc, hs⟩
  · rintro ⟨s, hd, -, hc, hs⟩
    exact ⟨(), s, hd, hs, hc⟩

theorem ok_complex {M : Machine} (hM : M.Wf) (f : FloatTy) (d : DType) : (∃ e, checkComplex f d = .ok e) ↔
    ∃ s, d = .plain s ∧ s.size < M.usizeLim ∧ scalarAccepts (.complex f) s.typeChar s.size := by
  have := float_size_lt hM f
  simp only [checkComplex_ok, complexAccepts_iff]
  constructor
  · rintro ⟨e, s, hd, hs, hc, -⟩
    exact ⟨s, hd, by omega, hc, hs⟩
  · rintro ⟨s, hd, -, hc, hs⟩
    exact ⟨_, s, hd, hs, hc, rfl⟩

theorem ok_byteVec (M : Machine) (d : DType) : (∃ i, checkByteVec M d = .ok i) ↔
    ∃ s, d = .plain s ∧ s.size < M.usizeLim ∧ (s.typeChar = .rawData ∨ s.typeChar = .byteStr) := by
  simp only [checkByteVec_ok]
  constructor
  · rintro ⟨i, s, hd, hn, -, hc⟩
    refine ⟨s, hd, hn, ?_⟩
    rcases hc with hc | hc
    · exact Or.inr hc.1
    · exact Or.inl hc.1
  · rintro ⟨s, hd, hn, hc | hc⟩
    · exact ⟨⟨s.size, false⟩, s, hd, hn, rfl, Or.inr ⟨hc, rfl⟩⟩
    · exact ⟨⟨s.size, true⟩, s, hd, hn, rfl, Or.inl ⟨hc, rfl⟩⟩

theorem ok_arrayByteVec (M : Machine) (cap : Nat) (d : DType) : (∃ i, checkArrayByteVec M cap d = .ok i) ↔
    ∃ s, d = .plain s ∧ s.size < M.usizeLim ∧ ((s.typeChar = .rawData ∧ s.size ≤ cap) ∨ s.typeChar = .byteStr) := by
  simp only [checkArrayByteVec_ok]
  constructor
  · rintro ⟨i, s, hd, hn, -, hc⟩
    refine ⟨s, hd, hn, ?_⟩
    rcases hc with hc | hc
    · exact Or.inr hc.1
    · exact Or.inl ⟨hc.1, hc.2.2⟩
  · rintro ⟨s, hd, hn, hc | hc⟩
    · exact ⟨⟨s.size, false⟩, s, hd, hn, rfl, Or.inr ⟨hc.1, rfl, hc.2⟩⟩
    · exact ⟨⟨s.size, true⟩, s, hd, hn, rfl, Or.inl ⟨hc, rfl⟩⟩

theorem ok_fixed (M : Machine) (n : Nat) (d : DType) : (∃ i, checkFixed M n d = .ok i) ↔
    ∃ s, d = .plain s ∧ s.size < M.usizeLim ∧ s.typeChar = .rawData ∧ s.size = n := by
  simp only [checkFixed_ok]
  exact ⟨fun ⟨_, h⟩ => h, fun h => ⟨(), h⟩⟩

theorem ok_unicode (M : Machine) (d : DType) : (∃ x, checkUnicode M d = .ok x) ↔
    ∃ s, d = .plain s ∧ s.size < M.usizeLim ∧ s.typeChar = .unicodeStr := by
  simp only [checkUnicode_ok]
  exact ⟨fun ⟨_, s, hd, hn, hc, _⟩ => ⟨s, hd, hn, hc⟩, fun ⟨s, hd, hn, hc⟩ => ⟨_, s, hd, hn, hc, rfl⟩⟩

theorem ok_unicodeArrayVec (M : Machine) (d : DType) : (∃ x, checkUnicodeArrayVec M d = .ok x) ↔
    ∃ s, d = .plain s ∧ s.size < M.usizeLim ∧ s.typeChar = .unicodeStr := by
  simp only [checkUnicodeArrayVec_ok]
  exact ⟨fun ⟨_, s, hd, hn, hc, _⟩ => ⟨s, hd, hn, hc⟩, fun ⟨s, hd, hn, hc⟩ => ⟨_, s, hd, hn, hc, rfl⟩⟩

theorem ok_readFormat (M : Machine) (d : DType) : (∃ x, readFormat M d = .ok x) ↔
    ∃ s, d = .plain s ∧ s.size < M.usizeLim ∧ (s.typeChar = .byteStr ∨ s.typeChar = .unicodeStr) := by
  simp only [readFormat_ok]
  constructor
  · rintro ⟨_, s, hd, hn, ⟨hc, -⟩ | ⟨hc, -⟩⟩
    · exact ⟨s, hd, hn, Or.inl hc⟩
    · exact ⟨s, hd, hn, Or.inr hc⟩
  · rintro ⟨s, hd, hn, hc | hc⟩
    · exact ⟨_, s, hd, hn, Or.inl ⟨hc, rfl⟩⟩
    · exact ⟨_, s, hd, hn, Or.inr ⟨hc, rfl⟩⟩

theorem ok_writeFormat (M : Machine) (d : DType) : (∃ x, writeFormat M d = .ok x) ↔
    ∃ s, d = .plain s ∧ s.size < M.usizeLim ∧ (s.typeChar = .byteStr ∨ s.typeChar = .unicodeStr) := by
  simp only [writeFormat_ok]
  constructor
  · rintro ⟨_, s, hd, hn, ⟨hc, -⟩ | ⟨hc, -⟩⟩
    · exact ⟨s, hd, hn, Or.inl hc⟩
    · exact ⟨s, hd, hn, Or.inr hc⟩
  · rintro ⟨s, hd, hn, hc | hc⟩
    · exact ⟨_, s, hd, hn, Or.inl ⟨hc, rfl⟩⟩
    · exact ⟨_, s, hd, hn, Or.inr ⟨hc, rfl⟩⟩

theorem ok_arrayFormat (M : Machine) (d : DType) : (∃ x, readArrayFormat M d = .ok x) ↔
    ∃ s, d = .plain s ∧ s.size < M.usizeLim ∧ s.typeChar = .byteStr := by
  simp only [readArrayFormat_ok]
  exact ⟨fun ⟨_, s, hd, hn, hc, _⟩ => ⟨s, hd, hn, hc⟩, fun ⟨s, hd, hn, hc⟩ => ⟨_, s, hd, hn, hc, rfl⟩⟩

mutual
theorem reader_ok_iff {M : Machine} (hM : M.Wf) : (t : Ty) → (d : DType) →
    ((∃ p, t.reader M d = .ok p) ↔ CanRead t d ∧ SizesFit M.usizeLim d)
  | .num p, d => bind_map_ok.trans ((ok_num hM p d).trans (canRead_scalar (t := .num p) (by simp) (by simp)).symm)
  | .bool, d => bind_map_ok.trans ((ok_bool hM d).trans (canRead_scalar (t := .bool) (by simp) (by simp)).symm)
  | .complex f, d => bind_map_ok.trans ((ok_complex hM f d).trans (canRead_scalar (t := .complex f) (by simp) (by simp)).symm)
  | .vecU8, d => bind_map_ok.trans ((ok_byteVec M d).trans (canRead_scalar (t := .vecU8) (by simp) (by simp)).symm)
  | .arrayVecU8 cap, d => bind_map_ok.trans ((ok_arrayByteVec M cap d).trans (canRead_scalar (t := .arrayVecU8 cap) (by simp) (by simp)).symm)
  | .fixedBytes n, d => bind_map_ok.trans ((ok_fixed M n d).trans (canRead_scalar (t := .fixedBytes n) (by simp) (by simp)).symm)
  | .vecU32, d => bind_map_ok.trans ((ok_unicode M d).trans (canRead_scalar (t := .vecU32) (by simp) (by simp)).symm)
  | .vecChar, d => bind_map_ok.trans ((ok_unicode M d).trans (canRead_scalar (t := .vecChar) (by simp) (by simp)).symm)
  | .string, d => bind_map_ok.trans ((ok_readFormat M d).trans (canRead_scalar (t := .string) (by simp) (by simp)).symm)
  | .arrayVecU32 k, d => bind_map_ok.trans ((ok_unicodeArrayVec M d).trans (canRead_scalar (t := .arrayVecU32 k) (by simp) (by simp)).symm)
  | .arrayVecChar k, d => bind_map_ok.trans ((ok_unicodeArrayVec M d).trans (canRead_scalar (t := .arrayVecChar k) (by simp) (by simp)).symm)
  | .arrayString k, d => bind_map_ok.trans ((ok_arrayFormat M d).trans (canRead_scalar (t := .arrayString k) (by simp) (by simp)).symm)
  | .array n t, d => by
    have h : (∃ p, (Ty.array n t).reader M d = .ok p) ↔ ∃ d', d = .array n d' ∧ ∃ p, t.reader M d' = .ok p := by
      constructor
      · rintro ⟨p, h⟩
        simp only [Ty.reader, Out.bind_eq_ok, arrayInner_ok] at h
        obtain ⟨d', hd, q, hq, -⟩ := h
        exact ⟨d', hd, q, hq⟩
      · rintro ⟨d', hd, q, hq⟩
        exact ⟨readMany q n, (Out.bind_eq_ok (x := arrayInner n d)
          (f := fun inner => t.reader M inner >>= fun p => .ok (readMany p n))).mpr
          ⟨d', arrayInner_ok.mpr hd, Out.bind_eq_ok.mpr ⟨q, hq, rfl⟩⟩⟩
    rw [h]
    constructor
    · rintro ⟨d', rfl, hp⟩
      have := (reader_ok_iff hM t d').mp hp
      exact ⟨⟨t, rfl, this.1⟩, this.2⟩
    · rintro ⟨hc, hs⟩
      cases d with
      | plain s => exact absurd hc (by simp [CanRead, scalarAccepts])
      | record fs => obtain ⟨fs, h, -⟩ := hc; cases h
      | array m d' =>
        obtain ⟨t', h, hc⟩ := hc
        cases h
        exact ⟨d', rfl, (reader_ok_iff hM t d').mpr ⟨hc, hs⟩⟩
  | .record fs, d => by
    have h : (∃ p, (Ty.record fs).reader M d = .ok p) ↔
        ∃ dfs, d = .record dfs ∧ dfs.names = fs.names ∧ ∃ p, fs.reader M dfs = .ok p := by
      constructor
      · rintro ⟨p, h⟩
        obtain ⟨dfs, h1, h2⟩ := (Out.bind_eq_ok (x := extractFields fs.names d) (f := fun dfs => fs.reader M dfs)).mp h
        obtain ⟨hd, hn⟩ := extractFields_ok.mp h1
        exact ⟨dfs, hd, hn, p, h2⟩
      · rintro ⟨dfs, hd, hn, p, hp⟩
        exact ⟨p, (Out.bind_eq_ok (x := extractFields fs.names d) (f := fun dfs => fs.reader M dfs)).mpr
          ⟨dfs, extractFields_ok.mpr ⟨hd, hn⟩, hp⟩⟩
    rw [h]
    constructor
    · rintro ⟨dfs, rfl, hn, hp⟩
      have := (fields_reader_ok_iff hM fs dfs).mp ⟨hn, hp⟩
      exact ⟨⟨fs, rfl, this.1⟩, this.2⟩
    · rintro ⟨hc, hs⟩
      cases d with
      | plain s => exact absurd hc (by simp [CanRead, scalarAccepts])
      | array m d' => obtain ⟨fs, h, -⟩ := hc; cases h
      | record dfs =>
        obtain ⟨fs', h, hc⟩ := hc
        cases h
        exact ⟨dfs, rfl, (fields_reader_ok_iff hM fs dfs).mpr ⟨hc, hs⟩⟩
theorem fields_reader_ok_iff {M : Machine} (hM : M.Wf) : (fs : TFields) → (dfs : Fields) →
    ((dfs.names = fs.names ∧ ∃ p, fs.reader M dfs = .ok p) ↔ CanReadFields fs dfs ∧ FieldSizesFit M.usizeLim dfs)
  | .nil, .nil => by simp [TFields.names, Fields.names, CanReadFields, FieldSizesFit, TFields.reader]
  | .nil, .cons _ _ _ => by simp [TFields.names, Fields.names, CanReadFields]
  | .cons _ _ _, .nil => by simp [TFields.names, Fields.names, CanReadFields]
  | .cons name t rest, .cons name' d dfs => by
    have h : (∃ p, (TFields.cons name t rest).reader M (.cons name' d dfs) = .ok p) ↔
        (∃ p, t.reader M d = .ok p) ∧ ∃ q, rest.reader M dfs = .ok q := by
      constructor
      · rintro ⟨p, h⟩
        simp only [TFields.reader, Out.bind_eq_ok] at h
        obtain ⟨q, hq, r, hr, -⟩ := h
        exact ⟨⟨q, hq⟩, r, hr⟩
      · rintro ⟨⟨q, hq⟩, r, hr⟩
        refine ⟨(q >>= fun x => r >>= fun xs => pure (x, xs) : RProg (t.Val × rest.Val)), ?_⟩
        simp only [TFields.reader, hq, hr]
        rfl
    rw [h, reader_ok_iff hM t d]
    have ih := fields_reader_ok_iff hM rest dfs
    simp only [TFields.names, Fields.names, List.cons.injEq, CanReadFields, FieldSizesFit, TFields.cons.injEq]
    constructor
    · rintro ⟨⟨rfl, hn⟩, ⟨h1, h2⟩, h3⟩
      have := ih.mp ⟨hn, h3⟩
      exact ⟨⟨t, rest, ⟨rfl, rfl, rfl⟩, h1, this.1⟩, h2, this.2⟩
    · rintro ⟨⟨t', rest', ⟨rfl, rfl, rfl⟩, h1, h2⟩, h3, h4⟩
      have := ih.mpr ⟨h2, h4⟩
      exact ⟨⟨rfl, this.1⟩, ⟨h1, h3⟩, this.2⟩
end

mutual
theorem writer_ok_iff {M : Machine} (hM : M.Wf) : (t : Ty) → (d : DType) →
    ((∃ p, t.writer M d = .ok p) ↔ CanWrite t d ∧ SizesFit M.usizeLim d)
  | .num p, d => bind_map_ok.trans ((ok_num hM p d).trans (by rw [canWrite_scalar (t := .num p) (by simp) (by simp)]; simp [scalarAccepts, writeOnly]))
  | .bool, d => bind_map_ok.trans ((ok_bool hM d).trans (by rw [canWrite_scalar (t := .bool) (by simp) (by simp)]; simp [scalarAccepts, writeOnly]))
  | .complex f, d => bind_map_ok.trans ((ok_complex hM f d).trans (by rw [canWrite_scalar (t := .complex f) (by simp) (by simp)]; simp [writeOnly]))
  | .vecU8, d => bind_map_ok.trans ((ok_byteVec M d).trans (by rw [canWrite_scalar (t := .vecU8) (by simp) (by simp)]; simp [scalarAccepts, writeOnly]))
  | .arrayVecU8 cap, d => bind_map_ok.trans ((ok_arrayByteVec M cap d).trans (by rw [canWrite_scalar (t := .arrayVecU8 cap) (by simp) (by simp)]; simp [scalarAccepts, writeOnly]))
  | .fixedBytes n, d => bind_map_ok.trans ((ok_fixed M n d).trans (by rw [canWrite_scalar (t := .fixedBytes n) (by simp) (by simp)]; simp [scalarAccepts, writeOnly]))
  | .vecU32, d => bind_map_ok.trans ((ok_unicode M d).trans (by rw [canWrite_scalar (t := .vecU32) (by simp) (by simp)]; simp [scalarAccepts, writeOnly]))
  | .vecChar, d => bind_map_ok.trans ((ok_unicode M d).trans (by rw [canWrite_scalar (t := .vecChar) (by simp) (by simp)]; simp [scalarAccepts, writeOnly]))
  | .string, d => bind_map_ok.trans ((ok_writeFormat M d).trans (by rw [canWrite_scalar (t := .string) (by simp) (by simp)]; simp [scalarAccepts, writeOnly]))
  | .arrayVecU32 k, d => bind_map_ok.trans ((ok_unicode M d).trans (by rw [canWrite_scalar (t := .arrayVecU32 k) (by simp) (by simp)]; simp [scalarAccepts, writeOnly]))
  | .arrayVecChar k, d => bind_map_ok.trans ((ok_unicode M d).trans (by rw [canWrite_scalar (t := .arrayVecChar k) (by simp) (by simp)]; simp [scalarAccepts, writeOnly]))
  | .arrayString k, d => bind_map_ok.trans ((ok_writeFormat M d).trans (by rw [canWrite_scalar (t := .arrayString k) (by simp) (by simp)]; simp [scalarAccepts, writeOnly]))
  | .array n t, d => by
    have h : (∃ p, (Ty.array n t).writer M d = .ok p) ↔ ∃ d', d = .array n d' ∧ ∃ p, t.writer M d' = .ok p := by
      constructor
      · rintro ⟨p, h⟩
        simp only [Ty.writer, Out.bind_eq_ok, arrayInner_ok] at h
        obtain ⟨d', hd, q, hq, -⟩ := h
        exact ⟨d', hd, q, hq⟩
      · rintro ⟨d', hd, q, hq⟩
        refine ⟨fun v => writeMany q v.1, ?_⟩
        simp only [Ty.writer, Out.bind_eq_ok, arrayInner_ok]
        exact ⟨d', hd, q, hq, rfl⟩
    rw [h]
    constructor
    · rintro ⟨d', rfl, hp⟩
      have := (writer_ok_iff hM t d').mp hp
      exact ⟨⟨t, rfl, this.1⟩, this.2⟩
    · rintro ⟨hc, hs⟩
      cases d with
      | plain s => exact absurd hc (by simp [CanWrite, scalarAccepts, writeOnly])
      | record fs => obtain ⟨fs, h, -⟩ := hc; cases h
      | array m d' =>
        obtain ⟨t', h, hc⟩ := hc
        cases h
        exact ⟨d', rfl, (writer_ok_iff hM t d').mpr ⟨hc, hs⟩⟩
  | .record fs, d => by
    have h : (∃ p, (Ty.record fs).writer M d = .ok p) ↔
        ∃ dfs, d = .record dfs ∧ dfs.names = fs.names ∧ ∃ p, fs.writer M dfs = .ok p := by
      constructor
      · rintro ⟨p, h⟩
        obtain ⟨dfs, h1, h2⟩ := (Out.bind_eq_ok (x := extractFields fs.names d) (f := fun dfs => fs.writer M dfs)).mp h
        obtain ⟨hd, hn⟩ := extractFields_ok.mp h1
        exact ⟨dfs, hd, hn, p, h2⟩
      · rintro ⟨dfs, hd, hn, p, hp⟩
        exact ⟨p, (Out.bind_eq_ok (x := extractFields fs.names d) (f := fun dfs => fs.writer M dfs)).mpr
          ⟨dfs, extractFields_ok.mpr ⟨hd, hn⟩, hp⟩⟩
    rw [h]
    constructor
    · rintro ⟨dfs, rfl, hn, hp⟩
      have := (fields_writer_ok_iff hM fs dfs).mp ⟨hn, hp⟩
      exact ⟨⟨fs, rfl, this.1⟩, this.2⟩
    · rintro ⟨hc, hs⟩
      cases d with
      | plain s => exact absurd hc (by simp [CanWrite, scalarAccepts, writeOnly])
      | array m d' => obtain ⟨fs, h, -⟩ := hc; cases h
      | record dfs =>
        obtain ⟨fs', h, hc⟩ := hc
        cases h
        exact ⟨dfs, rfl, (fields_writer_ok_iff hM fs dfs).mpr ⟨hc, hs⟩⟩
theorem fields_writer_ok_iff {M : Machine} (hM : M.Wf) : (fs : TFields) → (dfs : Fields) →
    ((dfs.names = fs.names ∧ ∃ p, fs.writer M dfs = .ok p) ↔ CanWriteFields fs dfs ∧ FieldSizesFit M.usizeLim dfs)
  | .nil, .nil => by simp [TFields.names, Fields.names, CanWriteFields, FieldSizesFit, TFields.writer]
  | .nil, .cons _ _ _ => by simp [TFields.names, Fields.names, CanWriteFields]
  | .cons _ _ _, .nil => by simp [TFields.names, Fields.names, CanWriteFields]
  | .cons name t rest, .cons name' d dfs => by
    have h : (∃ p, (TFields.cons name t rest).writer M (.cons name' d dfs) = .ok p) ↔
        (∃ p, t.writer M d = .ok p) ∧ ∃ q, rest.writer M dfs = .ok q := by
      constructor
      · rintro ⟨p, h⟩
        simp only [TFields.writer, Out.bind_eq_ok] at h
        obtain ⟨q, hq, r, hr, -⟩ := h
        exact ⟨⟨q, hq⟩, r, hr⟩
      · rintro ⟨⟨q, hq⟩, r, hr⟩
        refine ⟨fun v => do q v.1; r v.2, ?_⟩
        simp only [TFields.writer, Out.bind_eq_ok]
        exact ⟨q, hq, r, hr, rfl⟩
    rw [h, writer_ok_iff hM t d]
    have ih := fields_writer_ok_iff hM rest dfs
    simp only [TFields.names, Fields.names, List.cons.injEq, CanWriteFields, FieldSizesFit, TFields.cons.injEq]
    constructor
    · rintro ⟨⟨rfl, hn⟩, ⟨h1, h2⟩, h3⟩
      have := ih.mp ⟨hn, h3⟩
      exact ⟨⟨t, rest, ⟨rfl, rfl, rfl⟩, h1, this.1⟩, h2, this.2⟩
    · rintro ⟨⟨t', rest', ⟨rfl, rfl, rfl⟩, h1, h2⟩, h3, h4⟩
      have := ih.mpr ⟨h2, h4⟩
      exact ⟨⟨rfl, this.1⟩, ⟨h1, h3⟩, this.2⟩
end

end Npyz
