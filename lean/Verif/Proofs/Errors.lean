import Verif.Spec.Errors
import Verif.Proofs.CodecAccept
/-!
What the error of a refused dtype says.
-/
namespace Npyz
open Spec

/-- The three ways a scalar type refuses a dtype. -/
def ScalarErr (lim : Nat) (acc : TypeStr → Prop) (d : DType) (e : DTypeErr) : Prop :=
  ((∀ s, d ≠ .plain s) ∧ e = .expectedScalar d.descr) ∨
    ∃ s, d = .plain s ∧ ((e = .badScalar s ∧ ¬ acc s) ∨ (e = .usizeOverflow s.size ∧ lim ≤ s.size))

/-- A check that begins with `expect_scalar_dtype`. -/
theorem scalarErr_bind {α : Type} {lim : Nat} {acc : TypeStr → Prop} {d : DType} {e : DTypeErr} {f : TypeStr → DRes α}
    (hf : ∀ s, f s = .err e → ScalarErr lim acc (.plain s) e) (h : (expectScalar d >>= f) = .err e) :
    ScalarErr lim acc d e := by
  cases d with
  | plain s => exact hf s h
  | array n d => cases h; exact .inl ⟨by simp, rfl⟩
  | record fs => cases h; exact .inl ⟨by simp, rfl⟩

theorem scalarErr_size {α : Type} {M : Machine} {acc : TypeStr → Prop} {s : TypeStr} {e : DTypeErr} {f : Nat → DRes α}
    (hf : s.size < M.usizeLim → f s.size = .err e → ScalarErr M.usizeLim acc (.plain s) e)
    (h : (sizeAsUsize M s >>= f) = .err e) : ScalarErr M.usizeLim acc (.plain s) e := by
  unfold sizeAsUsize at h
  by_cases hs : s.size < M.usizeLim
  · rw [if_pos hs] at h
    exact hf hs h
  · rw [if_neg hs] at h
    cases h
    exact .inr ⟨s, rfl, .inr ⟨rfl, by omega⟩⟩

theorem scalarErr_bad {lim : Nat} {acc : TypeStr → Prop} {s : TypeStr} {e : DTypeErr} (ha : ¬ acc s)
    (h : DTypeErr.badScalar s = e) : ScalarErr lim acc (.plain s) e :=
  .inr ⟨s, rfl, .inl ⟨h.symm, ha⟩⟩

theorem ite_err {ε α : Type} {c : Prop} [Decidable c] {a : α} {e e' : ε}
    (h : (if c then (.ok a : Out ε α) else .err e') = .err e) : ¬ c ∧ e' = e := by
  by_cases hc : c
  · rw [if_pos hc] at h; cases h
  · rw [if_neg hc] at h; cases h; exact ⟨hc, rfl⟩

theorem checkByteVec_err {M : Machine} {d : DType} {e : DTypeErr} (h : checkByteVec M d = .err e) :
    ScalarErr M.usizeLim (fun s => s.typeChar = .rawData ∨ s.typeChar = .byteStr) d e := by
  refine scalarErr_bind (fun s h => scalarErr_size (fun hs h => ?_) h) h
  unfold isByteStr at h
  split at h
  · cases h
  · cases h
  · rename_i h1 h2
    cases h
    exact scalarErr_bad (by simp only [not_or]; exact ⟨h2, h1⟩) rfl

theorem checkArrayByteVec_err {M : Machine} {cap : Nat} {d : DType} {e : DTypeErr} (h : checkArrayByteVec M cap d = .err e) :
    ScalarErr M.usizeLim (fun s => (s.typeChar = .rawData ∧ s.size ≤ cap) ∨ s.typeChar = .byteStr) d e := by
  unfold checkArrayByteVec at h
  rcases hc : checkByteVec M d with i | e' | _
  · rw [hc] at h
    obtain ⟨s, rfl, hn, hi, hb⟩ := checkByteVec_ok.mp hc
    change (if i.isByteStr = false ∧ cap < i.size then (.err (.badScalar s) : DRes ByteInfo) else .ok i) = _ at h
    by_cases hk : i.isByteStr = false ∧ cap < i.size
    · rw [if_pos hk] at h
      cases h
      rcases hb with ⟨-, hb⟩ | ⟨hb, -⟩
      · rw [hb] at hk; simp at hk
      · refine scalarErr_bad ?_ rfl
        rintro (⟨-, h⟩ | h)
        · omega
        · rw [hb] at h; cases h
    · rw [if_neg hk] at h; cases h
  · rw [hc] at h
    cases h
    rcases checkByteVec_err hc with h | ⟨s, rfl, ⟨he, ha⟩ | h⟩
    · exact .inl h
    · exact .inr ⟨s, rfl, .inl ⟨he, fun h => ha (h.imp And.left id)⟩⟩
    · exact .inr ⟨s, rfl, .inr h⟩
  · exact absurd hc (checkByteVec_np M d)

theorem checkFixed_err {M : Machine} {n : Nat} {d : DType} {e : DTypeErr} (h : checkFixed M n d = .err e) :
    ScalarErr M.usizeLim (fun s => s.typeChar = .rawData ∧ s.size = n) d e :=
  scalarErr_bind (fun s h => scalarErr_size (fun _ h => scalarErr_bad (ite_err h).1 (ite_err h).2) h) h

theorem checkPrim_err {lim : Nat} {p : Prim} {d : DType} {e : DTypeErr} (h : checkPrim p d = .err e) :
    ScalarErr lim (fun s => s.size = p.size ∧ p.supports s.typeChar = true) d e :=
  scalarErr_bind (fun s h => scalarErr_bad (ite_err h).1 (ite_err h).2) h

theorem checkBool_err {lim : Nat} {d : DType} {e : DTypeErr} (h : checkBool d = .err e) :
    ScalarErr lim (fun s => s.size = 1 ∧ s.typeChar = .bool) d e :=
  scalarErr_bind (fun s h => scalarErr_bad (ite_err h).1 (ite_err h).2) h

theorem checkComplex_err {lim : Nat} {f : FloatTy} {d : DType} {e : DTypeErr} (h : checkComplex f d = .err e) :
    ScalarErr lim (fun s => s.size = 2 * f.size ∧ s.typeChar = .complex) d e :=
  scalarErr_bind (fun s h => scalarErr_bad (ite_err h).1 (ite_err h).2) h

theorem checkUnicode_err {M : Machine} {d : DType} {e : DTypeErr} (h : checkUnicode M d = .err e) :
    ScalarErr M.usizeLim (fun s => s.typeChar = .unicodeStr) d e := by
  refine scalarErr_bind (fun s h => ?_) h
  by_cases hc : s.typeChar = .unicodeStr
  · rw [if_pos hc] at h
    exact scalarErr_size (fun _ h => by cases h) h
  · rw [if_neg hc] at h
    cases h
    exact scalarErr_bad hc rfl

theorem checkUnicodeArrayVec_err {M : Machine} {d : DType} {e : DTypeErr} (h : checkUnicodeArrayVec M d = .err e) :
    ScalarErr M.usizeLim (fun s => s.typeChar = .unicodeStr) d e :=
  scalarErr_bind (fun s h => scalarErr_size (fun _ h => scalarErr_bad (ite_err h).1 (ite_err h).2) h) h

theorem tryUtf8_err {M : Machine} {d : DType} {e : DTypeErr} {acc : TypeStr → Prop} (h : tryUtf8 M d = some (.err e)) :
    ScalarErr M.usizeLim acc d e := by
  unfold tryUtf8 at h
  rcases hc : checkByteVec M d with i | e' | _
  · rw [hc] at h
    change (if i.isByteStr = false then none else some (Out.ok i)) = _ at h
    split at h <;> cases h
  · rcases checkByteVec_err hc with ⟨-, rfl⟩ | ⟨s, rfl, ⟨rfl, ha⟩ | ⟨rfl, hl⟩⟩
    · rw [hc] at h; cases h
    · rw [hc] at h; cases h
    · rw [hc] at h; cases h
      exact .inr ⟨s, rfl, .inr ⟨rfl, hl⟩⟩
  · exact absurd hc (checkByteVec_np M d)

theorem tryUtf8_not {M : Machine} {s : TypeStr} (h : tryUtf8 M (.plain s) = none) : s.typeChar ≠ .byteStr := by
  intro hb
  unfold tryUtf8 at h
  by_cases hs : s.size < M.usizeLim
  · rw [checkByteVec_ok (i := ⟨s.size, true⟩) |>.mpr ⟨s, rfl, hs, rfl, .inl ⟨hb, rfl⟩⟩] at h
    cases h
  · have : checkByteVec M (.plain s) = .err (.usizeOverflow s.size) := by
      simp [checkByteVec, expectScalar, sizeAsUsize, hs]
    rw [this] at h
    cases h

theorem tryUtf32_err {M : Machine} {d : DType} {e : DTypeErr} {acc : TypeStr → Prop} (h : tryUtf32 M d = some (.err e)) :
    ScalarErr M.usizeLim acc d e := by
  cases d with
  | plain s =>
    simp only [tryUtf32, expectScalar] at h
    split at h
    · unfold sizeAsUsize at h
      by_cases hs : s.size < M.usizeLim
      · rw [if_pos hs] at h; cases h
      · rw [if_neg hs] at h; cases h
        exact .inr ⟨s, rfl, .inr ⟨rfl, by omega⟩⟩
    · cases h
  | array n d => cases h
  | record fs => cases h

theorem tryUtf32_not {M : Machine} {s : TypeStr} (h : tryUtf32 M (.plain s) = none) : s.typeChar ≠ .unicodeStr := by
  intro hb
  simp only [tryUtf32, expectScalar, hb, if_true] at h
  split at h <;> cases h

theorem badString_err {α : Type} {lim : Nat} {acc : TypeStr → Prop} {d : DType} {e : DTypeErr}
    (ha : ∀ s, d = .plain s → ¬ acc s) (h : (badString d : DRes α) = .err e) : ScalarErr lim acc d e := by
  cases d with
  | plain s => cases h; exact scalarErr_bad (ha s rfl) rfl
  | array n d => cases h; exact .inl ⟨by simp, rfl⟩
  | record fs => cases h; exact .inl ⟨by simp, rfl⟩

theorem bind_ok_err {α β : Type} {x : DRes α} {f : α → β} {e : DTypeErr}
    (h : (x >>= fun a => (.ok (f a) : DRes β)) = .err e) : x = .err e := by
  cases x with
  | ok a => cases h
  | err e' => cases h; rfl
  | panic => cases h

theorem readArrayFormat_err {M : Machine} {d : DType} {e : DTypeErr} (h : readArrayFormat M d = .err e) :
    ScalarErr M.usizeLim (fun s => s.typeChar = .byteStr) d e := by
  unfold readArrayFormat at h
  rcases ht : tryUtf8 M d with _ | x
  · rw [ht] at h
    exact badString_err (fun s hs => by subst hs; exact tryUtf8_not ht) h
  · rw [ht] at h
    subst h
    exact tryUtf8_err ht

theorem readFormat_err {M : Machine} {d : DType} {e : DTypeErr} (h : readFormat M d = .err e) :
    ScalarErr M.usizeLim (fun s => s.typeChar = .byteStr ∨ s.typeChar = .unicodeStr) d e := by
  unfold readFormat at h
  rcases h2 : tryUtf32 M d with _ | x
  · rw [h2] at h
    rcases ht : tryUtf8 M d with _ | x
    · rw [ht] at h
      exact badString_err (fun s hs => by
        subst hs
        simp only [not_or]
        exact ⟨tryUtf8_not ht, tryUtf32_not h2⟩) h
    · rw [ht] at h
      rw [bind_ok_err h] at ht
      exact tryUtf8_err ht
  · rw [h2] at h
    rw [bind_ok_err h] at h2
    exact tryUtf32_err h2

theorem writeFormat_err {M : Machine} {d : DType} {e : DTypeErr} (h : writeFormat M d = .err e) :
    ScalarErr M.usizeLim (fun s => s.typeChar = .byteStr ∨ s.typeChar = .unicodeStr) d e := by
  refine scalarErr_bind (fun s h => ?_) h
  split at h
  · exact scalarErr_size (fun _ h => by cases h) h
  · exact scalarErr_size (fun _ h => by cases h) h
  · rename_i h1 h2
    cases h
    exact scalarErr_bad (by simp only [not_or]; exact ⟨h2, h1⟩) rfl

/-- From the scalar cases to the relation of the specification. -/
theorem ScalarErr.truthful {lim : Nat} {acc : TypeStr → Prop} {Suits : Ty → TypeStr → Prop} {t : Ty} {d : DType}
    {e : DTypeErr} (ht : ScalarTy t) (h : ScalarErr lim acc d e) (ha : ∀ s, Suits t s → acc s) :
    Truthful lim Suits t d (swapNames e) := by
  refine ⟨t, d, .here, ?_⟩
  rcases h with ⟨h, rfl⟩ | ⟨s, rfl, ⟨rfl, hs⟩ | ⟨rfl, hs⟩⟩
  · exact ⟨ht, h, rfl⟩
  · exact ⟨ht, rfl, fun h => hs (ha s h)⟩
  · exact ⟨s, rfl, rfl, hs⟩

theorem Truthful.elem {lim : Nat} {Suits : Ty → TypeStr → Prop} {n : Nat} {t : Ty} {d : DType} {e : DTypeErr}
    (h : Truthful lim Suits t d e) : Truthful lim Suits (.array n t) (.array n d) e := by
  obtain ⟨t', d', hw, h⟩ := h
  exact ⟨t', d', .elem hw, h⟩

theorem Truthful.field {lim : Nat} {Suits : Ty → TypeStr → Prop} {fs : TFields} {dfs : Fields} {t : Ty} {d : DType}
    {e : DTypeErr} (hn : fs.names = dfs.names) (hf : FieldAt fs dfs t d) (h : Truthful lim Suits t d e) :
    Truthful lim Suits (.record fs) (.record dfs) e := by
  obtain ⟨t', d', hw, h⟩ := h
  exact ⟨t', d', .field hn hf hw, h⟩

theorem arrayInner_err {lim : Nat} {Suits : Ty → TypeStr → Prop} {n : Nat} {t : Ty} {d : DType} {e : DTypeErr}
    (h : arrayInner n d = .err e) : Truthful lim Suits (.array n t) d (swapNames e) := by
  refine ⟨_, _, .here, ?_⟩
  cases d with
  | plain s => cases h; exact ⟨⟨n, t, rfl⟩, .inl ⟨rfl, s, rfl⟩⟩
  | record fs => cases h; exact ⟨⟨n, t, rfl⟩, .inr ⟨rfl, fs, rfl⟩⟩
  | array k d =>
    simp only [arrayInner] at h
    by_cases hk : k ≠ n
    · rw [if_pos hk] at h
      cases h
      exact ⟨fun h => hk h.symm, ⟨t, rfl⟩, d, rfl⟩
    · rw [if_neg hk] at h; cases h

theorem extractFields_err {lim : Nat} {Suits : Ty → TypeStr → Prop} {fs : TFields} {d : DType} {e : DTypeErr}
    (h : extractFields fs.names d = .err e) : Truthful lim Suits (.record fs) d (swapNames e) := by
  refine ⟨_, _, .here, ?_⟩
  cases d with
  | plain s => cases h; exact ⟨⟨fs, rfl⟩, by simp, rfl⟩
  | array k d => cases h; exact ⟨⟨fs, rfl⟩, by simp, rfl⟩
  | record dfs =>
    simp only [extractFields] at h
    by_cases hk : dfs.names = fs.names
    · rw [if_pos hk] at h; cases h
    · rw [if_neg hk] at h
      cases h
      exact ⟨fun h => hk h.symm, ⟨fs, rfl, rfl⟩, dfs, rfl, rfl⟩

theorem Out.bind_isErr {α β ε : Type} {x : Out ε α} {f : α → Out ε β} {e : ε} (h : (x >>= f) = .err e) :
    x = .err e ∨ ∃ a, x = .ok a ∧ f a = .err e := by
  cases x with
  | ok a => exact .inr ⟨a, rfl, h⟩
  | err e' => cases h; exact .inl rfl
  | panic => cases h

theorem suits_prim {p : Prim} {s : TypeStr} (h : SuitsRead (.num p) s) : s.size = p.size ∧ p.supports s.typeChar = true := by
  cases p <;> simp only [SuitsRead, scalarAccepts, numAccepts] at h <;> obtain ⟨h, h'⟩ := h <;>
    first
      | (rw [h, h']; exact ⟨rfl, rfl⟩)
      | (rcases h with h | h | h <;> rw [h, h'] <;> exact ⟨rfl, rfl⟩)

theorem suits_complex {f : FloatTy} {s : TypeStr} (h : SuitsRead (.complex f) s) : s.size = 2 * f.size ∧ s.typeChar = .complex := by
  cases f <;> simp only [SuitsRead, scalarAccepts] at h <;> exact ⟨h.2, h.1⟩

theorem scalarTy_of {t : Ty} (h1 : ∀ n t', t ≠ .array n t') (h2 : ∀ fs, t ≠ .record fs) : ScalarTy t := ⟨h1, h2⟩

mutual
theorem reader_truthful (M : Machine) : (t : Ty) → (d : DType) → {e : DTypeErr} → t.reader M d = .err e →
    Truthful M.usizeLim SuitsRead t d (swapNames e)
  | .num p, d, _, h => (checkPrim_err (bind_ok_err h)).truthful ⟨nofun, nofun⟩ fun _ => suits_prim
  | .bool, d, _, h => (checkBool_err (bind_ok_err h)).truthful ⟨nofun, nofun⟩ fun _ h => ⟨h.2, h.1⟩
  | .complex f, d, _, h => (checkComplex_err (bind_ok_err h)).truthful ⟨nofun, nofun⟩ fun _ => suits_complex
  | .vecU8, d, _, h => (checkByteVec_err (bind_ok_err h)).truthful ⟨nofun, nofun⟩ fun _ h => h
  | .arrayVecU8 cap, d, _, h => (checkArrayByteVec_err (bind_ok_err h)).truthful ⟨nofun, nofun⟩ fun _ h => h
  | .fixedBytes n, d, _, h => (checkFixed_err (bind_ok_err h)).truthful ⟨nofun, nofun⟩ fun _ h => h
  | .vecU32, d, _, h => (checkUnicode_err (bind_ok_err h)).truthful ⟨nofun, nofun⟩ fun _ h => h
  | .vecChar, d, _, h => (checkUnicode_err (bind_ok_err h)).truthful ⟨nofun, nofun⟩ fun _ h => h
  | .string, d, _, h => (readFormat_err (bind_ok_err h)).truthful ⟨nofun, nofun⟩ fun _ h => h
  | .arrayVecU32 _, d, _, h => (checkUnicodeArrayVec_err (bind_ok_err h)).truthful ⟨nofun, nofun⟩ fun _ h => h
  | .arrayVecChar _, d, _, h => (checkUnicodeArrayVec_err (bind_ok_err h)).truthful ⟨nofun, nofun⟩ fun _ h => h
  | .arrayString _, d, _, h => (readArrayFormat_err (bind_ok_err h)).truthful ⟨nofun, nofun⟩ fun _ h => h
  | .array n t, d, e, h => by
    rcases Out.bind_isErr h with h | ⟨d', hd, h'⟩
    · exact arrayInner_err h
    · obtain rfl := arrayInner_ok.mp hd
      exact Truthful.elem (reader_truthful M t d' (bind_ok_err h'))
  | .record fs, d, e, h => by
    rcases Out.bind_isErr h with h | ⟨dfs, hd, h'⟩
    · exact extractFields_err h
    · obtain ⟨rfl, hn⟩ := extractFields_ok.mp hd
      obtain ⟨t, d, hf, ht⟩ := readers_truthful M fs dfs h'
      exact Truthful.field hn.symm hf ht
theorem readers_truthful (M : Machine) : (fs : TFields) → (dfs : Fields) → {e : DTypeErr} → fs.reader M dfs = .err e →
    ∃ t d, FieldAt fs dfs t d ∧ Truthful M.usizeLim SuitsRead t d (swapNames e)
  | .nil, dfs, e, h => by cases h
  | .cons _ _ _, .nil, e, h => by cases h
  | .cons a t rest, .cons b d dfs, e, h => by
    rcases Out.bind_isErr h with h | ⟨p, hd, h⟩
    · exact ⟨t, d, .head, reader_truthful M t d h⟩
    · obtain ⟨t', d', hf, ht⟩ := readers_truthful M rest dfs (bind_ok_err h)
      exact ⟨t', d', .tail hf, ht⟩
end

mutual
theorem writer_truthful (M : Machine) : (t : Ty) → (d : DType) → {e : DTypeErr} → t.writer M d = .err e →
    Truthful M.usizeLim SuitsWrite t d (swapNames e)
  | .num p, d, _, h => (checkPrim_err (bind_ok_err h)).truthful ⟨nofun, nofun⟩ fun _ h => suits_prim (h.resolve_right id)
  | .bool, d, _, h => (checkBool_err (bind_ok_err h)).truthful ⟨nofun, nofun⟩ fun _ h => (h.resolve_right id).symm
  | .complex f, d, _, h => (checkComplex_err (bind_ok_err h)).truthful ⟨nofun, nofun⟩ fun _ h => suits_complex (h.resolve_right id)
  | .vecU8, d, _, h => (checkByteVec_err (bind_ok_err h)).truthful ⟨nofun, nofun⟩ fun _ h => h.resolve_right id
  | .arrayVecU8 cap, d, _, h => (checkArrayByteVec_err (bind_ok_err h)).truthful ⟨nofun, nofun⟩ fun _ h => h.resolve_right id
  | .fixedBytes n, d, _, h => (checkFixed_err (bind_ok_err h)).truthful ⟨nofun, nofun⟩ fun _ h => h.resolve_right id
  | .vecU32, d, _, h => (checkUnicode_err (bind_ok_err h)).truthful ⟨nofun, nofun⟩ fun _ h => h.resolve_right id
  | .vecChar, d, _, h => (checkUnicode_err (bind_ok_err h)).truthful ⟨nofun, nofun⟩ fun _ h => h.resolve_right id
  | .string, d, _, h => (writeFormat_err (bind_ok_err h)).truthful ⟨nofun, nofun⟩ fun _ h => h.resolve_right id
  | .arrayVecU32 _, d, _, h => (checkUnicode_err (bind_ok_err h)).truthful ⟨nofun, nofun⟩ fun _ h => h.resolve_right id
  | .arrayVecChar _, d, _, h => (checkUnicode_err (bind_ok_err h)).truthful ⟨nofun, nofun⟩ fun _ h => h.resolve_right id
  | .arrayString _, d, _, h => (writeFormat_err (bind_ok_err h)).truthful ⟨nofun, nofun⟩ fun _ h => h
  | .array n t, d, e, h => by
    rcases Out.bind_isErr h with h | ⟨d', hd, h'⟩
    · exact arrayInner_err h
    · obtain rfl := arrayInner_ok.mp hd
      exact Truthful.elem (writer_truthful M t d' (bind_ok_err h'))
  | .record fs, d, e, h => by
    rcases Out.bind_isErr h with h | ⟨dfs, hd, h'⟩
    · exact extractFields_err h
    · obtain ⟨rfl, hn⟩ := extractFields_ok.mp hd
      obtain ⟨t, d, hf, ht⟩ := writers_truthful M fs dfs h'
      exact Truthful.field hn.symm hf ht
theorem writers_truthful (M : Machine) : (fs : TFields) → (dfs : Fields) → {e : DTypeErr} → fs.writer M dfs = .err e →
    ∃ t d, FieldAt fs dfs t d ∧ Truthful M.usizeLim SuitsWrite t d (swapNames e)
  | .nil, dfs, e, h => by cases h
  | .cons _ _ _, .nil, e, h => by cases h
  | .cons a t rest, .cons b d dfs, e, h => by
    rcases Out.bind_isErr h with h | ⟨p, hd, h⟩
    · exact ⟨t, d, .head, writer_truthful M t d h⟩
    · obtain ⟨t', d', hf, ht⟩ := writers_truthful M rest dfs (bind_ok_err h)
      exact ⟨t', d', .tail hf, ht⟩
end

end Npyz
