import Verif.Proofs.SparsePanic
/-!
What the readers of sparse matrices return is what the archive contains.
-/
namespace Npyz
open Spec Py Sparse

theorem collectLoop_length {t : Ty} {σ : Type} {S : Source σ} : (k : Nat) → (r r' : NpyReader t.Val σ) → (vs : List t.Val) →
    r.collectLoop S k = (.ok vs, r') → vs.length = r.header.nRecords - r.cur
  | 0, _, _, _, h => by cases h
  | k + 1, r, r', vs, h => by
    unfold NpyReader.collectLoop NpyReader.next at h
    by_cases hc : r.cur < r.header.nRecords
    · rw [if_pos hc] at h
      cases hx : (S.exec r.prog r.src).1 with
      | ok v =>
        rw [hx] at h
        cases hl : NpyReader.collectLoop S k { r with src := (S.exec r.prog r.src).2, cur := r.cur + 1 } with
        | mk o r'' =>
          cases o with
          | ok ws =>
            simp only [hl, Prod.mk.injEq] at h
            have ih := collectLoop_length k _ _ _ hl
            have e := Out.ok.inj h.1
            subst e
            simp only [List.length_cons] at ih ⊢
            omega
          | err e => simp [hl] at h
          | panic => simp [hl] at h
      | err e => rw [hx] at h; cases h
      | panic => rw [hx] at h; cases h
    · rw [if_neg hc] at h
      simp only [Prod.mk.injEq] at h
      have e := Out.ok.inj h.1
      subst e
      simp only [List.length_nil]
      omega

section
variable {M : Machine} {py : PyParser} {t : Ty} {a : NpzArchive} {name : String}

theorem intoVec_length {f : NpyFile Src} {vs : List t.Val} (h : (f.intoVec M disk t).1 = .ok vs) : vs.length = f.header.nRecords := by
  obtain ⟨r, h1, h2⟩ := intoVec_try h
  unfold NpyFile.tryData at h1
  by_cases hu : f.header.usesPickled = true
  · rw [if_pos hu] at h1; cases h1
  · rw [if_neg hu] at h1
    cases hr : t.reader M f.header.dtype with
    | ok p =>
      rw [hr] at h1
      cases h1
      exact collectLoop_length _ _ _ _ (Prod.ext h2 rfl)
    | err e => rw [hr] at h1; cases h1
    | panic => rw [hr] at h1; cases h1

/-- `try_data` followed by `collect` does what `into_vec` does. -/
theorem try_intoVec {f : NpyFile Src} {r : NpyReader t.Val Src} (h : f.tryData M t = .ok r) : (f.intoVec M disk t).1 = (r.collect disk).1 := by
  unfold NpyFile.tryData at h
  by_cases hu : f.header.usesPickled = true
  · rw [if_pos hu] at h; cases h
  · rw [if_neg hu] at h
    cases hr : t.reader M f.header.dtype with
    | ok p =>
      rw [hr] at h
      cases h
      have : f.data M t = .ok ⟨f.header, p, f.src, 0⟩ := data_ok_iff.mpr ⟨by simpa using hu, p, hr, rfl⟩
      unfold NpyFile.intoVec
      rw [this]
    | err e => rw [hr] at h; cases h
    | panic => rw [hr] at h; cases h

theorem try_err_same {f g : NpyFile Src} (h : f.tryData M t = .err g) : g = f := by
  unfold NpyFile.tryData at h
  by_cases hu : f.header.usesPickled = true
  · rw [if_pos hu] at h; cases h; rfl
  · rw [if_neg hu] at h
    cases hr : t.reader M f.header.dtype with
    | ok p => rw [hr] at h; cases h
    | err e => rw [hr] at h; cases h; rfl
    | panic => rw [hr] at h; cases h

theorem bind_ok_iff {α β : Type} {x : Res α} {f : α → Res β} {b : β} : (x >>= f) = .ok b ↔ ∃ a, x = .ok a ∧ f a = .ok b := by
  cases x with
  | ok a => rw [Out.bind_ok]; exact ⟨fun h => ⟨a, rfl, h⟩, fun ⟨_, h, h2⟩ => by cases h; exact h2⟩
  | err e => exact ⟨fun h => (by cases h), fun ⟨_, h, _⟩ => (by cases h)⟩
  | panic => exact ⟨fun h => (by cases h), fun ⟨_, h, _⟩ => (by cases h)⟩

theorem extract_iff {k : Nat} {f : NpyFile Src} : extractAndCheckNdim M py a name k = .ok f ↔
    a.byName M py (txt name) = .ok (some f) ∧ f.header.shape.length = k := by
  unfold extractAndCheckNdim
  rw [bind_ok_iff]
  constructor
  · rintro ⟨m, h1, h2⟩
    obtain ⟨g, h3, h4⟩ := bind_ok_iff.mp h2
    cases m with
    | none => cases h3
    | some m =>
      cases h3
      unfold checkNdim at h4
      by_cases hn : g.header.shape.length = k
      · rw [if_neg (by simpa using hn)] at h4; cases h4; exact ⟨h1, hn⟩
      · rw [if_pos hn] at h4; cases h4
  · rintro ⟨h1, h2⟩
    refine ⟨_, h1, bind_ok_iff.mpr ⟨f, rfl, ?_⟩⟩
    unfold checkNdim
    rw [if_neg (by simpa using h2)]

theorem one_axis {l : List Nat} (h : l.length = 1) : ∃ n, l = [n] := by
  match l, h with
  | [n], _ => exact ⟨n, rfl⟩

theorem extract1d_iff {vs : List t.Val} : extract1d M py t a name = .ok vs ↔ ∃ d o n, Holds M py t a (txt name) d [n] o vs := by
  unfold extract1d
  rw [bind_ok_iff]
  constructor
  · rintro ⟨f, h1, h2⟩
    obtain ⟨h3, h4⟩ := extract_iff.mp h1
    obtain ⟨n, hn⟩ := one_axis h4
    exact ⟨_, _, n, f, h3, rfl, hn, rfl, h2⟩
  · rintro ⟨d, o, n, f, h1, -, h3, -, h5⟩
    exact ⟨f, extract_iff.mpr ⟨h1, by rw [h3]; rfl⟩, h5⟩

theorem extractNd_iff {k : Nat} {r : List t.Val × List Nat} : extractNd M py t a name k = .ok r ↔
    ∃ d dims, dims.length = k ∧ Holds M py t a (txt name) d dims .c r.1 ∧ r.2 = dims.map (· % M.usizeLim) := by
  unfold extractNd
  rw [bind_ok_iff]
  constructor
  · rintro ⟨f, h1, h2⟩
    obtain ⟨h3, h4⟩ := extract_iff.mp h1
    obtain ⟨u, h5, h6⟩ := bind_ok_iff.mp h2
    obtain ⟨vs, h7, h8⟩ := bind_ok_iff.mp h6
    cases h8
    have ho : f.header.order = .c := by
      unfold requireC at h5
      by_cases ho : f.header.order = .c
      · exact ho
      · rw [if_pos ho] at h5; cases h5
    exact ⟨_, _, h4, ⟨f, h3, rfl, rfl, ho, h7⟩, rfl⟩
  · rintro ⟨d, dims, hk, ⟨f, h1, -, h3, h4, h5⟩, hr⟩
    refine ⟨f, extract_iff.mpr ⟨h1, by rw [h3]; exact hk⟩, bind_ok_iff.mpr ⟨(), ?_, bind_ok_iff.mpr ⟨_, h5, ?_⟩⟩⟩
    · unfold requireC
      rw [if_neg (by simpa using h4)]
    · rw [h3, ← hr]

theorem scalar_iff {v : t.Val} : extractScalar M py t a name = .ok v ↔ ∃ d o, Holds M py t a (txt name) d [] o [v] := by
  unfold extractScalar
  rw [bind_ok_iff]
  constructor
  · rintro ⟨f, h1, h2⟩
    obtain ⟨h3, h4⟩ := extract_iff.mp h1
    obtain ⟨vs, h5, h6⟩ := bind_ok_iff.mp h2
    have h7 : f.header.shape = [] := List.length_eq_zero_iff.mp h4
    have h8 := intoVec_length h5
    have h9 := opened_count (byName_opened h3).1
    rw [h7] at h9
    have h10 : (1 : Nat) = f.header.nRecords := Out.ok.inj h9
    rw [← h10] at h8
    match vs, h8, h6, h5 with
    | [v], _, h6, h5 =>
      cases h6
      exact ⟨_, _, f, h3, rfl, h7, rfl, h5⟩
  · rintro ⟨d, o, f, h1, -, h3, -, h5⟩
    exact ⟨f, extract_iff.mpr ⟨h1, by rw [h3]; rfl⟩, bind_ok_iff.mpr ⟨_, h5, rfl⟩⟩

theorem format_iff {s : Bytes} : formatOf M py a = .ok s ↔ ∃ d o, Holds M py .vecU8 a (txt "format") d [] o [s] :=
  scalar_iff (t := .vecU8)

theorem expect_iff : expectFormat M py a name = .ok () ↔ HasFormat M py a name :=
  expectFormat_iff.trans format_iff

theorem reader_of_intoVec {f : NpyFile Src} {vs : List t.Val} (h : (f.intoVec M disk t).1 = .ok vs) : ∃ p, t.reader M f.header.dtype = .ok p := by
  unfold NpyFile.intoVec at h
  cases hd : f.data M t with
  | ok r => obtain ⟨-, p, hp, -⟩ := data_ok_iff.mp hd; exact ⟨p, hp⟩
  | err e => rw [hd] at h; cases h
  | panic => rw [hd] at h; cases h

theorem not_both (hM : M.Wf) {d : DType} (h : ∃ p, (Ty.num .i64).reader M d = .ok p) : ∀ p, (Ty.num .i32).reader M d ≠ .ok p := by
  intro p hp
  obtain ⟨h1, -⟩ := (reader_ok_iff hM _ _).mp h
  obtain ⟨h2, -⟩ := (reader_ok_iff hM (.num .i32) d).mp ⟨p, hp⟩
  cases d with
  | plain s =>
    have h1 : (s.typeChar = .int ∨ s.typeChar = .timeDelta ∨ s.typeChar = .dateTime) ∧ s.size = 8 := h1
    have h2 : s.typeChar = .int ∧ s.size = 4 := h2
    omega
  | array n d => obtain ⟨t', h, -⟩ := h1; cases h
  | record fs => obtain ⟨t', h, -⟩ := h1; cases h

theorem indices_iff (hM : M.Wf) {xs : List (BitVec 64)} : extractIndices M py a name = .ok xs ↔ HasIndices M py a name xs := by
  unfold extractIndices
  rw [bind_ok_iff]
  constructor
  · rintro ⟨f, h1, h2⟩
    obtain ⟨h3, h4⟩ := extract_iff.mp h1
    obtain ⟨n, hn⟩ := one_axis h4
    unfold indicesOf at h2
    cases ht : f.tryData M (.num .i32) with
    | ok r =>
      rw [ht] at h2
      obtain ⟨ys, h5, h6⟩ := bind_ok_iff.mp h2
      exact .inl ⟨_, _, n, ys, ⟨f, h3, rfl, hn, rfl, (try_intoVec ht).trans h5⟩, (Out.ok.inj h6).symm⟩
    | err g =>
      rw [ht] at h2
      cases try_err_same ht
      have h2 : indicesI64 M f = .ok xs := h2
      unfold indicesI64 at h2
      cases ht : f.tryData M (.num .i64) with
      | ok r =>
        rw [ht] at h2
        exact .inr ⟨_, _, n, f, h3, rfl, hn, rfl, (try_intoVec ht).trans h2⟩
      | err g => rw [ht] at h2; cases h2
      | panic => rw [ht] at h2; cases h2
    | panic => rw [ht] at h2; cases h2
  · rintro (⟨d, o, n, ys, ⟨f, h1, -, h3, -, h5⟩, rfl⟩ | ⟨d, o, n, f, h1, -, h3, -, h5⟩)
    · refine ⟨f, extract_iff.mpr ⟨h1, by rw [h3]; rfl⟩, ?_⟩
      obtain ⟨r, h6, h7⟩ := intoVec_try h5
      unfold indicesOf
      rw [h6]
      exact bind_ok_iff.mpr ⟨_, h7, rfl⟩
    · refine ⟨f, extract_iff.mpr ⟨h1, by rw [h3]; rfl⟩, ?_⟩
      obtain ⟨r, h6, h7⟩ := intoVec_try h5
      unfold indicesOf
      rw [tryData_err (not_both hM (reader_of_intoVec h5))]
      show indicesI64 M f = _
      unfold indicesI64
      rw [h6]
      exact h7

theorem shape_iff (hM : M.Wf) {s : BitVec 64 × BitVec 64} : extractShape M py a name = .ok s ↔ HasIndices M py a name [s.1, s.2] := by
  unfold extractShape
  rw [bind_ok_iff]
  constructor
  · rintro ⟨xs, h1, h2⟩
    unfold pairOf at h2
    split at h2
    · cases h2; exact (indices_iff hM).mp h1
    · cases h2
  · intro h
    exact ⟨_, (indices_iff hM).mpr h, rfl⟩

theorem usizeIndices_iff (hM : M.Wf) {ks : List Nat} : extractUsizeIndices M py a name = .ok ks ↔ ∃ xs, HasIndices M py a name xs ∧ ks = asUsize M xs := by
  unfold extractUsizeIndices
  rw [bind_ok_iff]
  constructor
  · rintro ⟨xs, h1, h2⟩
    exact ⟨xs, (indices_iff hM).mp h1, (Out.ok.inj h2).symm⟩
  · rintro ⟨xs, h1, rfl⟩
    exact ⟨xs, (indices_iff hM).mpr h1, rfl⟩

end

end Npyz
