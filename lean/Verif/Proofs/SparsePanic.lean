import Verif.Proofs.Sparse
import Verif.Props.Read
/-! Reading matrices from arbitrary archives does not panic. -/
namespace Npyz
open Spec Py Sparse

theorem opened_count {M : Machine} {h : NpyHeader} (ho : Opened M h) : shapeProduct M 1 h.shape = .ok h.nRecords := by
  obtain ⟨py, bs, rest, hr⟩ := ho
  obtain ⟨v, r, h1, h2⟩ := RProg.run_bind_ok.mp hr
  cases v with
  | dict kvs =>
    simp only [RProg.run_lift, Prod.mk.injEq] at h2
    obtain ⟨_, b, vs, vd, shape, d, _, _, _, _, h5, h6⟩ := interpretHeader_ok_iff.mp h2.1
    obtain ⟨k1, k2, k3, k4, k5, k6, k7⟩ := fromParts_ok h6
    rw [k2]; exact k4
  | _ => simp [interpretHeader] at h2

theorem byName_opened {M : Machine} {py : PyParser} {a : NpzArchive} {name : Text} {f : NpyFile Src}
    (h : a.byName M py name = .ok (some f)) : Opened M f.header ∧ f.src.pos ≤ f.src.data.length := by
  unfold NpzArchive.byName at h
  cases hf : a.find (fileNameFromArrayName name) with
  | none => rw [hf] at h; cases h
  | some c =>
    rw [hf] at h
    have h : NpzArchive.openMember M py c = .ok (some f) := h
    unfold NpzArchive.openMember at h
    rcases hn : NpyFile.new M py disk ⟨c, 0⟩ with ⟨(g | e | _), s⟩
    · rw [hn] at h
      cases h
      obtain ⟨h1, -, h2, h3, -⟩ := new_disk hn
      exact ⟨h1, by rw [h2]; exact h3⟩
    · rw [hn] at h; cases h
    · rw [hn] at h; cases h

/-- A file of a well-formed archive. -/
structure GoodFile (M : Machine) (f : NpyFile Src) : Prop where
  opened : Opened M f.header
  pos : f.src.pos ≤ f.src.data.length
  size : ∀ n, f.header.itemSize = some n → n ≤ M.isizeMax

theorem bind_np {α β : Type} {x : Res α} {f : α → Res β} (h : x ≠ .panic) (hf : ∀ a, x = .ok a → f a ≠ .panic) : (x >>= f) ≠ .panic := by
  cases x with
  | ok a => exact hf a rfl
  | err e => simp
  | panic => exact absurd rfl h

section
variable {M : Machine} {py : PyParser}

theorem intoVec_good {t : Ty} {f : NpyFile Src} (hf : GoodFile M f) :
    (∃ vs, (f.intoVec M disk t).1 = .ok vs ∧ vs.length = f.header.nRecords) ∨ ∃ e, (f.intoVec M disk t).1 = .err e := by
  obtain ⟨-, -, -, h | h⟩ := Npyz.opened hf.opened
  · right
    unfold NpyFile.intoVec
    obtain ⟨-, -, hu, -⟩ := Npyz.opened hf.opened
    unfold NpyFile.data NpyFile.dataWith NpyHeader.forbidPickle
    rw [hu, (usesPickled_iff _).mpr h.1]
    exact ⟨_, rfl⟩
  · obtain ⟨-, -, n, -, hn⟩ := h
    rcases Props.C21_into_vec (t := t) hf.opened hn (hf.size n hn) hf.pos with ⟨vs, h1, h2, -⟩ | ⟨e, h1, -⟩
    · exact .inl ⟨vs, by rw [h1], h2⟩
    · exact .inr ⟨e, h1⟩

theorem intoVec_np {t : Ty} {f : NpyFile Src} (hf : GoodFile M f) : (f.intoVec M disk t).1 ≠ .panic := by
  rcases intoVec_good (t := t) hf with ⟨vs, h, -⟩ | ⟨e, h⟩ <;> rw [h] <;> simp

/-- `try_data` and `collect` do what `into_vec` does. -/
theorem try_np {t : Ty} {f : NpyFile Src} (hf : GoodFile M f) :
    f.tryData M t ≠ .panic ∧ (∀ g, f.tryData M t = .err g → g = f) ∧ ∀ r, f.tryData M t = .ok r → (r.collect disk).1 ≠ .panic := by
  have hnp := intoVec_np (t := t) hf
  unfold NpyFile.tryData
  by_cases hu : f.header.usesPickled = true
  · rw [if_pos hu]
    exact ⟨by simp, by intro g h; cases h; rfl, by intro r h; cases h⟩
  · rw [if_neg hu]
    cases hr : t.reader M f.header.dtype with
    | panic => exact absurd hr (reader_np M t _)
    | err e => exact ⟨by simp, by intro g h; cases h; rfl, by intro r h; cases h⟩
    | ok p =>
      refine ⟨by simp, by (intro g h; cases h), ?_⟩
      intro r h
      cases h
      have hd : f.data M t = .ok ⟨f.header, p, f.src, 0⟩ := data_ok_iff.mpr ⟨by simpa using hu, p, hr, rfl⟩
      unfold NpyFile.intoVec at hnp
      rw [hd] at hnp
      exact hnp

variable {a : NpzArchive} (ha : WellFormed M py a)
include ha

theorem extract_np (name : String) (k : Nat) :
    extractAndCheckNdim M py a name k ≠ .panic ∧
    ∀ f, extractAndCheckNdim M py a name k = .ok f → GoodFile M f ∧ f.header.shape.length = k := by
  unfold extractAndCheckNdim
  cases hb : a.byName M py (txt name) with
  | panic => exact absurd hb (ha.opens _)
  | err e => exact ⟨by simp, by intro f h; cases h⟩
  | ok m =>
    cases m with
    | none => exact ⟨by simp [present], by intro f h; cases h⟩
    | some f =>
      simp only [Out.bind_ok, present, checkNdim]
      by_cases hk : f.header.shape.length ≠ k
      · rw [if_pos hk]
        exact ⟨by simp, by intro f h; cases h⟩
      · rw [if_neg hk]
        refine ⟨by simp, ?_⟩
        intro g h
        cases h
        obtain ⟨h1, h2⟩ := byName_opened hb
        exact ⟨⟨h1, h2, fun n hn => ha.sizes _ f n hb hn⟩, by simpa using hk⟩

theorem formatOf_np : formatOf M py a ≠ .panic := by
  obtain ⟨h1, h2⟩ := extract_np ha "format" 0
  refine bind_np h1 fun f hf => ?_
  obtain ⟨hg, hl⟩ := h2 f hf
  refine bind_np (intoVec_np hg) fun vs hvs => ?_
  rcases intoVec_good (t := .vecU8) hg with ⟨ws, h3, h4⟩ | ⟨e, h3⟩
  · rw [hvs] at h3
    cases h3
    have hs : f.header.shape = [] := List.length_eq_zero_iff.mp hl
    have := opened_count hg.opened
    rw [hs] at this
    have h1 : (1 : Nat) = f.header.nRecords := Out.ok.inj this
    rw [← h1] at h4
    match vs, h4 with
    | [v], _ => simp [expectFirst]
  · rw [hvs] at h3; cases h3

theorem expectFormat_np (name : String) : expectFormat M py a name ≠ .panic := by
  refine bind_np (formatOf_np ha) fun v _ => ?_
  split <;> simp

theorem extractIndices_np (name : String) : extractIndices M py a name ≠ .panic := by
  obtain ⟨h1, h2⟩ := extract_np ha name 1
  refine bind_np h1 fun f hf => ?_
  obtain ⟨hg, -⟩ := h2 f hf
  obtain ⟨t1, t2, t3⟩ := try_np (t := .num .i32) hg
  obtain ⟨u1, -, u3⟩ := try_np (t := .num .i64) hg
  unfold indicesOf
  cases hr : f.tryData M (.num .i32) with
  | panic => exact absurd hr t1
  | ok r =>
    show collectI32 r ≠ .panic
    exact bind_np (t3 r hr) fun _ _ => by simp
  | err g =>
    obtain rfl := t2 g hr
    show indicesI64 M g ≠ .panic
    unfold indicesI64
    cases hr : g.tryData M (.num .i64) with
    | panic => exact absurd hr u1
    | ok r => exact u3 r hr
    | err e => simp

theorem extractShape_np (name : String) : extractShape M py a name ≠ .panic := by
  refine bind_np (extractIndices_np ha name) fun xs _ => ?_
  unfold pairOf
  split <;> simp

theorem extractUsizeIndices_np (name : String) : extractUsizeIndices M py a name ≠ .panic :=
  bind_np (extractIndices_np ha name) fun _ _ => by simp

theorem extract1d_np (t : Ty) (name : String) : extract1d M py t a name ≠ .panic := by
  obtain ⟨h1, h2⟩ := extract_np ha name 1
  exact bind_np h1 fun f hf => intoVec_np (h2 f hf).1

theorem extractNd_np (t : Ty) (name : String) (k : Nat) : extractNd M py t a name k ≠ .panic ∧
    ∀ r, extractNd M py t a name k = .ok r → r.2.length = k := by
  obtain ⟨h1, h2⟩ := extract_np ha name k
  constructor
  · refine bind_np h1 fun f hf => ?_
    refine bind_np (by unfold requireC; split <;> simp) fun _ _ => ?_
    exact bind_np (intoVec_np (h2 f hf).1) fun _ _ => by simp
  · intro r hr
    unfold extractNd at hr
    obtain ⟨f, hf, hr⟩ := Out.bind_eq_ok.mp hr
    obtain ⟨_, -, hr⟩ := Out.bind_eq_ok.mp hr
    obtain ⟨vs, -, hr⟩ := Out.bind_eq_ok.mp hr
    cases hr
    rw [List.length_map]
    exact (h2 f hf).2

end

end Npyz
