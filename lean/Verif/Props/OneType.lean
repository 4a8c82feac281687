import Verif.Spec.OneType
import Verif.Props.Codec
import Verif.Props.Read
/-!
C103: the dtype of an array determines the element type.
-/
namespace Npyz.Props
set_option autoImplicit false
open Npyz.Spec

variable {M : Machine} {t u : Ty} {d : DType}

theorem numAccepts_unique {p q : Prim} {c : TypeChar} {n : Nat} (h : numAccepts p c n) (h' : numAccepts q c n) : p = q := by
  cases p <;> cases q <;> simp_all [numAccepts]

theorem scalar_alike {s : TypeStr} (h : scalarAccepts t s.typeChar s.size) (h' : scalarAccepts u s.typeChar s.size) : t = u ∨ (Stringy t ∧ Stringy u) := by
  have num : ∀ p, ∀ {v : Ty}, numAccepts p s.typeChar s.size → scalarAccepts v s.typeChar s.size → Ty.num p = v := by
    intro p v h h'
    have hk := prim_kind ((numAccepts_iff _ _ _).mp h).1
    cases v with
    | num q => rw [numAccepts_unique h h']
    | complex f => have := (complexAccepts_iff _ _ _).mp h'; rcases hk with k | k | k | k | k <;> simp [k] at this
    | _ => rcases hk with k | k | k | k | k <;> simp [scalarAccepts, k] at h'
  have complex : ∀ f, ∀ {v : Ty}, scalarAccepts (.complex f) s.typeChar s.size → scalarAccepts v s.typeChar s.size → Ty.complex f = v := by
    intro f v h h'
    have h := (complexAccepts_iff _ _ _).mp h
    cases v with
    | num q => have := num q h' (((complexAccepts_iff f _ _).mpr h)); cases this
    | complex g =>
      have := (complexAccepts_iff _ _ _).mp h'
      cases f <;> cases g <;> simp_all [FloatTy.size]
    | _ => simp [scalarAccepts, h.1] at h'
  have bool : ∀ {v : Ty}, scalarAccepts .bool s.typeChar s.size → scalarAccepts v s.typeChar s.size → Ty.bool = v := by
    intro v h h'
    have h : s.typeChar = .bool ∧ s.size = 1 := h
    cases v with
    | num q => have := num q h' (show scalarAccepts .bool s.typeChar s.size from h); cases this
    | complex g => have := complex g h' (show scalarAccepts .bool s.typeChar s.size from h); cases this
    | bool => rfl
    | _ => simp [scalarAccepts, h.1] at h'
  cases t with
  | num p => exact .inl (num p h h')
  | bool => exact .inl (bool h h')
  | complex f => exact .inl (complex f h h')
  | array _ _ => exact False.elim h
  | record _ => exact False.elim h
  | _ =>
    cases u with
    | num p => exact .inl (num p h' h).symm
    | bool => exact .inl (bool h' h).symm
    | complex f => exact .inl (complex f h' h).symm
    | array _ _ => exact False.elim h'
    | record _ => exact False.elim h'
    | _ => exact .inr ⟨trivial, trivial⟩

mutual
theorem alike : (d : DType) → {t u : Ty} → CanRead t d → CanRead u d → Alike t u
  | .plain s, t, u, h, h' => by
    rcases scalar_alike h h' with rfl | ⟨a, b⟩
    · exact .same _
    · exact .strings _ _ a b
  | .array n d, t, u, h, h' => by
    obtain ⟨t', rfl, h⟩ := h
    obtain ⟨u', rfl, h'⟩ := h'
    exact .array n _ _ (alike d h h')
  | .record dfs, t, u, h, h' => by
    obtain ⟨fs, rfl, h⟩ := h
    obtain ⟨gs, rfl, h'⟩ := h'
    exact .record _ _ (alikeFields dfs h h')
theorem alikeFields : (dfs : Fields) → {fs gs : TFields} → CanReadFields fs dfs → CanReadFields gs dfs → AlikeFields fs gs
  | .nil, fs, gs, h, h' => by
    cases (show fs = .nil from h)
    cases (show gs = .nil from h')
    exact .nil
  | .cons name d rest, fs, gs, h, h' => by
    obtain ⟨t, r, rfl, h1, h2⟩ := h
    obtain ⟨u, q, rfl, h1', h2'⟩ := h'
    exact .cons _ _ _ _ _ (alike d h1 h1') (alikeFields rest h2 h2')
end

mutual
theorem exact_unique : (d : DType) → {t u : Ty} → Exact t → Exact u → CanRead t d → CanRead u d → t = u
  | .plain s, t, u, e, e', h, h' => by
    rcases scalar_alike h h' with rfl | ⟨a, b⟩
    · rfl
    · cases t <;> first | exact False.elim e | exact False.elim a | skip
      cases u <;> first | exact False.elim e' | exact False.elim b | skip
      rw [← h.2, ← h'.2]
  | .array n d, t, u, e, e', h, h' => by
    obtain ⟨t', rfl, h⟩ := h
    obtain ⟨u', rfl, h'⟩ := h'
    rw [exact_unique d (show Exact t' from e) (show Exact u' from e') h h']
  | .record dfs, t, u, e, e', h, h' => by
    obtain ⟨fs, rfl, h⟩ := h
    obtain ⟨gs, rfl, h'⟩ := h'
    rw [exactFields_unique dfs (show FieldsExact fs from e) (show FieldsExact gs from e') h h']
theorem exactFields_unique : (dfs : Fields) → {fs gs : TFields} → FieldsExact fs → FieldsExact gs → CanReadFields fs dfs → CanReadFields gs dfs → fs = gs
  | .nil, fs, gs, _, _, h, h' => (show fs = .nil from h).trans (show gs = .nil from h').symm
  | .cons name d rest, fs, gs, e, e', h, h' => by
    obtain ⟨t, r, rfl, h1, h2⟩ := h
    obtain ⟨u, q, rfl, h1', h2'⟩ := h'
    rw [exact_unique d e.1 e'.1 h1 h1', exactFields_unique rest e.2 e'.2 h2 h2']
end

/-- C103: two types that can read the same dtype, on whatever machines, differ only in how they hold strings. -/
theorem C103_alike {M' : Machine} (hM : M.Wf) (hM' : M'.Wf) (h : ∃ p, t.reader M d = .ok p) (h' : ∃ p, u.reader M' d = .ok p) : Alike t u :=
  alike d ((reader_ok_iff hM t d).mp h).1 ((reader_ok_iff hM' u d).mp h').1

/-- C103: without strings the dtype leaves one type only. -/
theorem C103_unique {M' : Machine} (hM : M.Wf) (hM' : M'.Wf) (ht : Exact t) (hu : Exact u) (h : ∃ p, t.reader M d = .ok p)
    (h' : ∃ p, u.reader M' d = .ok p) : t = u :=
  exact_unique d ht hu ((reader_ok_iff hM t d).mp h).1 ((reader_ok_iff hM' u d).mp h').1

/-- C103_alike, C103_unique: who can read arrays of two doubles. -/
example (u : Ty) (M' : Machine) (hM' : M'.Wf) (h : ∃ p, u.reader M' (.array 2 (.plain ⟨.little, .float, 8, none⟩)) = .ok p) :
    Alike (.array 2 f64) u ∧ (Exact u → .array 2 f64 = u) :=
  ⟨C103_alike (M := ⟨false, 64, true⟩) (.inr rfl) hM' ⟨_, rfl⟩ h, fun hu => C103_unique (M := ⟨false, 64, true⟩) (t := .array 2 f64) (.inr rfl) hM' trivial hu ⟨_, rfl⟩ h⟩

/-- C103: a file that can be read as one type is refused, with an error, by every other. -/
theorem C103_refused (hM : M.Wf) {f : NpyFile Src} {r : NpyReader t.Val Src} (h : f.data M t = .ok r) :
    (¬ Alike t u → ∃ e, f.data M u = .err e) ∧ (Exact t → Exact u → t ≠ u → ∃ e, f.data M u = .err e) := by
  obtain ⟨hp, p, hr, -⟩ := data_ok_iff.mp h
  have key : (∀ q, u.reader M f.header.dtype ≠ .ok q) → ∃ e, f.data M u = .err e := by
    intro hno
    unfold NpyFile.data NpyFile.dataWith NpyHeader.forbidPickle
    rw [if_neg (by rw [hp]; decide)]
    cases hx : u.reader M f.header.dtype with
    | ok q => exact absurd hx (hno q)
    | err e => exact ⟨e, rfl⟩
    | panic => exact absurd hx (reader_np M u _)
  exact ⟨fun hne => key fun q hq => hne (C103_alike hM hM ⟨p, hr⟩ ⟨q, hq⟩),
    fun ht hu hne => key fun q hq => hne (C103_unique hM hM ht hu ⟨p, hr⟩ ⟨q, hq⟩)⟩

/-- C103: what is stored in the default dtype of a type can be read as this type only. -/
theorem C103_default {M' : Machine} (hM : M.Wf) (hM' : M'.Wf) (ht : Exact t) (hu : Exact u) (hc : ConstsFit M.usizeLim t) (h : t.defaultDType M = some (.ok d))
    (h' : ∃ p, u.reader M' d = .ok p) : u = t := by
  obtain ⟨d', e, -, -, hr, -⟩ := C38_default hM t hc _ h
  cases e
  exact C103_unique hM' hM hu ht h' hr

example : ¬ Alike (.num .f64) (.num .i64) ∧ ¬ Alike (.array 3 (.num .u8)) (.array 4 (.num .u8)) ∧ Alike .vecU8 (.fixedBytes 4) :=
  ⟨fun h => by cases h with | strings _ _ a _ => exact a, fun h => by cases h with | strings _ _ a _ => exact a,
    .strings _ _ trivial trivial⟩

/-- A record with a complex number and an array of shorts: whoever can read its default dtype is this type. -/
def tagged : Ty := .record (.cons ['z'] (.complex .f64) (.cons ['k'] (.array 2 (.num .i16)) .nil))

example : ∃ d, tagged.defaultDType ⟨true, 64, false⟩ = some (.ok d) ∧
    ∀ (u : Ty) (M' : Machine), Exact u → M'.Wf → (∃ p, u.reader M' d = .ok p) → u = tagged := by
  obtain ⟨d, e, -⟩ := C38_default (M := ⟨true, 64, false⟩) (.inr rfl) tagged ⟨trivial, ⟨by decide, trivial⟩, trivial⟩ _ rfl
  have h : tagged.defaultDType ⟨true, 64, false⟩ = some (.ok d) := congrArg some e
  exact ⟨d, h, fun u M' hu hM' h' =>
    C103_default (M := ⟨true, 64, false⟩) (.inr rfl) hM' ⟨trivial, trivial, trivial⟩ hu ⟨trivial, ⟨by decide, trivial⟩, trivial⟩ h h'⟩

/-- `twoFloats` can be read as floats, so it cannot be read as whole numbers of the same size. -/
example (f : NpyFile Src) (r : NpyReader f64.Val Src) (h : f.data ⟨false, 64, false⟩ f64 = .ok r) :
    ∃ e, f.data ⟨false, 64, false⟩ (.num .i64) = .err e :=
  (C103_refused (.inr rfl) h).2 trivial trivial (by intro h; cases h)

end Npyz.Props
