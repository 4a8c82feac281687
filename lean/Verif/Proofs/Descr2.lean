import Verif.Proofs.Header
import Verif.Spec.Descr
/-!
Reading descriptions: `DType.fromDescr` and the relation `Describes`.
-/
namespace Npyz
open Spec

theorem arrayOf_iff {dims : List Nat} {d e : DType} : ArrayOf dims d e ↔ e = wrapDims dims d := by
  constructor
  · intro h
    induction h with
    | nil => rfl
    | cons _ ih => rw [ih]; rfl
  · rintro rfl
    induction dims with
    | nil => exact .nil
    | cons n ns ih => exact .cons ih

theorem isShape_iff {v : PyVal} {dims : List Nat} : IsShape v dims ↔ convertShape v = .ok dims := by
  rw [convertShape_ok_iff, IsShape, or_comm]

theorem spells_convert {s : Text} {t : TypeStr} : Spells s t ↔ convertTypeStr s = .ok t := by
  rw [convertTypeStr_ok, parse_ok_iff]

theorem fieldName_ok {v : PyVal} {n : Text} (h : fieldName v = .ok n) : v = .str n := by
  cases v <;> simp [fieldName] at h
  rw [h]

mutual
theorem fromDescr_sound : (v : PyVal) → (d : DType) → DType.fromDescr v = .ok d → Describes v d
  | .str s, d, h => by
    simp only [DType.fromDescr, Out.bind_eq_ok, Out.ok.injEq] at h
    obtain ⟨t, ht, rfl⟩ := h
    exact .plain (spells_convert.mpr ht)
  | .list vs, d, h => by
    simp only [DType.fromDescr, Out.bind_eq_ok, Out.ok.injEq] at h
    obtain ⟨fs, hfs, rfl⟩ := h
    exact .record (fromList_sound vs fs hfs)
  | .int _, _, h | .bool _, _, h | .none, _, h | .tuple _, _, h | .dict _, _, h | .other, _, h => by
    simp [DType.fromDescr] at h
theorem fromList_sound : (vs : List PyVal) → (fs : Fields) → Fields.fromList vs = .ok fs → DescribesFields vs fs
  | [], fs, h => by
    simp only [Fields.fromList, Out.ok.injEq] at h
    subst h; exact .nil
  | v :: vs, fs, h => by
    simp only [Fields.fromList, Out.bind_eq_ok, Out.ok.injEq] at h
    obtain ⟨f, hf, fs', hfs, rfl⟩ := h
    exact .cons (fieldFromVal_sound v f hf) (fromList_sound vs fs' hfs)
theorem fieldFromVal_sound : (v : PyVal) → (f : Text × DType) → fieldFromVal v = .ok f → DescribesField v f.1 f.2
  | .list t, f, h => by simp only [fieldFromVal] at h; exact fieldFromTuple_sound t f h _ (.inl rfl)
  | .tuple t, f, h => by simp only [fieldFromVal] at h; exact fieldFromTuple_sound t f h _ (.inr rfl)
  | .int _, _, h | .bool _, _, h | .none, _, h | .str _, _, h | .dict _, _, h | .other, _, h => by
    simp [fieldFromVal] at h
theorem fieldFromTuple_sound : (vs : List PyVal) → (f : Text × DType) → fieldFromTuple vs = .ok f →
    ∀ v, IsSequence v vs → DescribesField v f.1 f.2
  | [n, d], f, h, v, hv => by
    simp only [fieldFromTuple, Out.bind_eq_ok, Out.ok.injEq] at h
    obtain ⟨nm, hn, dt, hdt, rfl⟩ := h
    rw [fieldName_ok hn] at hv
    exact .single hv (fromDescr_sound d dt hdt)
  | [n, d, s], f, h, v, hv => by
    simp only [fieldFromTuple, Out.bind_eq_ok, Out.ok.injEq] at h
    obtain ⟨nm, hn, dt, hdt, sh, hsh, rfl⟩ := h
    rw [fieldName_ok hn] at hv
    exact .array hv (fromDescr_sound d dt hdt) (isShape_iff.mpr hsh) (arrayOf_iff.mpr rfl)
  | [], _, h, _, _ => by simp [fieldFromTuple] at h
  | [_], _, h, _, _ => by simp [fieldFromTuple] at h
  | _ :: _ :: _ :: _ :: _, _, h, _, _ => by simp [fieldFromTuple] at h
end

mutual
theorem fromDescr_complete {v : PyVal} {d : DType} : Describes v d → DType.fromDescr v = .ok d
  | .plain h => by simp [DType.fromDescr, spells_convert.mp h]
  | .record h => by simp [DType.fromDescr, fromList_complete h]
theorem fromList_complete {vs : List PyVal} {fs : Fields} : DescribesFields vs fs → Fields.fromList vs = .ok fs
  | .nil => by simp [Fields.fromList]
  | .cons h1 h2 => by simp [Fields.fromList, fieldFromVal_complete h1, fromList_complete h2]
theorem fieldFromVal_complete {v : PyVal} {name : Text} {d : DType} : DescribesField v name d → fieldFromVal v = .ok (name, d)
  | .single hv h => by
    rcases hv with rfl | rfl <;> simp [fieldFromVal, fieldFromTuple, fieldName, fromDescr_complete h]
  | .array hv h hs ha => by
    rw [arrayOf_iff.mp ha]
    rcases hv with rfl | rfl <;> simp [fieldFromVal, fieldFromTuple, fieldName, fromDescr_complete h, isShape_iff.mp hs]
end

theorem fromDescr_ok_iff {v : PyVal} {d : DType} : DType.fromDescr v = .ok d ↔ Describes v d :=
  ⟨fromDescr_sound v d, fromDescr_complete⟩

/-- Every error is an `InvalidData` error. -/
def OnlyInvalid {α : Type} (x : Res α) : Prop := ∀ e, x = .err e → ∃ msg, e = .invalidData msg

theorem onlyInvalid_bind {α β : Type} {x : Res α} {f : α → Res β} (hx : OnlyInvalid x) (hf : ∀ a, OnlyInvalid (f a)) :
    OnlyInvalid (x >>= f) := by
  intro e h
  cases x with
  | ok a => exact hf a e h
  | err e' => simp at h; subst h; exact hx _ rfl
  | panic => simp at h

theorem onlyInvalid_ok {α : Type} {a : α} : OnlyInvalid (.ok a : Res α) := by intro e h; cases h

theorem shapeInteger_invalid (v : PyVal) : OnlyInvalid (shapeInteger v) := by
  intro e h
  cases v with
  | int n =>
    simp only [shapeInteger] at h
    by_cases h1 : n < 0
    · rw [if_pos h1] at h; cases h; exact ⟨_, rfl⟩
    · rw [if_neg h1] at h
      by_cases h2 : n.toNat < u64Lim
      · rw [if_pos h2] at h; cases h
      · rw [if_neg h2] at h; cases h; exact ⟨_, rfl⟩
  | _ => simp [shapeInteger] at h; exact ⟨_, h.symm⟩

theorem shapeIntegers_invalid : (vs : List PyVal) → OnlyInvalid (shapeIntegers vs)
  | [] => by intro e h; simp [shapeIntegers] at h
  | v :: vs => by
    simp only [shapeIntegers]
    exact onlyInvalid_bind (shapeInteger_invalid v) fun _ => onlyInvalid_bind (shapeIntegers_invalid vs) fun _ => onlyInvalid_ok

theorem convertShape_invalid (v : PyVal) : OnlyInvalid (convertShape v) := by
  cases v with
  | list vs => exact shapeIntegers_invalid vs
  | tuple vs => exact shapeIntegers_invalid vs
  | _ => intro e h; simp [convertShape] at h; exact ⟨_, h.symm⟩

theorem convertTypeStr_invalid (s : Text) : OnlyInvalid (convertTypeStr s) := by
  intro e h
  unfold convertTypeStr at h
  cases h1 : TypeStr.parse s with
  | ok t => rw [h1] at h; cases h
  | panic => rw [h1] at h; cases h
  | err e' =>
    rw [h1] at h
    cases h2 : e'.message <;> simp [h2] at h
    exact ⟨_, h.symm⟩

theorem fieldName_invalid (v : PyVal) : OnlyInvalid (fieldName v) := by
  intro e h
  cases v <;> simp [fieldName] at h <;> exact ⟨_, h.symm⟩

mutual
theorem fromDescr_invalid : (v : PyVal) → OnlyInvalid (DType.fromDescr v)
  | .str s => by
    simp only [DType.fromDescr]
    exact onlyInvalid_bind (convertTypeStr_invalid s) fun _ => onlyInvalid_ok
  | .list vs => by
    simp only [DType.fromDescr]
    exact onlyInvalid_bind (fromList_invalid vs) fun _ => onlyInvalid_ok
  | .int _ | .bool _ | .none | .tuple _ | .dict _ | .other => by
    intro e h; simp [DType.fromDescr] at h; exact ⟨_, h.symm⟩
theorem fromList_invalid : (vs : List PyVal) → OnlyInvalid (Fields.fromList vs)
  | [] => by intro e h; simp [Fields.fromList] at h
  | v :: vs => by
    simp only [Fields.fromList]
    exact onlyInvalid_bind (fieldFromVal_invalid v) fun _ => onlyInvalid_bind (fromList_invalid vs) fun _ => onlyInvalid_ok
theorem fieldFromVal_invalid : (v : PyVal) → OnlyInvalid (fieldFromVal v)
  | .list t => by simpa only [fieldFromVal] using fieldFromTuple_invalid t
  | .tuple t => by simpa only [fieldFromVal] using fieldFromTuple_invalid t
  | .int _ | .bool _ | .none | .str _ | .dict _ | .other => by
    intro e h; simp [fieldFromVal] at h; exact ⟨_, h.symm⟩
theorem fieldFromTuple_invalid : (vs : List PyVal) → OnlyInvalid (fieldFromTuple vs)
  | [n, d] => by
    simp only [fieldFromTuple]
    exact onlyInvalid_bind (fieldName_invalid n) fun _ => onlyInvalid_bind (fromDescr_invalid d) fun _ => onlyInvalid_ok
  | [n, d, s] => by
    simp only [fieldFromTuple]
    exact onlyInvalid_bind (fieldName_invalid n) fun _ => onlyInvalid_bind (fromDescr_invalid d) fun _ =>
      onlyInvalid_bind (convertShape_invalid s) fun _ => onlyInvalid_ok
  | [] | [_] | _ :: _ :: _ :: _ :: _ => by intro e h; simp [fieldFromTuple] at h; exact ⟨_, h.symm⟩
end

end Npyz
