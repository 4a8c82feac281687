import Verif.Proofs.Errors
import Verif.Props.Read
/-!
Error messages: C71 (refused dtypes), C72 (refused type strings).
-/
namespace Npyz.Props
open Spec

/-! ### C71 -/

theorem swapNames_of {e : DTypeErr} (h : ∀ a b, e ≠ .wrongFields a b) : swapNames e = e := by
  cases e with
  | wrongFields a b => exact absurd rfl (h a b)
  | _ => rfl

/-- C71 (reading), except for the error about field names: the error of a refused dtype is true of some place inside
the element type and the dtype. -/
theorem C71_reader_partial (M : Machine) (t : Ty) (d : DType) {e : DTypeErr} (h : t.reader M d = .err e)
    (hn : ∀ a b, e ≠ .wrongFields a b) : Truthful M.usizeLim SuitsRead t d e := by
  have := reader_truthful M t d h
  rwa [swapNames_of hn] at this

/-- C71 (writing), except for the error about field names. -/
theorem C71_writer_partial (M : Machine) (t : Ty) (d : DType) {e : DTypeErr} (h : t.writer M d = .err e)
    (hn : ∀ a b, e ≠ .wrongFields a b) : Truthful M.usizeLim SuitsWrite t d e := by
  have := writer_truthful M t d h
  rwa [swapNames_of hn] at this

/-- C71: the error about field names always has the two lists exchanged: what it calls expected are the names in
the dtype, and what it calls found are those of the struct. -/
theorem C71_fields_swapped (M : Machine) (t : Ty) (d : DType) {a b : List Text} :
    (t.reader M d = .err (.wrongFields a b) → Truthful M.usizeLim SuitsRead t d (.wrongFields b a)) ∧
      (t.writer M d = .err (.wrongFields a b) → Truthful M.usizeLim SuitsWrite t d (.wrongFields b a)) :=
  ⟨fun h => reader_truthful M t d h, fun h => writer_truthful M t d h⟩

/-- C71 for opening an array: the same, or the dtype does contain Python objects. -/
theorem C71_data_partial {M : Machine} {σ : Type} {f : NpyFile σ} (ho : Opened M f.header) (t : Ty) {e : DTypeErr}
    (h : f.data M t = .err e) (hn : ∀ a b, e ≠ .wrongFields a b) :
    Truthful M.usizeLim SuitsRead t f.header.dtype e := by
  unfold NpyFile.data NpyFile.dataWith NpyHeader.forbidPickle at h
  by_cases hu : f.header.usesPickled = true
  · rw [if_pos hu] at h
    cases h
    refine ⟨t, _, .here, (usesPickled_iff _).mp ?_⟩
    rw [← (opened ho).2.2.1]
    exact hu
  · rw [if_neg hu] at h
    exact C71_reader_partial M t _ (bind_ok_err h) hn

/-- `struct { x: f64 }` and a file with the field `y`. -/
def ty71 : Ty := .record (.cons (txt "x") f64 .nil)
def d71 : DType := .record (.cons (txt "y") (.plain ⟨.little, .float, 8, none⟩) .nil)

/-- C71 is false of the code: for a struct with the field `x` and a file with the field `y` the message says that
`y` was expected and `x` found. -/
theorem C71_violated (M : Machine) :
    ∃ e, ty71.reader M d71 = .err e ∧ ¬ Truthful M.usizeLim SuitsRead ty71 d71 e ∧
      e.message (txt "read") (txt "T") = txt "field names do not match (expected [\"y\"], got [\"x\"])" := by
  refine ⟨.wrongFields [txt "y"] [txt "x"], rfl, ?_, by decide +kernel⟩
  rintro ⟨t', d', hw, ht⟩
  obtain ⟨-, ⟨fs, rfl, hf⟩, dfs, rfl, hd⟩ := ht
  unfold ty71 d71 at hw
  cases hw with
  | here => revert hf; decide
  | field hn _ _ => revert hn; decide

/-- C71_reader_partial, C71_writer_partial: an array of the wrong length, a record for a number. -/
example : Truthful (⟨false, 64, true⟩ : Machine).usizeLim SuitsRead (.array 2 f64) (.array 3 (.plain ⟨.little, .float, 8, none⟩)) (.wrongArrayLen 2 3) :=
  C71_reader_partial ⟨false, 64, true⟩ _ _ rfl (by intro a b h; cases h)
example : Truthful (⟨false, 64, true⟩ : Machine).usizeLim SuitsWrite f64 d71 (.expectedScalar d71.descr) :=
  C71_writer_partial ⟨false, 64, true⟩ _ _ rfl (by intro a b h; cases h)

/-- C71_data_partial: a file of doubles, read as booleans. -/
example : ∃ f : NpyFile Src, f.data ⟨false, 64, true⟩ .bool = .err (.badScalar ⟨.little, .float, 8, none⟩) ∧
    Truthful (⟨false, 64, true⟩ : Machine).usizeLim SuitsRead .bool f.header.dtype (.badScalar ⟨.little, .float, 8, none⟩) := by
  obtain ⟨f, r, h0, -, h2, -, -, -, h6⟩ := twoFloats_reader
  have h : f.data ⟨false, 64, true⟩ .bool = .err (.badScalar ⟨.little, .float, 8, none⟩) := by
    have hp := (data_ok_iff.mp h2).1
    unfold NpyFile.data NpyFile.dataWith
    rw [h6]
    simp only [NpyHeader.forbidPickle, hp, Bool.false_eq_true, if_false, Out.bind_ok]
    rfl
  exact ⟨f, h, C71_data_partial h0 .bool h (by intro a b h; cases h)⟩

/-- C71 holds of the other errors in concrete cases: a struct field of the wrong kind inside an array. -/
example : (Ty.array 2 ty71).reader ⟨false, 64, true⟩ (.array 2 (.record (.cons (txt "x") (.plain ⟨.little, .int, 4, none⟩) .nil)))
    = .err (.badScalar ⟨.little, .int, 4, none⟩) := rfl
example : (Ty.array 2 f64).reader ⟨false, 64, true⟩ (.array 3 (.plain ⟨.little, .float, 8, none⟩)) = .err (.wrongArrayLen 2 3) := rfl
example : (DTypeErr.wrongArrayLen 2 3).message [] [] = txt "wrong array size (expected 2, got 3)" := by decide +kernel
example : f64.writer ⟨false, 64, true⟩ d71 = .err (.expectedScalar d71.descr) := rfl
example : d71.descr = txt "[('y', '<f8'), ]" := by decide +kernel
example : Ty.string.reader ⟨false, 32, true⟩ (.plain ⟨.irrelevant, .byteStr, 2 ^ 32, none⟩) = .err (.usizeOverflow (2 ^ 32)) := rfl

theorem canReadFields_names : {fs : TFields} → {dfs : Fields} → CanReadFields fs dfs → fs.names = dfs.names
  | fs, .nil, h => by unfold CanReadFields at h; subst h; rfl
  | fs, .cons name d dfs, h => by
    unfold CanReadFields at h
    obtain ⟨t, rest, rfl, -, h⟩ := h
    simp only [TFields.names, Fields.names, canReadFields_names h]

/-- A true error excludes reading: the place it points at is one where type and dtype do not go together. -/
theorem C71_excludes {lim : Nat} {t : Ty} {d : DType} {e : DTypeErr} (hd : ¬ HasObject d) (hf : SizesFit lim d)
    (h : TrueOf lim SuitsRead t d e) : ¬ CanRead t d := by
  cases e with
  | expectedScalar text =>
    obtain ⟨⟨h1, h2⟩, h3, -⟩ := h
    cases d with
    | plain s => exact absurd rfl (h3 s)
    | array n d => unfold CanRead; rintro ⟨t', rfl, -⟩; exact h1 n t' rfl
    | record dfs => unfold CanRead; rintro ⟨fs, rfl, -⟩; exact h2 fs rfl
  | expectedArray got =>
    obtain ⟨⟨n, t', rfl⟩, ⟨-, s, rfl⟩ | ⟨-, fs, rfl⟩⟩ := h
    · unfold CanRead; exact id
    · unfold CanRead; rintro ⟨fs', h, -⟩; cases h
  | wrongArrayLen a b =>
    obtain ⟨hne, ⟨t', rfl⟩, d', rfl⟩ := h
    unfold CanRead; rintro ⟨t'', h, -⟩; cases h; exact hne rfl
  | expectedRecord text =>
    obtain ⟨⟨fs, rfl⟩, h3, -⟩ := h
    cases d with
    | plain s => unfold CanRead; exact id
    | array n d => unfold CanRead; rintro ⟨t', h, -⟩; cases h
    | record dfs => exact absurd rfl (h3 dfs)
  | wrongFields a b =>
    obtain ⟨hne, ⟨fs, rfl, rfl⟩, dfs, rfl, rfl⟩ := h
    unfold CanRead; rintro ⟨fs', h, hr⟩; cases h
    exact hne (canReadFields_names hr)
  | badScalar s =>
    obtain ⟨-, rfl, h⟩ := h
    unfold CanRead; exact h
  | usizeOverflow x =>
    obtain ⟨s, rfl, rfl, h⟩ := h
    unfold SizesFit at hf
    omega
  | requiresPickle => exact absurd h hd

example : ¬ CanRead .bool (.plain ⟨.little, .float, 8, none⟩) :=
  C71_excludes (lim := 2 ^ 64) (e := .badScalar ⟨.little, .float, 8, none⟩) (by intro h; cases h with | plain h => cases h) (fits (by decide))
    ⟨by simp [ScalarTy], rfl, by simp [SuitsRead, scalarAccepts]⟩

/-! ### C72 -/

/-- C72: whenever a text is refused as a type string, displaying the error does not panic, and the message tells what
is wrong with the text. -/
theorem C72_explained {s : Text} {e : TypeStrErr} (h : TypeStr.parse s = .err e) :
    ∃ m, e.message = .ok m ∧ Explained s m := parse_err_explained h

/-- C72: every text that is not a type string is refused so. -/
theorem C72_all_refused (s : Text) (h : ∀ t, ¬ Spells s t) :
    ∃ e m, TypeStr.parse s = .err e ∧ e.message = .ok m ∧ Explained s m := by
  rcases hp : TypeStr.parse s with t | e | _
  · exact absurd ((parse_ok_iff _ _).mp hp) (h t)
  · obtain ⟨m, hm⟩ := C72_explained hp
    exact ⟨e, m, rfl, hm⟩
  · exact absurd hp (parse_ne_panic s)

/-- C72: the explanation excludes acceptance. -/
theorem C72_excludes {s m : Text} (h : Explained s m) (t : TypeStr) : ¬ Spells s t := by
  intro hs
  have hp := (parse_ok_iff _ _).mpr hs
  have hform : HasForm s t := by
    obtain ⟨e, c, ds, us, h1, h2, h3, h4, h5, -⟩ := hs
    exact ⟨e, c, ds, us, h1, h2, h3, h4, h5⟩
  have key : ∀ t', HasForm s t' → Valid t' := by
    intro t' hf
    have := (hasForm_parse hf).symm.trans hp
    have := (validate_ok_iff _ _).mp this
    exact this.2
  cases h with
  | noForm h => exact h t hform
  | huge h => rw [hugeSize_parse h] at hp; cases hp
  | order hf ho hi => exact (key _ hf).order_given ho hi
  | size hf hn => exact hn (key _ hf).size_allowed
  | missing hf ht hu =>
    obtain ⟨u, h⟩ := (key _ hf).units_iff.mpr ht
    rw [hu] at h; cases h
  | unexpected hf ht hu => exact ht ((key _ hf).units_iff.mp ⟨_, hu⟩)

/-- C72_explained, C72_all_refused. -/
example : ∃ e m, TypeStr.parse (txt "<i3") = .err e ∧ e.message = .ok m ∧ Explained (txt "<i3") m := by
  cases h : TypeStr.parse (txt "<i3") with
  | err e => obtain ⟨m, h1, h2⟩ := C72_explained h; exact ⟨e, m, rfl, h1, h2⟩
  | ok t => exact absurd h (by intro h; have : (match TypeStr.parse (txt "<i3") with | .ok _ => true | _ => false) = false := by decide +kernel
                               rw [h] at this; cases this)
  | panic => exact absurd h (by intro h; have : (match TypeStr.parse (txt "<i3") with | .panic => true | _ => false) = false := by decide +kernel
                                rw [h] at this; cases this)

example : ∃ e m, TypeStr.parse (txt "hello") = .err e ∧ e.message = .ok m ∧ Explained (txt "hello") m := by
  refine C72_all_refused _ fun t ht => ?_
  have h : (match TypeStr.parse (txt "hello") with | .ok _ => true | _ => false) = false := by decide +kernel
  rw [(parse_ok_iff _ _).mpr ht] at h
  cases h

example : (TypeStr.parse (txt "<i3")).mapErr TypeStrErr.message = .err (.ok (txt "Type string '<i3' has invalid size. Valid sizes are: [1, 2, 4, 8]")) := by
  decide +kernel
example : (TypeStr.parse (txt "|f8")).mapErr TypeStrErr.message = .err (.ok (txt "Type string '|f8' has invalid endianness")) := by
  decide +kernel
example : (TypeStr.parse (txt "<M8")).mapErr TypeStrErr.message = .err (.ok (txt "Type string '<M8' is missing time units.")) := by
  decide +kernel
example : (TypeStr.parse (txt "<f8[ns]")).mapErr TypeStrErr.message = .err (.ok (txt "Unexpected time units in type string '<f8[ns]'.")) := by
  decide +kernel
example : (TypeStr.parse (txt "|S99999999999999999999")).mapErr TypeStrErr.message = .err (.ok (txt "number too large to fit in target type")) := by
  decide +kernel
example : (TypeStr.parse (txt "hello")).mapErr TypeStrErr.message = .err (.ok (txt "Invalid type-string")) := by
  decide +kernel

end Npyz.Props
