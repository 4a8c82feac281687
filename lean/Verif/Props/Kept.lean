import Verif.Props.Failed
import Verif.Proofs.Kept
/-!
C112: exactly which values come back unchanged from a file; and C37 for nested types.

`Kept t d v` and `UnicodeArrayString t d` are in `Verif/Spec/Kept.lean`.
-/
namespace Npyz.Props
set_option autoImplicit false
open Npyz Spec Py

variable {M M' : Machine} {py : PyParser} {t : Ty} {d : DType} {size : Nat} {o : Order} {hint : ShapeHint}

/-- What C112 assumes of the dtype, of the shape and of the machine on which the file is read. -/
structure Fine (M M' : Machine) (t : Ty) (d : DType) (size : Nat) (o : Order) (hint : ShapeHint) : Prop where
  machine : M'.Wf
  wf : d.Wf
  exact : exactBytes d = some size
  small : size ≤ M.isizeMax
  small' : size ≤ M'.isizeMax
  fits : AllFit M'.usizeLim d
  read : ∃ p, t.reader M' d = .ok p
  dims : ∀ dims, hint = .nd dims → (∀ k ∈ dims, k < 2 ^ 64) ∧ nonzeroProd dims < 2 ^ 64
  record : ∀ r, hint = .twoD r → r < 2 ^ 64
  memory : dictBytes d o hint + 76 ≤ M'.isizeMax

theorem saved_reads (hF : Fine M M' t d size o hint) (hpy : py.ExtendsRef) {vs : List t.Val} (hc : vs.length < 2 ^ 64) {s s' : Sink}
    (hroom : s.pos + dictBytes d o hint + 76 ≤ 2 ^ 64) (h : NpyWriter.save M solid t d o hint vs s = (.ok (), s')) :
    ReadsBack M' py t s'.data s.pos d (finalShape o vs.length hint) o (vs.map (readBack t d)) := by
  obtain ⟨p, hp⟩ := hF.read
  obtain ⟨items, he, rfl, h1, h2, h3, h4, -⟩ := save_ok hF.wf hF.exact hF.small hc (fun _ => hroom) h
  have hfit : CountFits vs.length hint := by
    cases hint with
    | nd dims =>
      have h3 := h3 dims rfl
      rw [shapeProduct_exact (acc := 1) (by simpa using (hF.dims dims rfl).2), Out.ok.injEq, Nat.one_mul] at h3
      exact h3.symm
    | oneD => trivial
    | twoD r => exact (h4 r rfl).2
  exact final_reads hF.machine hpy hF.wf hp hF.exact hF.small' hF.fits hc hfit hF.dims hF.record hF.memory h1 h2 he s

theorem readsBack_unique {data : Bytes} {pos : Nat} {d d' : DType} {shape shape' : List Nat} {o o' : Order} {vs ws : List t.Val}
    (h : ReadsBack M' py t data pos d shape o vs) (h' : ReadsBack M' py t data pos d' shape' o' ws) :
    d' = d ∧ shape' = shape ∧ o' = o ∧ ws = vs := by
  obtain ⟨f, h0, h1, h2, h3, h4⟩ := h
  obtain ⟨f', g0, g1, g2, g3, g4⟩ := h'
  have := Out.ok.inj (g0.symm.trans h0)
  subst this
  exact ⟨g1.symm.trans h1, g2.symm.trans h2, g3.symm.trans h3, Out.ok.inj (g4.symm.trans h4)⟩

/-- C112: the values that are read from a file are the values that were saved in it if and only if they are all `Kept`; and the ones that
are `Kept` come back unchanged whatever the others are. -/
theorem C112_unchanged_iff (hF : Fine M M' t d size o hint) (hpy : py.ExtendsRef) {vs : List t.Val} (hc : vs.length < 2 ^ 64) {s s' : Sink}
    (hroom : s.pos + dictBytes d o hint + 76 ≤ 2 ^ 64) (h : NpyWriter.save M solid t d o hint vs s = (.ok (), s')) :
    ∃ ws, ReadsBack M' py t s'.data s.pos d (finalShape o vs.length hint) o ws ∧ ws.length = vs.length ∧
      (ws = vs ↔ ∀ v ∈ vs, Kept t d v) ∧ ∀ (i : Nat) v, vs[i]? = some v → (ws[i]? = some v ↔ Kept t d v) := by
  have hcan := ((reader_ok_iff hF.machine t d).mp hF.read).1
  refine ⟨_, saved_reads hF hpy hc hroom h, by simp, ?_, fun i v hi => ?_⟩
  · rw [map_eq_self_iff]
    exact ⟨fun h v hv => (readBack_eq_iff t d hcan v).mp (h v hv), fun h v hv => (readBack_eq_iff t d hcan v).mpr (h v hv)⟩
  · rw [List.getElem?_map, hi, Option.map_some, Option.some.injEq]
    exact readBack_eq_iff t d hcan v

/-- C112: what was lost once is not lost again: whatever was read from a file that the crate has saved comes back unchanged when it is saved
again with the same dtype. -/
theorem C112_second_time {M1 M2 M3 : Machine} {o2 : Order} {hint2 : ShapeHint} (hF : Fine M M1 t d size o hint) (hF2 : Fine M2 M3 t d size o2 hint2)
    (hpy : py.ExtendsRef) {vs ws : List t.Val} (hc : vs.length < 2 ^ 64) {s s' z z' : Sink} (hroom : s.pos + dictBytes d o hint + 76 ≤ 2 ^ 64)
    (hroom2 : z.pos + dictBytes d o2 hint2 + 76 ≤ 2 ^ 64) (h : NpyWriter.save M solid t d o hint vs s = (.ok (), s'))
    {d' : DType} {shape : List Nat} {o' : Order} (hr : ReadsBack M1 py t s'.data s.pos d' shape o' ws)
    (h2 : NpyWriter.save M2 solid t d o2 hint2 ws z = (.ok (), z')) :
    ReadsBack M3 py t z'.data z.pos d (finalShape o2 ws.length hint2) o2 ws := by
  obtain ⟨-, -, -, rfl⟩ := readsBack_unique (saved_reads hF hpy hc hroom h) hr
  have := saved_reads hF2 hpy (by simpa using hc) hroom2 h2
  rw [show (vs.map (readBack t d)).map (readBack t d) = vs.map (readBack t d) by
    rw [List.map_map]; exact List.map_congr_left fun v _ => readBack_idem t d v] at this
  exact this

/-- C112: numbers, Booleans and fixed numbers of raw bytes are always kept; so the only types that can lose anything are the ones with
strings or `ArrayVec`s inside. -/
theorem C112_numbers (ht : Exact t) (hcan : CanRead t d) (v : t.Val) : Kept t d v :=
  (readBack_eq_iff t d hcan v).mp (readBack_exact t d v ht)

/-- Whether an operation succeeded. -/
def succeeds : Res Unit → Bool
  | .ok _ => true
  | _ => false

def threeSave (s : Sink) (l : List Text) : Res Unit × Sink := NpyWriter.save box solid .string threeUnits .c .oneD l s

theorem three_fine : Fine box box .string threeUnits 12 .c .oneD := by
  have hw : box.Wf := .inr rfl
  refine ⟨hw, wf_of_parse (s := "<U3".toList) (by decide), rfl, by decide, by decide, ?_, ?_, by simp, by simp, by decide +kernel⟩
  · intro n hn; cases hn; decide
  · exact (reader_ok_iff hw _ _).mpr ⟨.inr rfl, (by decide : 3 < box.usizeLim)⟩

theorem three_saved (l : List Text) (h : succeeds (threeSave ⟨[], 0, true⟩ l).1 = true) : ∃ s s' : Sink, s.pos = 0 ∧ threeSave s l = (.ok (), s') := by
  rcases hx : threeSave ⟨[], 0, true⟩ l with ⟨(⟨⟩ | e | _), s'⟩
  · exact ⟨_, s', rfl, hx⟩
  · rw [hx] at h; cases h
  · rw [hx] at h; cases h

/-- C112_unchanged_iff: two strings, the second of which ends with a NUL. -/
example : ∃ (s s' : Sink) (ws : List Text), threeSave s ["ab".toList, "a\x00".toList] = (.ok (), s') ∧
    ReadsBack box Py.parse .string s'.data s.pos threeUnits [2] .c ws ∧ ws[0]? = some "ab".toList ∧ ws ≠ ["ab".toList, "a\x00".toList] := by
  obtain ⟨s, s', h0, h⟩ := three_saved ["ab".toList, "a\x00".toList] (by decide +kernel)
  obtain ⟨ws, h1, -, h2, h3⟩ := C112_unchanged_iff three_fine (py := Py.parse) (fun _ _ h => h) (by decide) (by rw [h0]; decide +kernel) h
  refine ⟨s, s', ws, h, h1, (h3 0 _ rfl).mpr ?_, fun e => ?_⟩
  · intro init h
    have := congrArg List.getLast? h
    simp at this
  · exact h2.mp e "a\x00".toList (.tail _ (.head _)) ['a'] rfl

/-- C112_second_time: what was read, written once more. -/
example : ∃ (s s' : Sink) (ws : List Text), threeSave s ["ab".toList, "a\x00".toList] = (.ok (), s') ∧
    ReadsBack box Py.parse .string s'.data s.pos threeUnits [2] .c ws ∧
    ∀ z z' : Sink, z.pos = 0 → threeSave z ws = (.ok (), z') → ReadsBack box Py.parse .string z'.data z.pos threeUnits [ws.length] .c ws := by
  obtain ⟨s, s', h0, h⟩ := three_saved ["ab".toList, "a\x00".toList] (by decide +kernel)
  obtain ⟨ws, h1, -, h2, h3⟩ := C112_unchanged_iff three_fine (py := Py.parse) (fun _ _ h => h) (by decide) (by rw [h0]; decide +kernel) h
  exact ⟨s, s', ws, h, h1, fun z z' hz h2 => C112_second_time three_fine three_fine (py := Py.parse) (fun _ _ h => h) (by decide)
    (by rw [h0]; decide +kernel) (by rw [hz]; decide +kernel) h h1 h2⟩

/-- The hypotheses are met by an array of strings `<U3`; the first of the two strings comes back, the second one not. -/
example : Fine box box .string threeUnits 12 .c .oneD ∧ Kept .string threeUnits "ab".toList ∧ ¬ Kept .string threeUnits "a\x00".toList ∧
    succeeds (NpyWriter.save box solid .string threeUnits .c .oneD (["ab".toList, "a\x00".toList] : List Text) ⟨[], 0, true⟩).1 = true := by
  have hw : box.Wf := .inr rfl
  refine ⟨⟨hw, wf_of_parse (s := "<U3".toList) (by decide), rfl, by decide, by decide, ?_, ?_, by simp, by simp, by decide +kernel⟩, ?_, ?_, by decide +kernel⟩
  · intro n hn; cases hn; decide
  · exact (reader_ok_iff hw _ _).mpr ⟨.inr rfl, (by decide : 3 < box.usizeLim)⟩
  · intro init h
    have := congrArg List.getLast? h
    simp at this
  · exact fun h => h ['a'] rfl

/-! ### C37 for nested types -/

/-- C37: whatever can be written can be read, however deep it is nested, if and only if no `ArrayString` in it is stored as Unicode. -/
theorem C37_write_read_iff (hM : M.Wf) {d : DType} (h : ∃ w, t.writer M d = .ok w) :
    (∃ p, t.reader M d = .ok p) ↔ ¬ UnicodeArrayString t d := by
  obtain ⟨h1, h2⟩ := (writer_ok_iff hM t d).mp h
  rw [reader_ok_iff hM, canRead_iff_canWrite]
  exact ⟨fun h => h.1.2, fun h => ⟨⟨h1, h⟩, h2⟩⟩

example : CanWrite (.array 2 (.arrayString 3)) (.array 2 threeUnits) ∧ UnicodeArrayString (.array 2 (.arrayString 3)) (.array 2 threeUnits) ∧
    CanWrite (.array 2 .string) (.array 2 threeUnits) ∧ ¬ UnicodeArrayString (.array 2 .string) (.array 2 threeUnits) := by
  refine ⟨⟨_, rfl, .inr rfl⟩, ?_, ⟨_, rfl, .inl (.inr rfl)⟩, ?_⟩ <;> simp [UnicodeArrayString, threeUnits]

end Npyz.Props
