import Verif.Spec.Npz
import Verif.Proofs.Npz
/-! Writing several arrays. -/
namespace Npyz
open Spec Py

/-- Writing one array appends one member. -/
theorem Entry.save_members (M : Machine) (e : Entry) (z : NpzWriter) :
    ∃ c, (e.save M z).2 = ⟨z.members ++ [(fileNameFromArrayName e.name, c)]⟩ := by
  obtain ⟨c, -, h⟩ := zip_save (M := M) (t := e.ty) (d := e.dtype) (o := e.order) (hint := .nd e.dims) (vs := e.values) (z := z) (name := e.name)
  exact ⟨c, h⟩

theorem saveAll_members (M : Machine) : ∀ (es : List Entry) (z : NpzWriter),
    ∃ ms, (saveAll M es z).2 = ⟨z.members ++ ms⟩ ∧ ms.map (·.1) = es.map fun e => fileNameFromArrayName e.name := by
  intro es
  induction es with
  | nil => intro z; exact ⟨[], by simp [saveAll], rfl⟩
  | cons e es ih =>
    intro z
    obtain ⟨c, hc⟩ := Entry.save_members M e z
    obtain ⟨ms, h1, h2⟩ := ih (e.save M z).2
    refine ⟨(fileNameFromArrayName e.name, c) :: ms, ?_, by simp [h2]⟩
    show (saveAll M es (e.save M z).2).2 = _
    rw [h1, hc]
    simp

/-- Members with other names do not matter. -/
theorem find_skip (ms : List (Text × Bytes)) (file : Text) (extra : List (Text × Bytes)) (h : ∀ m ∈ extra, m.1 ≠ file) :
    (NpzArchive.mk (ms ++ extra)).find file = (NpzArchive.mk ms).find file := by
  unfold NpzArchive.find
  have : List.find? (fun m => m.1 == file) extra.reverse = none := by
    rw [List.find?_eq_none]
    intro m hm
    simpa using h m (List.mem_reverse.mp hm)
  simp only [List.reverse_append, List.find?_append, this, Option.none_or]

theorem map_ne {ms : List (Text × Bytes)} {es : List Entry} {name : Text}
    (h : ms.map (·.1) = es.map fun e => fileNameFromArrayName e.name) (hn : ∀ e ∈ es, e.name ≠ name) :
    ∀ m ∈ ms, m.1 ≠ fileNameFromArrayName name := by
  intro m hm e
  have : m.1 ∈ ms.map (·.1) := List.mem_map_of_mem hm
  rw [h] at this
  obtain ⟨x, hx, h'⟩ := List.mem_map.mp this
  exact hn x hx (fileName_inj (h'.trans e))

/-- What `openMember` gives for a file that reads back. -/
theorem openMember_reads {M : Machine} {py : PyParser} {t : Ty} {c : Bytes} {d : DType} {shape : List Nat} {o : Order} {vs : List t.Val}
    (h : ReadsBack M py t c 0 d shape o vs) :
    ∃ f, NpzArchive.openMember M py c = .ok (some f) ∧ f.header.dtype = d ∧ f.header.shape = shape ∧ f.header.order = o ∧
      (f.intoVec M disk t).1 = .ok vs := by
  obtain ⟨f, h1, h2⟩ := h
  refine ⟨f, ?_, h2⟩
  unfold NpzArchive.openMember
  rw [h1]

end Npyz
