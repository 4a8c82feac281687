import Verif.Spec.Archive
import Verif.Props.Npz
import Verif.Props.Sparse
/-!
C106: the order of the members of an archive, and other members, do not matter.
-/
namespace Npyz.Props
set_option autoImplicit false
open Npyz.Spec
open Npyz.Sparse

variable {M : Machine} {py : PyParser} {t : Ty} {a b : NpzArchive}

theorem find_some_iff {ms : List (Text × Bytes)} (hn : (ms.map (·.1)).Nodup) {file : Text} {c : Bytes} :
    (NpzArchive.mk ms).find file = some c ↔ (file, c) ∈ ms := by
  unfold NpzArchive.find
  rw [Option.map_eq_some_iff]
  constructor
  · rintro ⟨m, h, rfl⟩
    have h1 := List.mem_reverse.mp (List.mem_of_find?_eq_some h)
    have h2 := List.find?_some h
    simp only [beq_iff_eq] at h2
    rw [← h2]
    exact h1
  · intro h
    induction ms with
    | nil => cases h
    | cons x ms ih =>
      rw [List.map_cons, List.nodup_cons] at hn
      rw [List.reverse_cons, List.find?_append]
      rcases List.mem_cons.mp h with rfl | h
      · have : List.find? (fun m => m.1 == file) ms.reverse = none := by
          rw [List.find?_eq_none]
          intro m hm
          simp only [beq_iff_eq]
          intro e
          exact hn.1 (List.mem_map.mpr ⟨m, List.mem_reverse.mp hm, e⟩)
        rw [this]
        exact ⟨(file, c), by simp, rfl⟩
      · obtain ⟨m, h1, h2⟩ := ih hn.2 h
        exact ⟨m, by rw [h1]; rfl, h2⟩

theorem find_named {files : List Text} {file : Text} (h : file ∈ files) (a : NpzArchive) : (NpzArchive.mk (named files a)).find file = a.find file := by
  unfold NpzArchive.find named
  rw [← List.filter_reverse, List.find?_filter]
  congr 2
  funext m
  by_cases e : m.1 = file
  · simp [e, h]
  · simp [e]

theorem find_perm {ms ms' : List (Text × Bytes)} (hp : ms.Perm ms') (hn : (ms.map (·.1)).Nodup) (file : Text) :
    (NpzArchive.mk ms).find file = (NpzArchive.mk ms').find file := by
  have hn' : (ms'.map (·.1)).Nodup := (hp.map _).nodup_iff.mp hn
  apply Option.ext
  intro c
  rw [find_some_iff hn, find_some_iff hn', hp.mem_iff]

theorem find_same {files : List Text} (h : SameMembers files a b) {file : Text} (hf : file ∈ files) : a.find file = b.find file := by
  rw [← find_named hf a, ← find_named hf b]
  exact find_perm h.same h.once file

/-- C106: an array is found and read alike in archives that hold the same arrays. -/
theorem C106_by_name (h : SameContents a b) (name : Text) : a.byName M py name = b.byName M py name := by
  unfold NpzArchive.byName
  rw [show a.find (fileNameFromArrayName name) = b.find (fileNameFromArrayName name) from find_perm h.same h.once _]

/-- C106: for one array only this member matters. -/
theorem C106_one {name : Text} (h : SameMembers [name ++ txt ".npy"] a b) : a.byName M py name = b.byName M py name := by
  unfold NpzArchive.byName
  rw [find_same h (show fileNameFromArrayName name ∈ _ from List.mem_singleton.mpr rfl)]

theorem eraseDups_of_nodup : ∀ {l : List Text}, l.Nodup → l.eraseDups = l
  | [], _ => rfl
  | x :: l, h => by
    rw [List.nodup_cons] at h
    rw [List.eraseDups_cons, List.filter_eq_self.mpr, eraseDups_of_nodup h.2]
    intro y hy
    have : y ≠ x := fun e => h.1 (e ▸ hy)
    simpa using this

/-- C106: the same arrays are listed, the same number of times. -/
theorem C106_names (h : SameContents a b) : a.arrayNames.Perm b.arrayNames := by
  have hp := h.same.map (·.1)
  unfold NpzArchive.arrayNames NpzArchive.fileNames
  rw [eraseDups_of_nodup h.once, eraseDups_of_nodup (hp.nodup_iff.mp h.once)]
  exact hp.filterMap _

/-- C106: a sparse matrix is read from its members alone, wherever they are in the archive; this includes all failures. -/
theorem C106_sparse (h : SameMembers sparseFiles a b) : Sparse.fromNpz M py t a = Sparse.fromNpz M py t b ∧
    Coo.fromNpz M py t a = Coo.fromNpz M py t b ∧ Csr.fromNpz M py t a = Csr.fromNpz M py t b ∧ Csc.fromNpz M py t a = Csc.fromNpz M py t b ∧
    Dia.fromNpz M py t a = Dia.fromNpz M py t b ∧ Bsr.fromNpz M py t a = Bsr.fromNpz M py t b := by
  have key : ∀ name ∈ ["format", "shape", "data", "row", "col", "indices", "indptr", "offsets"], ∀ n, extractAndCheckNdim M py a name n = extractAndCheckNdim M py b name n := by
    intro name hm n
    have : a.byName M py (txt name) = b.byName M py (txt name) := by
      unfold NpzArchive.byName
      rw [find_same h]
      revert name
      decide
    unfold extractAndCheckNdim
    rw [this]
  have fmt : formatOf M py a = formatOf M py b := by
    unfold formatOf extractScalar
    rw [key _ (by simp)]
  have hexp : ∀ f, expectFormat M py a f = expectFormat M py b f := by
    intro f
    unfold expectFormat
    rw [fmt]
  have ind : ∀ name ∈ ["format", "shape", "data", "row", "col", "indices", "indptr", "offsets"], extractIndices M py a name = extractIndices M py b name := by
    intro name hm
    unfold extractIndices
    rw [key _ hm]
  have shp : extractShape M py a "shape" = extractShape M py b "shape" := by
    unfold extractShape
    rw [ind _ (by simp)]
  have us : extractUsizeIndices M py a "indptr" = extractUsizeIndices M py b "indptr" := by
    unfold extractUsizeIndices
    rw [ind _ (by simp)]
  have d1 : extract1d M py t a "data" = extract1d M py t b "data" := by
    unfold extract1d
    rw [key _ (by simp)]
  have dn : ∀ n, extractNd M py t a "data" n = extractNd M py t b "data" n := by
    intro n
    unfold extractNd
    rw [key _ (by simp)]
  have coo : Coo.fromNpz M py t a = Coo.fromNpz M py t b := by
    unfold Coo.fromNpz
    rw [hexp, shp, ind "row" (by simp), ind "col" (by simp), d1]
  have csr : Csr.fromNpz M py t a = Csr.fromNpz M py t b := by
    unfold Csr.fromNpz
    rw [hexp, shp, ind "indices" (by simp), us, d1]
  have csc : Csc.fromNpz M py t a = Csc.fromNpz M py t b := by
    unfold Csc.fromNpz
    rw [hexp, shp, ind "indices" (by simp), us, d1]
  have dia : Dia.fromNpz M py t a = Dia.fromNpz M py t b := by
    unfold Dia.fromNpz
    rw [hexp, shp, ind "offsets" (by simp), dn]
  have bsr : Bsr.fromNpz M py t a = Bsr.fromNpz M py t b := by
    unfold Bsr.fromNpz
    rw [hexp, shp, ind "indices" (by simp), us, dn]
  refine ⟨?_, coo, csr, csc, dia, bsr⟩
  unfold Sparse.fromNpz Sparse.dispatch
  rw [fmt, coo, csr, csc, dia, bsr]

/-- A note added in front of the members, which are then in reverse: the arrays are still the same. -/
theorem turned (a : NpzArchive) (h : (a.members.map (·.1)).Nodup) (note : Bytes) :
    SameMembers sparseFiles a ⟨(txt "README", note) :: a.members.reverse⟩ := by
  constructor
  · unfold named
    have hr : ¬ sparseFiles.contains (txt "README") = true := by decide
    rw [List.filter_cons_of_neg (by exact hr), List.filter_reverse]
    exact (List.reverse_perm _).symm
  · exact h.sublist (List.Sublist.map _ List.filter_sublist)

/-- C106_by_name, C106_names, C106_one: two members the other way round, and a note added. -/
example (M : Machine) (py : PyParser) : NpzArchive.byName M py ⟨[(txt "a.npy", twoFloats), (txt "b.npy", [])]⟩ (txt "a") =
      NpzArchive.byName M py ⟨[(txt "b.npy", []), (txt "a.npy", twoFloats)]⟩ (txt "a") ∧
    (NpzArchive.mk [(txt "a.npy", twoFloats), (txt "b.npy", [])]).arrayNames.Perm (NpzArchive.mk [(txt "b.npy", []), (txt "a.npy", twoFloats)]).arrayNames ∧
    NpzArchive.byName M py ⟨[(txt "a.npy", twoFloats)]⟩ (txt "a") = NpzArchive.byName M py ⟨[(txt "README", [1]), (txt "a.npy", twoFloats)]⟩ (txt "a") :=
  have h : SameContents ⟨[(txt "a.npy", twoFloats), (txt "b.npy", [])]⟩ ⟨[(txt "b.npy", []), (txt "a.npy", twoFloats)]⟩ := ⟨.swap .., by decide +kernel⟩
  ⟨C106_by_name h _, C106_names h, C106_one ⟨.of_eq (by decide +kernel), by decide +kernel⟩⟩

example : SameContents ⟨[(txt "a.npy", twoFloats), (txt "b.npy", [])]⟩ ⟨[(txt "b.npy", []), (txt "a.npy", twoFloats)]⟩ :=
  ⟨.swap .., by decide +kernel⟩

-- with a name twice the order does matter: the last one is found
example : ¬ SameContents ⟨[(txt "a.npy", twoFloats), (txt "a.npy", [])]⟩ ⟨[(txt "a.npy", []), (txt "a.npy", twoFloats)]⟩ ∧
    (NpzArchive.mk [(txt "a.npy", twoFloats), (txt "a.npy", [])]).find (txt "a.npy") ≠
      (NpzArchive.mk [(txt "a.npy", []), (txt "a.npy", twoFloats)]).find (txt "a.npy") :=
  ⟨fun h => absurd h.once (by decide +kernel), by decide +kernel⟩

end Npyz.Props
