import Verif.Proofs.NpzSave
import Verif.Props.Writer
/-!
Properties C51, C52: names and archives.
-/
namespace Npyz.Props
open Npyz Npyz.Spec Py

/-! ### C51 -/

/-- C51: the array name for a file name is what precedes `.npy`, where the file name ends at its first
NUL (or at its end); other file names have none. -/
theorem C51_array_name (path name : Text) :
    arrayNameFromFileName path = some name ↔
      '\x00' ∉ name ∧ (path = name ++ txt ".npy" ∨ ∃ rest, path = name ++ txt ".npy" ++ '\x00' :: rest) := by
  rw [arrayName_iff]
  constructor
  · intro h
    have h0 := cutAtNul_noNul path
    rw [h] at h0
    refine ⟨fun e => h0 (List.mem_append.mpr (.inl e)), ?_⟩
    rcases cutAtNul_split path with h' | ⟨rest, h'⟩
    · exact .inl (h'.trans h)
    · exact .inr ⟨rest, by rw [← h]; exact h'⟩
  · rintro ⟨h0, h | ⟨rest, h⟩⟩
    · rw [h, cutAtNul_append _ _ h0, cutAtNul_self nul_npy]
    · rw [h, cutAtNul_nul, cutAtNul_append _ _ h0, cutAtNul_self nul_npy]

/-- C51: an array name survives the way to a file name and back exactly if it contains no NUL. -/
theorem C51_round_trip (name : Text) : arrayNameFromFileName (fileNameFromArrayName name) = some name ↔ '\x00' ∉ name := by
  rw [C51_array_name]
  exact ⟨fun h => h.1, fun h => ⟨h, .inl rfl⟩⟩

/-- C51: distinct array names get distinct file names. -/
theorem C51_injective {a b : Text} (h : a ≠ b) : fileNameFromArrayName a ≠ fileNameFromArrayName b := fun e => h (fileName_inj e)

/-- C51: positional arrays: `arr_<index>`, different for different indices, and the same as the named
array of that name. -/
theorem C51_index (i j : BitVec 32) :
    arrayNameFromFileName (fileNameFromIndex i) = some (txt "arr_" ++ displayInt i.toInt) ∧
    fileNameFromIndex i = fileNameFromArrayName (txt "arr_" ++ displayInt i.toInt) ∧
    (i ≠ j → fileNameFromIndex i ≠ fileNameFromIndex j) := by
  refine ⟨(C51_array_name _ _).mpr ⟨?_, .inl rfl⟩, rfl, fun hne e => hne ?_⟩
  · intro h
    rcases List.mem_append.mp h with h | h
    · revert h; decide +kernel
    · exact displayInt_noNul _ h
  · have := List.append_cancel_left (List.append_cancel_right e)
    exact BitVec.eq_of_toInt_eq (displayInt_inj this)

example : fileNameFromArrayName (txt "a") ≠ fileNameFromArrayName (txt "a.npy") := C51_injective (by decide)

example : arrayNameFromFileName (txt "dir/a.b.npy") = some (txt "dir/a.b") := by decide +kernel
example : arrayNameFromFileName (txt "a.npy\x00b.npz") = some (txt "a") := by decide +kernel
example : arrayNameFromFileName (txt "a.NPY") = none := by decide +kernel
example : arrayNameFromFileName (fileNameFromArrayName (txt "a\x00b")) = none := by decide +kernel
example : fileNameFromIndex (-3#32) = txt "arr_-3.npy" := by decide +kernel
example : fileNameFromIndex 12#32 = txt "arr_12.npy" := by decide +kernel

/-! ### C52 -/

/-- C52: an array that was written is found under its name, with its dtype, shape, order and elements,
whatever was written before, and whatever was written under other names afterwards. -/
theorem C52_found {M M' : Machine} (hM' : M'.Wf) {py : PyParser} (hpy : py.ExtendsRef) {e : Entry} (he : e.Ok M M')
    {z z1 : NpzWriter} (h : e.save M z = (.ok (), z1)) (later : List Entry) (hl : ∀ x ∈ later, x.name ≠ e.name) :
    Holds M' py e.ty (saveAll M later z1).2.archive e.name e.dtype e.dims e.order (e.values.map (readBack e.ty e.dtype)) := by
  obtain ⟨n, hn, hm, hm'⟩ := he.size
  obtain ⟨c, h1, h2⟩ := zip_save (M := M) (t := e.ty) (d := e.dtype) (o := e.order) (hint := .nd e.dims) (vs := e.values) (z := z) (name := e.name)
  have h : NpyWriter.save M zipStream e.ty e.dtype e.order (.nd e.dims) e.values (z.array e.name) = (.ok (), z1) := h
  rw [h] at h1 h2
  obtain ⟨-, hr⟩ := C39_round_trip hM' hpy he.dtypeWf hn hm hm' he.fits he.readable he.dims.1 he.dims.2 he.mem he.count h1
  obtain ⟨ms, h3, h4⟩ := saveAll_members M later z1
  obtain ⟨f, h5, h6⟩ := openMember_reads hr
  refine ⟨f, ?_, h6⟩
  rw [← h5]
  apply byName_find
  show (NpzArchive.mk (saveAll M later z1).2.members).find _ = _
  rw [h3]
  simp only at h2 ⊢
  rw [find_skip _ _ ms (map_ne h4 hl), h2, find_append, if_pos rfl]
  rfl

/-- C52: for element types without padding the very same values. -/
theorem C52_found_exact {M M' : Machine} (hM' : M'.Wf) {py : PyParser} (hpy : py.ExtendsRef) {e : Entry} (he : e.Ok M M')
    (ht : Exact e.ty) {z z1 : NpzWriter} (h : e.save M z = (.ok (), z1)) (later : List Entry) (hl : ∀ x ∈ later, x.name ≠ e.name) :
    Holds M' py e.ty (saveAll M later z1).2.archive e.name e.dtype e.dims e.order e.values := by
  have := C52_found hM' hpy he h later hl
  have e : e.values.map (readBack e.ty e.dtype) = e.values := by
    conv => rhs; rw [← List.map_id e.values]
    exact List.map_congr_left fun v _ => readBack_exact e.ty e.dtype v ht
  rwa [e] at this

/-- C52: names under which nothing was written give `None`. -/
theorem C52_absent {M M' : Machine} {py : PyParser} (es : List Entry) (name : Text) (h : ∀ e ∈ es, e.name ≠ name) :
    (saveAll M es .new).2.archive.byName M' py name = .ok none := by
  obtain ⟨ms, h1, h2⟩ := saveAll_members M es .new
  apply byName_none
  rw [find_none]
  rw [h1]
  exact map_ne h2 h

/-- C52: `array_names` lists exactly the names that were written, if none of them contains a NUL, and
each of them once. -/
theorem C52_listed {M : Machine} (es : List Entry) (h0 : ∀ e ∈ es, '\x00' ∉ e.name) :
    (∀ name, name ∈ (saveAll M es .new).2.archive.arrayNames ↔ ∃ e ∈ es, e.name = name) ∧
    (saveAll M es .new).2.archive.arrayNames.Nodup := by
  obtain ⟨ms, h1, h2⟩ := saveAll_members M es .new
  have hcut : ∀ m ∈ ms, ∃ e ∈ es, m.1 = fileNameFromArrayName e.name ∧ cutAtNul m.1 = e.name ++ txt ".npy" := by
    intro m hm
    have : m.1 ∈ ms.map (·.1) := List.mem_map_of_mem hm
    rw [h2] at this
    obtain ⟨e, he, hme⟩ := List.mem_map.mp this
    refine ⟨e, he, hme.symm, ?_⟩
    rw [← hme]
    show cutAtNul (e.name ++ txt ".npy") = _
    rw [cutAtNul_append _ _ (h0 e he), cutAtNul_self nul_npy]
  have hmem : (saveAll M es .new).2.archive.members = ms := by rw [h1]; rfl
  constructor
  · intro name
    rw [mem_arrayNames, hmem]
    constructor
    · rintro ⟨m, hm, hc⟩
      obtain ⟨e, he, -, h⟩ := hcut m hm
      rw [h] at hc
      exact ⟨e, he, List.append_cancel_right hc⟩
    · rintro ⟨e, he, rfl⟩
      have : fileNameFromArrayName e.name ∈ ms.map (·.1) := by
        rw [h2]; exact List.mem_map.mpr ⟨e, he, rfl⟩
      obtain ⟨m, hm, hme⟩ := List.mem_map.mp this
      refine ⟨m, hm, ?_⟩
      rw [hme]
      show cutAtNul (e.name ++ txt ".npy") = _
      rw [cutAtNul_append _ _ (h0 e he), cutAtNul_self nul_npy]
  · have hnd : ((saveAll M es .new).2.archive.fileNames).Nodup := nodup_eraseDups _
    have hall : ∀ file ∈ (saveAll M es .new).2.archive.fileNames, ∃ e ∈ es, file = fileNameFromArrayName e.name := by
      intro file hf
      obtain ⟨m, hm, rfl⟩ := (mem_fileNames _ _).mp hf
      rw [hmem] at hm
      obtain ⟨e, he, h, -⟩ := hcut m hm
      exact ⟨e, he, h⟩
    unfold NpzArchive.arrayNames
    generalize (saveAll M es .new).2.archive.fileNames = l at hnd hall
    induction l with
    | nil => simp
    | cons x xs ih =>
      obtain ⟨hx, hxs⟩ := List.nodup_cons.mp hnd
      have ih := ih hxs fun f hf => hall f (by simp [hf])
      obtain ⟨e, he, rfl⟩ := hall x (by simp)
      rw [List.filterMap_cons, (C51_round_trip e.name).mpr (h0 e he)]
      refine List.nodup_cons.mpr ⟨?_, ih⟩
      intro hc
      obtain ⟨file, hf, hfe⟩ := List.mem_filterMap.mp hc
      obtain ⟨e', he', rfl⟩ := hall file (by simp [hf])
      rw [(C51_round_trip e'.name).mpr (h0 e' he')] at hfe
      rw [Option.some.inj hfe] at hf
      exact hx hf

/-- The archive of `C52_violated`. -/
def nulArchive : NpzArchive := ⟨[(txt "a.npy\x00junk", [])]⟩

/-- C52 is violated: an archive can list a name that cannot be looked up. -/
theorem C52_violated (M : Machine) (py : PyParser) :
    txt "a" ∈ nulArchive.arrayNames ∧ nulArchive.byName M py (txt "a") = .ok none := by
  refine ⟨by decide +kernel, byName_none ?_⟩
  decide +kernel

/-- C52, what holds: a listed name can be looked up if no member name contains a NUL (as in every
archive written under names without NUL), or if it is found under its own file name. -/
theorem C52_lookup_partial (M : Machine) (py : PyParser) (a : NpzArchive) (h0 : ∀ m ∈ a.members, '\x00' ∉ m.1) (name : Text)
    (h : name ∈ a.arrayNames) : a.byName M py name ≠ .ok none := by
  obtain ⟨m, hm, hc⟩ := (mem_arrayNames a name).mp h
  rw [cutAtNul_self (h0 m hm)] at hc
  cases hf : a.find (fileNameFromArrayName name) with
  | none => exact absurd hc ((find_none a _).mp hf m hm)
  | some c =>
    rw [byName_find hf]
    unfold NpzArchive.openMember
    cases (NpyFile.new M py disk ⟨c, 0⟩).1 <;> simp

/-- An archive with two arrays. -/
def twoEntries : List Entry :=
  [⟨txt "x", f64, .plain ⟨.little, .float, 8, none⟩, .c, [2], [1#64, 2#64]⟩,
   ⟨txt "y/z", .bool, .plain ⟨.irrelevant, .bool, 1, none⟩, .fortran, [1, 2], [true, false]⟩]

-- the hypotheses are met
example : (saveAll ⟨false, 64, true⟩ twoEntries .new).1 = [.ok (), .ok ()] ∧
    (saveAll ⟨false, 64, true⟩ twoEntries .new).2.archive.arrayNames = [txt "x", txt "y/z"] := by decide +kernel
example : ∀ e ∈ twoEntries, '\x00' ∉ e.name := by decide +kernel
theorem twoEntries_ok : ∀ e ∈ twoEntries, e.Ok ⟨false, 64, true⟩ ⟨true, 32, false⟩ := by
  simp only [twoEntries, List.forall_mem_cons, List.not_mem_nil, false_implies, implies_true, and_true]
  constructor
  · exact {
      dtypeWf := ⟨by constructor <;> simp [SizeAllowed, OrderMatters], by decide, by simp⟩
      size := ⟨8, rfl, by decide +kernel, by decide +kernel⟩
      fits := by rintro n hn; cases hn; decide +kernel
      readable := ⟨_, rfl⟩
      dims := ⟨by decide +kernel, by decide +kernel⟩
      mem := by decide +kernel
      count := by decide +kernel }
  · exact {
      dtypeWf := ⟨by constructor <;> simp [SizeAllowed, OrderMatters], by decide, by simp⟩
      size := ⟨1, rfl, by decide +kernel, by decide +kernel⟩
      fits := by rintro n hn; cases hn; decide +kernel
      readable := ⟨_, rfl⟩
      dims := ⟨by decide +kernel, by decide +kernel⟩
      mem := by decide +kernel
      count := by decide +kernel }

theorem saved_ok {M : Machine} {e : Entry} {z : NpzWriter} (h : (e.save M z).1 = .ok ()) : ∃ z1, e.save M z = (.ok (), z1) := ⟨_, Prod.ext h rfl⟩

/-- C52_found, C52_found_exact: the first of two arrays, read on another machine. -/
example : ∃ z1, Entry.save ⟨false, 64, true⟩ twoEntries[0] .new = (.ok (), z1) ∧
    Holds ⟨true, 32, false⟩ Py.parse f64 (saveAll ⟨false, 64, true⟩ [twoEntries[1]] z1).2.archive (txt "x") (.plain ⟨.little, .float, 8, none⟩) [2] .c
      ([1#64, 2#64].map (readBack f64 (.plain ⟨.little, .float, 8, none⟩))) ∧
    Holds ⟨true, 32, false⟩ Py.parse f64 (saveAll ⟨false, 64, true⟩ [twoEntries[1]] z1).2.archive (txt "x") (.plain ⟨.little, .float, 8, none⟩) [2] .c
      [1#64, 2#64] := by
  obtain ⟨z1, h⟩ := saved_ok (M := ⟨false, 64, true⟩) (e := twoEntries[0]) (z := .new) (by decide +kernel)
  exact ⟨z1, h, C52_found (M' := ⟨true, 32, false⟩) (py := Py.parse) (.inl rfl) (fun _ _ h => h) (twoEntries_ok _ (by simp)) h [twoEntries[1]] (by decide +kernel),
    C52_found_exact (e := twoEntries[0]) (M' := ⟨true, 32, false⟩) (py := Py.parse) (.inl rfl) (fun _ _ h => h) (twoEntries_ok _ (by simp)) trivial h [twoEntries[1]] (by decide +kernel)⟩

/-- C52_absent, C52_listed: a name that is not there, and those that are. -/
example : (saveAll ⟨false, 64, true⟩ twoEntries .new).2.archive.byName ⟨true, 32, false⟩ Py.parse (txt "y") = .ok none ∧
    (saveAll ⟨false, 64, true⟩ twoEntries .new).2.archive.arrayNames.Nodup :=
  ⟨C52_absent twoEntries (txt "y") (by decide +kernel), (C52_listed twoEntries (by decide +kernel)).2⟩

end Npyz.Props
