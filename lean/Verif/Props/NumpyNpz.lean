import Verif.Spec.NumpyNpz
import Verif.Proofs.Scipy
import Verif.Props.Npz
import Verif.Props.Scipy
/-!
Property C124: exchanging archives with NumPy.  Spec/NumpyNpz.lean describes what NumPy writes into an archive and what it gets from one.
-/
set_option autoImplicit false
namespace Npyz.Props
open Npyz Npyz.Spec Py

/-! ### Members -/

theorem pyName_cut (path : Text) : pyName path = cutAtNul path := by
  unfold pyName cutAtNul
  congr 1
  funext c
  by_cases h : c = '\x00' <;> simp [h]

theorem pyName_file {name : Text} (h : '\x00' ∉ name) : pyName (name ++ txt ".npy") = name ++ txt ".npy" := by
  rw [pyName_cut, cutAtNul_append _ _ h, cutAtNul_self nul_npy]

theorem find_unique {a : NpzArchive} (hu : UniqueNames a) {file : Text} {bs : Bytes} (h : (file, bs) ∈ a.members) : a.find file = some bs := by
  obtain ⟨before, after, e⟩ := List.append_of_mem h
  refine find_last e fun m hm hf => ?_
  unfold UniqueNames at hu
  rw [e, List.map_append, List.map_cons] at hu
  have := (List.nodup_cons.mp (List.nodup_append.mp hu).2.1).1
  exact this (List.mem_map.mpr ⟨m, hm, hf⟩)

theorem zipOpen_append (ms : List (Text × Bytes)) (m : Text × Bytes) (file : Text) :
    zipOpen ⟨ms ++ [m]⟩ file = if pyName m.1 = file then some m.2 else zipOpen ⟨ms⟩ file := by
  unfold zipOpen
  simp only [List.filter_append]
  by_cases h : pyName m.1 = file
  · rw [if_pos h, List.filter_cons_of_pos (by simpa using h)]; simp
  · rw [if_neg h, List.filter_cons_of_neg (by simpa using h)]; simp

theorem zipOpen_none {a : NpzArchive} {file : Text} : zipOpen a file = none ↔ ∀ m ∈ a.members, pyName m.1 ≠ file := by
  unfold zipOpen
  rw [Option.map_eq_none_iff, List.getLast?_eq_none_iff, List.filter_eq_nil_iff]
  simp

/-- Without NULs Python finds what this crate finds. -/
theorem zipOpen_find {a : NpzArchive} (h : ∀ m ∈ a.members, '\x00' ∉ m.1) (file : Text) : zipOpen a file = a.find file := by
  unfold zipOpen NpzArchive.find
  have e : (a.members.filter fun m => pyName m.1 = file) = a.members.filter fun m => m.1 == file := by
    refine List.filter_congr fun m hm => ?_
    rw [pyName_cut, cutAtNul_self (h m hm)]
    by_cases he : m.1 = file <;> simp [he]
  rw [e, ← List.head?_reverse, ← List.filter_reverse, List.head?_filter]

/-! ### C124 -/

/-- C124: an array that NumPy saved in an archive is found under its key with its dtype, shape, order and values, if its header
has no other characters than ASCII (see C73), the element type can be read and the limits of the machine are respected. -/
theorem C124_understood {M : Machine} {py : PyParser} (hpy : py.ExtendsRef) {a : NpzArchive} (hu : UniqueNames a) {key : Text} {t : Ty} {d : DType}
    {o : Order} {dims : List Nat} {text : Text} {vs : List t.Val} (h : NumpySaved a key t d o dims text vs)
    (ha : ∀ c ∈ text, c.toNat < 128) {p : RProg t.Val} (hp : t.reader M d = .ok p) {size : Nat} (hn : exactBytes d = some size)
    (hm : size ≤ M.isizeMax) (hfit : AllFit M.usizeLim d) (hmem : ∀ file ∈ a.members, headerEnd file.2 ≤ M.isizeMax)
    (hdims : ∀ n ∈ dims, n < 2 ^ 64) (hprod : nonzeroProd dims < 2 ^ 64) : Holds M py t a key d dims o vs := by
  obtain ⟨bs, items, h1, h2, h3, h4, h5, h6⟩ := h
  refine numpyFile_holds hpy hn hm hfit (find_unique hu h1) h2 (.inr ha) (hmem _ h1) (rest := []) (by rw [h3, List.append_nil]) h4
    (fun i hi => ?_) hdims hprod hp h6
  have := h5 i hi
  rw [hn] at this; cases this; rfl

/-- C124: `array_names` lists the arrays NumPy lists; what NumPy lists besides are members that are not called `….npy`. -/
theorem C124_listed (a : NpzArchive) (name : Text) :
    name ∈ a.arrayNames ↔ name ∈ numpyFiles a ∧ ∃ m ∈ a.members, pyName m.1 = name ++ txt ".npy" := by
  rw [mem_arrayNames]
  simp only [← pyName_cut]
  constructor
  · rintro ⟨m, hm, h⟩
    refine ⟨List.mem_map.mpr ⟨m, hm, ?_⟩, m, hm, h⟩
    rw [h, if_pos (List.suffix_append _ _)]
    have : (name ++ txt ".npy").length - 4 = name.length := by rw [List.length_append]; exact Nat.add_sub_cancel _ 4
    rw [this, List.take_left]
  · rintro ⟨-, m, hm, h⟩
    exact ⟨m, hm, h⟩

/-- C124, where it holds: if no member has a NUL in its name or is called exactly `key`, NumPy and `by_name` take the same bytes for the key.
Missing: members called `key` (`C124_shadowed`) and NULs (C52). -/
theorem C124_same_bytes_partial {M : Machine} {py : PyParser} {a : NpzArchive} (h0 : ∀ m ∈ a.members, '\x00' ∉ m.1) {key : Text}
    (hk : ∀ m ∈ a.members, m.1 ≠ key) :
    a.byName M py key = match numpyGet a key with
      | some bs => NpzArchive.openMember M py bs
      | none => .ok none := by
  have h1 : zipOpen a key = none := by rw [zipOpen_find h0, find_none]; exact hk
  unfold numpyGet NpzArchive.byName
  rw [h1, zipOpen_find h0]
  rfl

/-- The archive after some arrays were written: the last one and the others. -/
theorem saveAll_append (M : Machine) (es fs : List Entry) (z : NpzWriter) : (saveAll M (es ++ fs) z).2 = (saveAll M fs (saveAll M es z).2).2 := by
  induction es generalizing z with
  | nil => rfl
  | cons e es ih => exact ih _

/-- What is in a file that was written. -/
theorem save_numpy {M : Machine} {e : Entry} {M' : Machine} (hM' : M'.Wf) (he : e.Ok M M') (hz : NoNul e.dtype) (hu : DistinctNames e.dtype) {z z1 : NpzWriter}
    (h : e.save M z = (.ok (), z1)) : ∃ (c : Bytes) (items : List Bytes), z1 = ⟨z.members ++ [(e.name ++ txt ".npy", c)]⟩ ∧
      NumpyReads c e.dtype e.order e.dims ∧ (∀ d o dims, NumpyReads c d o dims → d = e.dtype ∧ o = e.order ∧ dims = e.dims) ∧ c.drop (headerEnd c) = items.flatten ∧ items.length = e.dims.prod ∧
      (∀ item ∈ items, exactBytes e.dtype = some item.length) ∧ items.map (decode e.ty e.dtype) = (e.values.map (readBack e.ty e.dtype)).map some := by
  obtain ⟨n, hn, hm, -⟩ := he.size
  obtain ⟨c, h1, h2⟩ := zip_save (M := M) (t := e.ty) (d := e.dtype) (o := e.order) (hint := .nd e.dims) (vs := e.values) (z := z) (name := e.name)
  have h : NpyWriter.save M zipStream e.ty e.dtype e.order (.nd e.dims) e.values (z.array e.name) = (.ok (), z1) := h
  rw [h] at h1 h2
  have h3 : NpyWriter.save M solid e.ty e.dtype e.order (.nd e.dims) e.values (plainSink []) = (.ok (), plainSink c) := h1
  have h2 : z1 = _ := h2
  have hnr : NumpyReads c e.dtype e.order e.dims := C74_numpy_reads_partial he.dtypeWf hn hm hz hu he.count (by intro e; cases e) h3
  obtain ⟨data, hd, hs, k1, k2, k3⟩ := save_ok he.dtypeWf hn hm he.count (by intro e; cases e) h3
  rw [plainSink_put] at hs
  have hs : c = headerBytes (finalDict e.dtype e.order (.nd e.dims) e.values.length) ++ data := by
    have := congrArg Sink.data hs
    simpa [plainSink] using this
  have hfits := finalDict_fits (o := e.order) (hint := .nd e.dims) he.count k2
  obtain ⟨items, rfl, hi⟩ := encodeAll_split hd
  obtain ⟨p, hp⟩ := he.readable
  obtain ⟨i1, i2, i3⟩ := items_decode ((reader_ok_iff hM' _ _).mp ⟨p, hp⟩).1 hn hi
  have hna := isArray_false.mp k1
  obtain ⟨txt', k, e1, e2, e3⟩ := finalDict_lit hna hz e.order (.nd e.dims) e.values.length
  refine ⟨c, items, h2, hnr, ?_, ?_, ?_, i2, i3⟩
  · intro d o dims hr
    rw [hs] at hr
    exact numpyReads_unique e1 e2 (headerOf_headerDict hna he.dtypeWf e.order _) hfits hr
  · rw [hs, headerEnd_headerBytes hfits, List.drop_left]
  · have := k3.1 _ rfl
    rw [shapeProduct_exact (acc := 1) (by simpa using he.dims.2), Nat.one_mul] at this
    injection this with this
    rw [i1, this]

/-- The members after `e` was written among others. -/
theorem saveAll_around {M : Machine} {before after : List Entry} {e : Entry} {c : Bytes}
    (hc : (e.save M (saveAll M before .new).2).2 = ⟨(saveAll M before .new).2.members ++ [(e.name ++ txt ".npy", c)]⟩) :
    ∃ ms ns, (saveAll M (before ++ e :: after) .new).2.archive = ⟨ms ++ [(e.name ++ txt ".npy", c)] ++ ns⟩ ∧
      (∀ m ∈ ms, ∃ x ∈ before, m.1 = x.name ++ txt ".npy") ∧ (∀ m ∈ ns, ∃ x ∈ after, m.1 = x.name ++ txt ".npy") ∧
      (∀ x ∈ before, ∃ m ∈ ms, m.1 = x.name ++ txt ".npy") ∧ ∀ x ∈ after, ∃ m ∈ ns, m.1 = x.name ++ txt ".npy" := by
  obtain ⟨ms, h1, h2⟩ := saveAll_members M before .new
  obtain ⟨ns, h3, h4⟩ := saveAll_members M after (e.save M (saveAll M before .new).2).2
  have key : ∀ {l : List (Text × Bytes)} {es : List Entry}, (l.map (·.1)) = (es.map fun e => fileNameFromArrayName e.name) →
      (∀ m ∈ l, ∃ x ∈ es, m.1 = x.name ++ txt ".npy") ∧ ∀ x ∈ es, ∃ m ∈ l, m.1 = x.name ++ txt ".npy" := by
    intro l es hl
    constructor
    · intro m hm
      have : m.1 ∈ l.map (·.1) := List.mem_map.mpr ⟨m, hm, rfl⟩
      rw [hl] at this
      obtain ⟨x, hx, he⟩ := List.mem_map.mp this
      exact ⟨x, hx, he.symm⟩
    · intro x hx
      have : x.name ++ txt ".npy" ∈ es.map fun e => fileNameFromArrayName e.name := List.mem_map.mpr ⟨x, hx, rfl⟩
      rw [← hl] at this
      obtain ⟨m, hm, he⟩ := List.mem_map.mp this
      exact ⟨m, hm, he⟩
  refine ⟨ms, ns, ?_, (key h2).1, (key h4).1, (key h2).2, (key h4).2⟩
  rw [saveAll_append]
  show (saveAll M after (e.save M (saveAll M before .new).2).2).2.archive = _
  rw [h3, hc, h1]
  rfl

theorem zipOpen_last {ms ns : List (Text × Bytes)} {file : Text} {c : Bytes} (hf : pyName file = file) (hn : ∀ m ∈ ns, pyName m.1 ≠ file) :
    zipOpen ⟨ms ++ [(file, c)] ++ ns⟩ file = some c := by
  unfold zipOpen
  have e : ns.filter (fun m => decide (pyName m.1 = file)) = [] := List.filter_eq_nil_iff.mpr fun m hm => by simpa using hn m hm
  simp [List.filter_append, e, hf]

/-- C124, where it holds: NumPy gets an array that was written under its name, among any others, if there are no NULs in names and
no other array `x` such that this one is called `x.npy`.  The values are as the dtype stores them. -/
theorem C124_written_partial {M M' : Machine} (hM' : M'.Wf) {e : Entry} (he : e.Ok M M') (hz : NoNul e.dtype) (hu : DistinctNames e.dtype)
    {before after : List Entry} (h0 : ∀ x ∈ before ++ e :: after, '\x00' ∉ x.name) (hl : ∀ x ∈ after, x.name ≠ e.name)
    (hs : ∀ x ∈ before ++ after, x.name ++ txt ".npy" ≠ e.name) (h : (e.save M (saveAll M before .new).2).1 = .ok ()) :
    NumpyHas (saveAll M (before ++ e :: after) .new).2.archive e.name e.ty e.dtype e.order e.dims (e.values.map (readBack e.ty e.dtype)) := by
  obtain ⟨c, items, h1, h2, -, h3, h4, h5, h6⟩ := save_numpy hM' he hz hu ((Prod.ext h rfl : e.save M _ = (.ok (), (e.save M _).2)))
  obtain ⟨ms, ns, k1, k2, k3, -, -⟩ := saveAll_around (after := after) h1
  have hname : '\x00' ∉ e.name := h0 e (by simp)
  refine ⟨c, items, [], ?_, h2, by rw [h3, List.append_nil], h4, h5, h6⟩
  have hno : zipOpen (saveAll M (before ++ e :: after) .new).2.archive e.name = none := by
    rw [k1, zipOpen_none]
    intro m hm hp
    have : ∃ x ∈ before ++ e :: after, m.1 = x.name ++ txt ".npy" := by
      rcases List.mem_append.mp hm with hm | hm
      · rcases List.mem_append.mp hm with hm | hm
        · obtain ⟨x, hx, e⟩ := k2 m hm; exact ⟨x, by simp [hx], e⟩
        · exact ⟨e, by simp, by rw [List.mem_singleton.mp hm]⟩
      · obtain ⟨x, hx, e⟩ := k3 m hm; exact ⟨x, by simp [hx], e⟩
    obtain ⟨x, hx, hxe⟩ := this
    rw [hxe, pyName_file (h0 x hx)] at hp
    have hx : x ∈ before ++ after ∨ x = e := by
      simp only [List.mem_append, List.mem_cons] at hx ⊢
      rcases hx with hx | hx | hx <;> simp [hx]
    rcases hx with hx | rfl
    · exact hs x hx hp
    · have := congrArg List.length hp
      rw [List.length_append] at this
      have h4 : (txt ".npy").length = 4 := rfl
      omega
  unfold numpyGet
  rw [hno, k1]
  refine zipOpen_last (pyName_file hname) fun m hm hp => ?_
  obtain ⟨x, hx, hxe⟩ := k3 m hm
  rw [hxe, pyName_file (h0 x (by simp [hx]))] at hp
  exact hl x hx (List.append_cancel_right hp)

/-- C124 does not hold otherwise: under the name `x.npy` NumPy gets the array called `x`, whether or not there is an array
called `x.npy`. -/
theorem C124_shadowed {M M' : Machine} (hM' : M'.Wf) {x : Entry} (hx : x.Ok M M') (hz : NoNul x.dtype) (hu : DistinctNames x.dtype)
    {before after : List Entry} (h0 : ∀ y ∈ before ++ x :: after, '\x00' ∉ y.name) (hl : ∀ y ∈ after, y.name ≠ x.name)
    (h : (x.save M (saveAll M before .new).2).1 = .ok ()) :
    NumpyHas (saveAll M (before ++ x :: after) .new).2.archive (x.name ++ txt ".npy") x.ty x.dtype x.order x.dims (x.values.map (readBack x.ty x.dtype)) ∧
    ∀ t d o dims vs, NumpyHas (saveAll M (before ++ x :: after) .new).2.archive (x.name ++ txt ".npy") t d o dims vs →
      d = x.dtype ∧ o = x.order ∧ dims = x.dims := by
  obtain ⟨c, items, h1, h2, h2', h3, h4, h5, h6⟩ := save_numpy hM' hx hz hu ((Prod.ext h rfl : x.save M _ = (.ok (), (x.save M _).2)))
  obtain ⟨ms, ns, k1, k2, k3, -, -⟩ := saveAll_around (after := after) h1
  have hname : '\x00' ∉ x.name := h0 x (by simp)
  have hget : numpyGet (saveAll M (before ++ x :: after) .new).2.archive (x.name ++ txt ".npy") = some c := by
    unfold numpyGet
    rw [k1, zipOpen_last (pyName_file hname) fun m hm hp => ?_]
    obtain ⟨y, hy, hye⟩ := k3 m hm
    rw [hye, pyName_file (h0 y (by simp [hy]))] at hp
    exact hl y hy (List.append_cancel_right hp)
  refine ⟨⟨c, items, [], hget, h2, by rw [h3, List.append_nil], h4, h5, h6⟩, ?_⟩
  rintro t d o dims vs ⟨bs, items', rest, g1, g2, -⟩
  rw [hget] at g1; cases g1
  exact h2' d o dims g2

/-- Two arrays called `x` and `x.npy`. -/
def shadowEntries : List Entry :=
  [twoEntries[0], ⟨txt "x.npy", .bool, .plain ⟨.irrelevant, .bool, 1, none⟩, .fortran, [1, 2], [true, false]⟩]

/-- C124 is violated: both arrays are written without an error under different names, but NumPy does not get the second one under its name
(it gets the first one). -/
theorem C124_violated : ∃ x e : Entry, (saveAll pc [x, e] .new).1 = [.ok (), .ok ()] ∧ x.name ≠ e.name ∧ '\x00' ∉ x.name ∧ '\x00' ∉ e.name ∧
    (∀ vs, ¬ NumpyHas (saveAll pc [x, e] .new).2.archive e.name e.ty e.dtype e.order e.dims vs) ∧
    NumpyHas (saveAll pc [x, e] .new).2.archive e.name x.ty x.dtype x.order x.dims (x.values.map (readBack x.ty x.dtype)) := by
  refine ⟨twoEntries[0], shadowEntries[1], by decide +kernel, by decide +kernel, by decide +kernel, by decide +kernel, ?_⟩
  obtain ⟨h1, h2⟩ := C124_shadowed (M := pc) (.inl rfl) (twoEntries_ok twoEntries[0] (by simp)) trivial trivial (before := []) (after := [shadowEntries[1]])
    (by decide +kernel) (by decide +kernel) (by decide +kernel)
  have e : twoEntries[0].name ++ txt ".npy" = shadowEntries[1].name := by decide +kernel
  rw [e] at h1 h2
  exact ⟨fun vs h => absurd (h2 _ _ _ _ _ h).2.2 (by decide), h1⟩

/-- C124_written_partial: the second of two arrays. -/
example : NumpyHas (saveAll pc twoEntries .new).2.archive (txt "y/z") .bool (.plain ⟨.irrelevant, .bool, 1, none⟩) .fortran [1, 2]
    ([true, false].map (readBack .bool (.plain ⟨.irrelevant, .bool, 1, none⟩))) :=
  C124_written_partial (M := pc) (M' := ⟨true, 32, false⟩) (.inl rfl) (e := twoEntries[1]) (before := [twoEntries[0]]) (after := [])
    (twoEntries_ok twoEntries[1] (by simp)) trivial trivial (by decide +kernel) (by decide +kernel) (by decide +kernel) (by decide +kernel)

/-- C124_shadowed: the first one is also found as `x.npy`. -/
example : NumpyHas (saveAll pc twoEntries .new).2.archive (txt "x.npy") f64 (.plain ⟨.little, .float, 8, none⟩) .c [2]
    ([1#64, 2#64].map (readBack f64 (.plain ⟨.little, .float, 8, none⟩))) := by
  have := (C124_shadowed (M := pc) (.inl rfl) (twoEntries_ok twoEntries[0] (by simp)) trivial trivial (before := []) (after := [twoEntries[1]])
    (by decide +kernel) (by decide +kernel) (by decide +kernel)).1
  have e : twoEntries[0].name ++ txt ".npy" = txt "x.npy" := by decide +kernel
  rw [e] at this
  exact this

/-- C124_understood: the data of SciPy's DIA matrix, in Fortran order. -/
example {py : PyParser} (hpy : py.ExtendsRef) : Holds pc py f64 (scipyDia .fortran) (txt "data") (.plain ⟨.little, .float, 8, none⟩) [2, 3] .fortran
    [1#64, 2#64, 3#64, 4#64, 5#64, 6#64] := by
  refine C124_understood hpy (by unfold UniqueNames; decide +kernel) (text := scipyLine (txt "<f8") .fortran [2, 3])
    ⟨scipyFile (txt "<f8") .fortran [2, 3] scipyData, scipyData, by simp [scipyDia], ⟨⟨by decide +kernel, by decide +kernel, by decide +kernel,
      by decide +kernel⟩, by decide +kernel, _, _, .plain ((parse_ok_iff (txt "<f8") _).mp rfl), rfl, ⟨by decide +kernel, by decide +kernel⟩⟩,
      by decide +kernel, rfl, by decide +kernel, rfl⟩
    (by decide +kernel) (p := _) rfl (size := 8) rfl (by decide +kernel) (by intro k hk; cases hk; decide +kernel) (scipyDia_fits .fortran).headers
    (by decide) (by decide +kernel)

/-- C124_same_bytes_partial. -/
example {py : PyParser} : (scipyDia .c).byName pc py (txt "offsets") = NpzArchive.openMember pc py (scipyFile (txt "<i4") .c [2] [[0, 0, 0, 0], [255, 255, 255, 255]]) := by
  rw [C124_same_bytes_partial (by decide +kernel) (by decide +kernel)]
  have : numpyGet (scipyDia .c) (txt "offsets") = some (scipyFile (txt "<i4") .c [2] [[0, 0, 0, 0], [255, 255, 255, 255]]) := by decide +kernel
  rw [this]

-- what NumPy lists besides
example : numpyFiles ⟨[(txt "a.npy", []), (txt "README", [])]⟩ = [txt "a", txt "README"] ∧
    NpzArchive.arrayNames ⟨[(txt "a.npy", []), (txt "README", [])]⟩ = [txt "a"] := by decide +kernel

end Npyz.Props
