import Verif.Proofs.Scipy
/-!
Properties C122 and C123: exchanging sparse matrices with SciPy.  `ScipySaved` and `ScipyLoads` (Spec/Scipy.lean) describe what
SciPy writes and what it gets from an archive.
-/
set_option autoImplicit false
namespace Npyz.Props
open Npyz Npyz.Spec Py Sparse

section
variable {M : Machine} {py : PyParser} {t : Ty} {ts : TypeStr} {a : NpzArchive}

/-- The names of the formats have three bytes. -/
theorem s3_decodes : (decode .vecU8 (.plain ⟨.irrelevant, .byteStr, 3, none⟩) (encodeUtf8 (txt "coo")) = some (encodeUtf8 (txt "coo"))) ∧
    (decode .vecU8 (.plain ⟨.irrelevant, .byteStr, 3, none⟩) (encodeUtf8 (txt "csr")) = some (encodeUtf8 (txt "csr"))) ∧
    (decode .vecU8 (.plain ⟨.irrelevant, .byteStr, 3, none⟩) (encodeUtf8 (txt "csc")) = some (encodeUtf8 (txt "csc"))) ∧
    (decode .vecU8 (.plain ⟨.irrelevant, .byteStr, 3, none⟩) (encodeUtf8 (txt "dia")) = some (encodeUtf8 (txt "dia"))) ∧
    (decode .vecU8 (.plain ⟨.irrelevant, .byteStr, 3, none⟩) (encodeUtf8 (txt "bsr")) = some (encodeUtf8 (txt "bsr"))) :=
  ⟨rfl, rfl, rfl, rfl, rfl⟩

/-- The parts of a matrix SciPy saved. -/
theorem saved_parts (hM : M.Wf) (hpy : py.ExtendsRef) {dims : List Nat} {o : Order} {m : Sparse t} (h : ScipySaved a (.plain ts) o dims m)
    (hr : CanRead t (.plain ts)) (hf : ScipyFits M a (.plain ts) dims m) :
    HasFormat M py a (formatName m) ∧ HasIndices M py a "shape" [(shapeOf m).1, (shapeOf m).2] ∧
      (∀ x ∈ indexArrays m, HasIndices M py a x.1 x.2) ∧ Holds M py t a (txt "data") (.plain ts) dims o (dataOf m) := by
  have hi := isizeMax_ge hM
  have hu := usizeLim_ge hM
  obtain ⟨items, h1, h2⟩ := h.data
  obtain ⟨n, hn, hn'⟩ := hf.size
  have hfmt : decode .vecU8 (.plain ⟨.irrelevant, .byteStr, 3, none⟩) (encodeUtf8 (txt (formatName m))) = some (encodeUtf8 (txt (formatName m))) := by
    cases m
    · exact s3_decodes.1
    · exact s3_decodes.2.1
    · exact s3_decodes.2.2.1
    · exact s3_decodes.2.2.2.1
    · exact s3_decodes.2.2.2.2
  have hlt : M.isizeMax < M.usizeLim := by
    unfold Machine.isizeMax Machine.usizeLim
    rcases hM with h | h <;> rw [h] <;> decide
  refine ⟨⟨_, _, stored_holds (size := 3) (t := .vecU8) hM hpy rfl (by omega) (by omega) h.format hf.headers (by simp) (by decide) (.inr rfl)
    (by rw [List.map_cons, hfmt]; rfl)⟩, storedInts_has hM hpy h.shape hf.headers (by simp), fun x hx => storedInts_has hM hpy (h.indices x hx) hf.headers (hf.counts.2.2 x hx),
    stored_holds (t := t) hM hpy hn hn' (by omega) h1 hf.headers hf.counts.1 hf.counts.2.1 hr h2⟩

theorem asUsize_ofNat {l : List Nat} (hM : M.Wf) (h : ∀ k ∈ l, k < M.usizeLim) : l = asUsize M (l.map (BitVec.ofNat 64)) := by
  unfold asUsize
  rw [List.map_map]
  conv => lhs; rw [← List.map_id l]
  refine List.map_congr_left fun k hk => ?_
  have hk := h k hk
  have : M.usizeLim ≤ 2 ^ 64 := by unfold Machine.usizeLim; rcases hM with h | h <;> rw [h] <;> decide
  show k = (BitVec.ofNat 64 k).toNat % M.usizeLim
  rw [BitVec.toNat_ofNat, Nat.mod_eq_of_lt (show k < 2 ^ 64 by omega), Nat.mod_eq_of_lt hk]

/-- The result of `Sparse::from_npz` from the result for the format. -/
theorem fromNpz_of {name : String} (h : HasFormat M py a name) :
    Sparse.fromNpz M py t a = Sparse.dispatch M py t a (strBytes name) := by
  unfold Sparse.fromNpz
  rw [expectFormat_iff.mp (expect_iff.mpr h), Out.bind_ok]

theorem dispatch_names : strBytes "csc" ≠ strBytes "coo" ∧ (strBytes "csr" ≠ strBytes "coo" ∧ strBytes "csr" ≠ strBytes "csc") ∧
    (strBytes "dia" ≠ strBytes "coo" ∧ strBytes "dia" ≠ strBytes "csc" ∧ strBytes "dia" ≠ strBytes "csr") ∧
    (strBytes "bsr" ≠ strBytes "coo" ∧ strBytes "bsr" ≠ strBytes "csc" ∧ strBytes "bsr" ≠ strBytes "csr" ∧ strBytes "bsr" ≠ strBytes "dia") := by
  decide +kernel

/-! ### C122 -/

/-- C122: a matrix SciPy saved, in any of the five formats, with indices of 4 or 8 bytes and any byte order, is read as the same
matrix, if its data is in C order, the element type can be read and the limits of the machine are respected. -/
theorem C122_understood (hM : M.Wf) (hpy : py.ExtendsRef) {dims : List Nat} {m : Sparse t} (h : ScipySaved a (.plain ts) .c dims m)
    (hr : CanRead t (.plain ts)) (hf : ScipyFits M a (.plain ts) dims m) : Sparse.fromNpz M py t a = .ok m := by
  obtain ⟨h1, h2, h3, h4⟩ := saved_parts hM hpy h hr hf
  have hax := h.axes
  obtain ⟨n1, n2, n3, n4⟩ := dispatch_names
  rw [fromNpz_of h1]
  unfold Sparse.dispatch
  cases m with
  | coo m =>
    obtain rfl : dims = _ := hax
    have := (C62_coo hM).mpr ⟨h1, h2, h3 ("row", m.row) (by simp [indexArrays]), h3 ("col", m.col) (by simp [indexArrays]), _, _, _, h4⟩
    rw [formatName, if_pos rfl, this]; rfl
  | csr m =>
    obtain rfl : dims = _ := hax
    have := (C62_csr hM).mpr ⟨h1, h2, h3 ("indices", m.indices) (by simp [indexArrays]),
      ⟨_, h3 ("indptr", m.indptr.map (BitVec.ofNat 64)) (by simp [indexArrays]), asUsize_ofNat hM hf.words⟩, _, _, _, h4⟩
    rw [formatName, if_neg n2.1, if_neg n2.2, if_pos rfl, this]; rfl
  | csc m =>
    obtain rfl : dims = _ := hax
    have := (C62_csc hM).mpr ⟨h1, h2, h3 ("indices", m.indices) (by simp [indexArrays]),
      ⟨_, h3 ("indptr", m.indptr.map (BitVec.ofNat 64)) (by simp [indexArrays]), asUsize_ofNat hM hf.words⟩, _, _, _, h4⟩
    rw [formatName, if_neg n1, if_pos rfl, this]; rfl
  | dia m =>
    obtain ⟨k, rfl⟩ := hax
    have := (C62_dia hM).mpr ⟨h1, h2, h3 ("offsets", m.offsets) (by simp [indexArrays]), _, _, _, h4⟩
    rw [formatName, if_neg n3.1, if_neg n3.2.1, if_neg n3.2.2, if_pos rfl, this]; rfl
  | bsr m =>
    obtain rfl : dims = _ := hax
    have hw := hf.words
    have e : m.blocksize = (m.blocksize.1 % M.usizeLim, m.blocksize.2 % M.usizeLim) := by
      rw [Nat.mod_eq_of_lt (hw _ (by simp [usizes])), Nat.mod_eq_of_lt (hw _ (by simp [usizes]))]
    have := (C62_bsr hM).mpr ⟨h1, h2, h3 ("indices", m.indices) (by simp [indexArrays]),
      ⟨_, h3 ("indptr", m.indptr.map (BitVec.ofNat 64)) (by simp [indexArrays]), asUsize_ofNat hM fun k hk => hw k (by simp [usizes, hk])⟩, _, _, _, _, h4, e⟩
    rw [formatName, if_neg n4.1, if_neg n4.2.1, if_neg n4.2.2.1, if_neg n4.2.2.2, if_pos rfl, this]; rfl

/-- C122: so the reader of that format. -/
theorem C122_formats (hM : M.Wf) (hpy : py.ExtendsRef) {dims : List Nat} {m : Sparse t} (h : ScipySaved a (.plain ts) .c dims m)
    (hr : CanRead t (.plain ts)) (hf : ScipyFits M a (.plain ts) dims m) :
    match m with
    | .coo m => Coo.fromNpz M py t a = .ok m
    | .csr m => Csr.fromNpz M py t a = .ok m
    | .csc m => Csc.fromNpz M py t a = .ok m
    | .dia m => Dia.fromNpz M py t a = .ok m
    | .bsr m => Bsr.fromNpz M py t a = .ok m := by
  have h1 := (saved_parts hM hpy h hr hf).1
  have h2 := C122_understood hM hpy h hr hf
  obtain ⟨n1, n2, n3, n4⟩ := dispatch_names
  rw [fromNpz_of h1] at h2
  unfold Sparse.dispatch at h2
  cases m with
  | coo m => 
    rw [formatName, if_pos rfl, Out.bind_eq_ok] at h2
    obtain ⟨m', h2, h3⟩ := h2; cases h3; exact h2
  | csr m =>
    rw [formatName, if_neg n2.1, if_neg n2.2, if_pos rfl, Out.bind_eq_ok] at h2
    obtain ⟨m', h2, h3⟩ := h2; cases h3; exact h2
  | csc m =>
    rw [formatName, if_neg n1, if_pos rfl, Out.bind_eq_ok] at h2
    obtain ⟨m', h2, h3⟩ := h2; cases h3; exact h2
  | dia m =>
    rw [formatName, if_neg n3.1, if_neg n3.2.1, if_neg n3.2.2, if_pos rfl, Out.bind_eq_ok] at h2
    obtain ⟨m', h2, h3⟩ := h2; cases h3; exact h2
  | bsr m =>
    rw [formatName, if_neg n4.1, if_neg n4.2.1, if_neg n4.2.2.1, if_neg n4.2.2.2, if_pos rfl, Out.bind_eq_ok] at h2
    obtain ⟨m', h2, h3⟩ := h2; cases h3; exact h2

/-- Data in Fortran order. -/
theorem extractNd_fortran {name : String} {d : DType} {dims : List Nat} {vs : List t.Val} (h : Holds M py t a (txt name) d dims .fortran vs) :
    extractNd M py t a name dims.length = .err (.invalidData "fortran order is not currently supported") := by
  obtain ⟨f, h1, -, h2, h3, -⟩ := h
  unfold extractNd extractAndCheckNdim
  rw [h1, Out.bind_ok]
  unfold present checkNdim requireC
  rw [Out.bind_ok, if_neg (by rw [h2]; simp), Out.bind_ok, if_pos (by rw [h3]; decide)]
  rfl

/-- C122: data of a DIA or BSR matrix that SciPy saved in Fortran order is refused, never misread; for the other formats the order
makes no difference. -/
theorem C122_fortran (hM : M.Wf) (hpy : py.ExtendsRef) {dims : List Nat} {m : Sparse t} (h : ScipySaved a (.plain ts) .fortran dims m)
    (hr : CanRead t (.plain ts)) (hf : ScipyFits M a (.plain ts) dims m) :
    Sparse.fromNpz M py t a = if formatName m = "dia" ∨ formatName m = "bsr" then
      .err (.invalidData "fortran order is not currently supported") else .ok m := by
  obtain ⟨h1, h2, h3, h4⟩ := saved_parts hM hpy h hr hf
  have hax := h.axes
  obtain ⟨n1, n2, n3, n4⟩ := dispatch_names
  rw [fromNpz_of h1]
  unfold Sparse.dispatch
  cases m with
  | coo m =>
    obtain rfl : dims = _ := hax
    have := (C62_coo hM).mpr ⟨h1, h2, h3 ("row", m.row) (by simp [indexArrays]), h3 ("col", m.col) (by simp [indexArrays]), _, _, _, h4⟩
    rw [formatName, if_pos rfl, if_neg (by decide), this]; rfl
  | csr m =>
    obtain rfl : dims = _ := hax
    have := (C62_csr hM).mpr ⟨h1, h2, h3 ("indices", m.indices) (by simp [indexArrays]),
      ⟨_, h3 ("indptr", m.indptr.map (BitVec.ofNat 64)) (by simp [indexArrays]), asUsize_ofNat hM hf.words⟩, _, _, _, h4⟩
    rw [formatName, if_neg n2.1, if_neg n2.2, if_pos rfl, if_neg (by decide), this]; rfl
  | csc m =>
    obtain rfl : dims = _ := hax
    have := (C62_csc hM).mpr ⟨h1, h2, h3 ("indices", m.indices) (by simp [indexArrays]),
      ⟨_, h3 ("indptr", m.indptr.map (BitVec.ofNat 64)) (by simp [indexArrays]), asUsize_ofNat hM hf.words⟩, _, _, _, h4⟩
    rw [formatName, if_neg n1, if_pos rfl, if_neg (by decide), this]; rfl
  | dia m =>
    obtain ⟨k, rfl⟩ := hax
    have e1 := expect_iff.mpr h1
    have e2 := (shape_iff hM).mpr h2
    have e3 := (indices_iff hM).mpr (h3 ("offsets", m.offsets) (by simp [indexArrays]))
    have e4 := extractNd_fortran h4
    rw [formatName, if_neg n3.1, if_neg n3.2.1, if_neg n3.2.2, if_pos rfl, if_pos (.inl rfl)]
    unfold Dia.fromNpz
    rw [formatName] at e1
    rw [e1, Out.bind_ok, e2, Out.bind_ok, e3, Out.bind_ok]
    show ((extractNd M py t a "data" 2 >>= _) >>= _) = _
    rw [show extractNd M py t a "data" 2 = _ from e4]
    rfl
  | bsr m =>
    obtain rfl : dims = _ := hax
    have e1 := expect_iff.mpr h1
    have e2 := (shape_iff hM).mpr h2
    have e3 := (indices_iff hM).mpr (h3 ("indices", m.indices) (by simp [indexArrays]))
    have e5 := (usizeIndices_iff hM).mpr ⟨_, h3 ("indptr", m.indptr.map (BitVec.ofNat 64)) (by simp [indexArrays]), rfl⟩
    have e4 := extractNd_fortran h4
    rw [formatName, if_neg n4.1, if_neg n4.2.1, if_neg n4.2.2.1, if_neg n4.2.2.2, if_pos rfl, if_pos (.inr rfl)]
    unfold Bsr.fromNpz
    rw [formatName] at e1
    rw [e1, Out.bind_ok, e2, Out.bind_ok, e3, Out.bind_ok, e5, Out.bind_ok]
    rw [show extractNd M py t a "data" 3 = _ from e4]
    rfl

/-! ### C123 -/

theorem s3_encodes : (encode .vecU8 (.plain s3) (strBytes "coo") = some (encodeUtf8 (txt "coo"))) ∧
    (encode .vecU8 (.plain s3) (strBytes "csr") = some (encodeUtf8 (txt "csr"))) ∧
    (encode .vecU8 (.plain s3) (strBytes "csc") = some (encodeUtf8 (txt "csc"))) ∧
    (encode .vecU8 (.plain s3) (strBytes "dia") = some (encodeUtf8 (txt "dia"))) ∧
    (encode .vecU8 (.plain s3) (strBytes "bsr") = some (encodeUtf8 (txt "bsr"))) :=
  ⟨rfl, rfl, rfl, rfl, rfl⟩

variable {M' : Machine} {d : DType}

/-- The shape that is written is the one SciPy expects. -/
theorem dataDims_scipy {m : Sparse t} (h : ∀ x, m = .dia x → x.data.length / x.offsets.length = x.offsets.length) :
    ScipyDims (dataDims m) m := by
  cases m with
  | coo m => exact rfl
  | csr m => exact rfl
  | csc m => exact rfl
  | dia m => exact ⟨_, by show [m.data.length / m.offsets.length, m.offsets.length] = _; rw [h m rfl]⟩
  | bsr m => exact rfl

/-- C123, with the exception of the DIA format: after a successful write SciPy gets the matrix from the archive, with the values as
the dtype stores them.  For DIA matrices it does if the number of elements per diagonal is the number of diagonals. -/
theorem C123_loads_partial (hM : M.Wf) {m : Sparse t} (hdef : t.defaultDType M = some (.ok d)) (hz : NoNul d) (hu : DistinctNames d)
    (hf : SparseFits M M' d m) {z z' : NpzWriter} (h : m.writeNpz M hdef z = (.ok (), z'))
    (hdia : ∀ x, m = .dia x → x.data.length / x.offsets.length = x.offsets.length) :
    ScipyLoads z'.archive d (mapData (readBack t d) m) := by
  have hw := write_filed hM hdef hz hu hf h
  obtain ⟨fs, f1, -, f2⟩ := good_stored hw.format
  obtain ⟨ds, d1, d2, -⟩ := good_stored hw.data
  have hsh : shapeOf (mapData (readBack t d) m) = shapeOf m := by cases m <;> rfl
  have hin : indexArrays (mapData (readBack t d) m) = indexArrays m := by cases m <;> rfl
  have hfn : formatName (mapData (readBack t d) m) = formatName m := by cases m <;> rfl
  have hdt : dataOf (mapData (readBack t d) m) = (dataOf m).map (readBack t d) := by cases m <;> rfl
  refine ⟨.c, dataDims m, ?_, ?_, ?_, ?_, ds, d1, by rw [hdt]; exact d2⟩
  · rw [hfn]
    have he : encode .vecU8 (.plain s3) (strBytes (formatName m)) = some (encodeUtf8 (txt (formatName m))) := by
      cases m
      · exact s3_encodes.1
      · exact s3_encodes.2.1
      · exact s3_encodes.2.2.1
      · exact s3_encodes.2.2.2.1
      · exact s3_encodes.2.2.2.2
    have f2 : [encode .vecU8 (.plain s3) (strBytes (formatName m))] = fs.map some := f2
    rw [he] at f2
    have : fs = [encodeUtf8 (txt (formatName m))] := by
      match fs, f2 with
      | [f], f2 =>
        simp only [List.map_cons, List.map_nil, List.cons.injEq, Option.some.injEq, and_true] at f2
        rw [f2]
    rw [this] at f1
    exact f1
  · rw [hsh]; exact goodInts_stored hw.shape
  · rw [hin]; exact fun x hx => goodInts_stored (hw.indices x hx)
  · have := dataDims_scipy hdia
    cases m with
    | coo m => show _ = [(m.data.map _).length]; rw [List.length_map]; exact this
    | csr m => show _ = [(m.data.map _).length]; rw [List.length_map]; exact this
    | csc m => show _ = [(m.data.map _).length]; rw [List.length_map]; exact this
    | dia m => exact this
    | bsr m => exact this

/-- C123, with the same exception: for element types that are stored exactly it is the matrix that was written. -/
theorem C123_exact_partial (hM : M.Wf) {m : Sparse t} (hx : Exact t) (hdef : t.defaultDType M = some (.ok d)) (hz : NoNul d)
    (hu : DistinctNames d) (hf : SparseFits M M' d m) {z z' : NpzWriter} (h : m.writeNpz M hdef z = (.ok (), z'))
    (hdia : ∀ x, m = .dia x → x.data.length / x.offsets.length = x.offsets.length) : ScipyLoads z'.archive d m := by
  have := C123_loads_partial hM hdef hz hu hf h hdia
  cases m <;> simpa only [mapData, map_exact hx] using this

/-- C123 does not hold for the other DIA matrices: SciPy gets nothing from the archive, whatever the element type. -/
theorem C123_refused (hM : M.Wf) {m : Dia t} (hdef : t.defaultDType M = some (.ok d)) (hz : NoNul d) (hu : DistinctNames d)
    (hf : SparseFits M M' d (.dia m)) {z z' : NpzWriter} (h : (Sparse.dia m).writeNpz M hdef z = (.ok (), z'))
    (hdia : m.data.length / m.offsets.length ≠ m.offsets.length) {t' : Ty} {d' : DType} {m' : Sparse t'} :
    ¬ ScipyLoads z'.archive d' m' := by
  rintro ⟨o, dims, hl⟩
  have hw := write_filed hM hdef hz hu hf h
  obtain ⟨items, hs, -⟩ := hl.data
  have e := good_dims hw.data hs
  have e : dims = [m.data.length / m.offsets.length, m.offsets.length] := e
  have hax := hl.axes
  cases m' with
  | coo m' => exact absurd (congrArg List.length (e.symm.trans hax)) (by simp)
  | csr m' => exact absurd (congrArg List.length (e.symm.trans hax)) (by simp)
  | csc m' => exact absurd (congrArg List.length (e.symm.trans hax)) (by simp)
  | bsr m' => exact absurd (congrArg List.length (e.symm.trans hax)) (by simp)
  | dia m' =>
    obtain ⟨k, hk⟩ := hax
    have h1 := goodInts_length (hw.indices ("offsets", m.offsets) (by simp [indexArrays])) (hl.indices ("offsets", m'.offsets) (by simp [indexArrays]))
    rw [hk] at e
    have h1 : m'.offsets.length = m.offsets.length := h1
    exact hdia ((List.head_eq_of_cons_eq e).symm.trans h1)

end

/-- C123 is violated: the DIA matrix with 2 diagonals of 3 elements is written without an error, but SciPy gets no matrix of any kind
from the archive. -/
theorem C123_violated : ∃ (m : Sparse f64) (z' : NpzWriter), m.writeNpz pc f64_default .new = (.ok (), z') ∧
    ∀ (t' : Ty) (d' : DType) (m' : Sparse t'), ¬ ScipyLoads z'.archive d' m' := by
  obtain ⟨z', h⟩ := pc_written (m := diaMatrix) (by decide +kernel)
  exact ⟨diaMatrix, z', h, fun t' d' m' => C123_refused pc_wf f64_default trivial trivial diaMatrix_fits h (by decide)⟩

/-- C123_loads_partial, C123_exact_partial: the BSR matrix, and a DIA matrix with two diagonals of two elements. -/
def squareDia : Sparse f64 := .dia ⟨(2#64, 2#64), [1#64, 2#64, 3#64, 4#64], [0#64, -1#64]⟩

example : (∃ z', bsrMatrix.writeNpz pc f64_default .new = (.ok (), z') ∧ ScipyLoads z'.archive (.plain ⟨.little, .float, 8, none⟩) bsrMatrix) ∧
    ∃ z', squareDia.writeNpz pc f64_default .new = (.ok (), z') ∧ ScipyLoads z'.archive (.plain ⟨.little, .float, 8, none⟩) squareDia := by
  constructor
  · obtain ⟨z', h⟩ := pc_written (m := bsrMatrix) (by decide +kernel)
    exact ⟨z', h, C123_exact_partial (M' := pc) pc_wf (t := f64) trivial f64_default trivial trivial
      (pc_fits (by decide +kernel) (by decide +kernel) (by decide +kernel) (by decide +kernel) (by decide +kernel)) h nofun⟩
  · obtain ⟨z', h⟩ := pc_written (m := squareDia) (by decide +kernel)
    exact ⟨z', h, C123_exact_partial (M' := pc) pc_wf (t := f64) trivial f64_default trivial trivial
      (pc_fits (by decide +kernel) (by decide +kernel) (by decide +kernel) (by decide +kernel) (by decide +kernel)) h
      fun x hx => by cases hx; decide⟩

example : ∃ z', cooMatrix.writeNpz pc f64_default .new = (.ok (), z') ∧
    ScipyLoads z'.archive (.plain ⟨.little, .float, 8, none⟩) (mapData (readBack f64 (.plain ⟨.little, .float, 8, none⟩)) cooMatrix) := by
  obtain ⟨z', h⟩ := pc_written (m := cooMatrix) (by decide +kernel)
  exact ⟨z', h, C123_loads_partial pc_wf f64_default trivial trivial cooMatrix_fits h nofun⟩

/-- C123_refused: three diagonals of one element. -/
example : ∃ z', (Sparse.dia ⟨(3#64, 1#64), [1#64, 2#64, 3#64], [0#64, -1#64, -2#64]⟩ : Sparse f64).writeNpz pc f64_default .new = (.ok (), z') ∧
    ∀ m' : Sparse (.num .i64), ¬ ScipyLoads z'.archive (.plain ⟨.little, .int, 8, none⟩) m' := by
  obtain ⟨z', h⟩ := pc_written (m := .dia ⟨(3#64, 1#64), [1#64, 2#64, 3#64], [0#64, -1#64, -2#64]⟩) (by decide +kernel)
  exact ⟨z', h, fun m' => C123_refused (M' := pc) pc_wf f64_default trivial trivial
    (pc_fits (by decide +kernel) (by decide +kernel) (by decide +kernel) (by decide +kernel) (by decide +kernel)) h (by decide)⟩

/-! ### A file of SciPy -/

/-- The line of such a file, and the file, in version 1. -/
def scipyLine (spelling : Text) (o : Order) (dims : List Nat) : Text :=
  numpyLine (['\''] ++ spelling ++ ['\'']) o dims (117 - (numpyLine (['\''] ++ spelling ++ ['\'']) o dims 0).length)

def scipyFile (spelling : Text) (o : Order) (dims : List Nat) (items : List Bytes) : Bytes :=
  magicBytes ++ [1, 0, 118, 0] ++ (scipyLine spelling o dims ++ ['\n']).map (fun c => UInt8.ofNat c.toNat) ++ items.flatten

theorem scipyFile_stored {spelling : Text} {ts : TypeStr} (hs : TypeStr.parse spelling = .ok ts) {a : NpzArchive} {name : String} {o : Order}
    {dims : List Nat} {items : List Bytes} {before after : List (Text × Bytes)}
    (ha : a.members = before ++ (txt name ++ txt ".npy", scipyFile spelling o dims items) :: after)
    (hb : ∀ m ∈ after, m.1 ≠ txt name ++ txt ".npy")
    (h1 : (8 ≤ (scipyFile spelling o dims items).length ∧ (scipyFile spelling o dims items).take 6 = magicBytes ∧
        byteAt (scipyFile spelling o dims items) 6 = 1 ∧ byteAt (scipyFile spelling o dims items) 7 = 0) ∧
      headerEnd (scipyFile spelling o dims items) ≤ (scipyFile spelling o dims items).length ∧
      (∀ c ∈ scipyLine spelling o dims ++ ['\n'], c.toNat < 256) ∧
      headerBody (scipyFile spelling o dims items) = (scipyLine spelling o dims ++ ['\n']).map (fun c => UInt8.ofNat c.toNat) ∧
      (scipyFile spelling o dims items).drop (headerEnd (scipyFile spelling o dims items)) = items.flatten ∧
      items.length = dims.prod) (h2 : ∀ item ∈ items, exactBytes (.plain ts) = some item.length) :
    Stored FromNumpy a name (.plain ts) o dims items := by
  obtain ⟨k1, k2, k3, k4, k5, k6⟩ := h1
  refine ⟨before, _, after, [], ha, hb, ⟨scipyLine spelling o dims, ⟨k1.1, k1.2.1, .inl k1.2.2.1, k1.2.2.2⟩, k2, _, _,
    .plain ((parse_ok_iff _ _).mp hs), rfl, ?_⟩, by rw [k5, List.append_nil], k6, h2⟩
  rw [k1.2.2.1]
  exact ⟨k3, k4⟩

def scipyData : List Bytes := [[1, 0, 0, 0, 0, 0, 0, 0], [2, 0, 0, 0, 0, 0, 0, 0], [3, 0, 0, 0, 0, 0, 0, 0],
    [4, 0, 0, 0, 0, 0, 0, 0], [5, 0, 0, 0, 0, 0, 0, 0], [6, 0, 0, 0, 0, 0, 0, 0]]

/-- The archive SciPy writes for a DIA matrix, the data in either order. -/
def scipyDia (o : Order) : NpzArchive := ⟨[
  (txt "offsets" ++ txt ".npy", scipyFile (txt "<i4") .c [2] [[0, 0, 0, 0], [255, 255, 255, 255]]),
  (txt "format" ++ txt ".npy", scipyFile (txt "|S3") .c [] [encodeUtf8 (txt "dia")]),
  (txt "shape" ++ txt ".npy", scipyFile (txt ">i8") .c [2] [[0, 0, 0, 0, 0, 0, 0, 2], [0, 0, 0, 0, 0, 0, 0, 3]]),
  (txt "data" ++ txt ".npy", scipyFile (txt "<f8") o [2, 3] scipyData)]⟩

theorem scipyDia_saved (o : Order) : ScipySaved (scipyDia o) (.plain ⟨.little, .float, 8, none⟩) o [2, 3] diaMatrix where
  format := scipyFile_stored (o := .c) (before := [_]) (after := [_, _]) (spelling := txt "|S3") rfl rfl
    (by cases o <;> decide +kernel) (by cases o <;> decide +kernel) (by decide +kernel)
  shape := ⟨.big, [[0, 0, 0, 0, 0, 0, 0, 2], [0, 0, 0, 0, 0, 0, 0, 3]], by decide, .inr ⟨scipyFile_stored (o := .c) (before := [_, _]) (after := [_])
    (spelling := txt ">i8") rfl rfl (by cases o <;> decide +kernel) (by decide +kernel) (by decide +kernel), rfl⟩⟩
  indices x hx := by
    obtain rfl : x = ("offsets", [0#64, -1#64]) := List.mem_singleton.mp hx
    exact ⟨.little, [[0, 0, 0, 0], [255, 255, 255, 255]], by decide, .inl ⟨[0#32, -1#32], scipyFile_stored (o := .c) (before := []) (after := [_, _, _])
      (spelling := txt "<i4") rfl rfl (by cases o <;> decide +kernel) (by decide +kernel) (by decide +kernel), rfl, by decide⟩⟩
  axes := ⟨3, rfl⟩
  data := ⟨scipyData, scipyFile_stored (before := [_, _, _]) (after := []) (spelling := txt "<f8") rfl rfl (by simp)
    (by cases o <;> decide +kernel) (by decide +kernel), rfl⟩

theorem scipyDia_fits (o : Order) : ScipyFits pc (scipyDia o) (.plain ⟨.little, .float, 8, none⟩) [2, 3] diaMatrix where
  size := ⟨8, rfl, by decide +kernel⟩
  headers := by cases o <;> decide +kernel
  counts := ⟨by decide +kernel, by decide +kernel, by decide +kernel⟩
  words := by decide +kernel

/-- C122_understood, C122_formats, C122_fortran: the matrix is read in C order and refused in Fortran order. -/
example {py : PyParser} (hpy : py.ExtendsRef) : Sparse.fromNpz pc py f64 (scipyDia .c) = .ok diaMatrix ∧
    Dia.fromNpz pc py f64 (scipyDia .c) = .ok ⟨(2#64, 3#64), [1#64, 2#64, 3#64, 4#64, 5#64, 6#64], [0#64, -1#64]⟩ ∧
    Sparse.fromNpz pc py f64 (scipyDia .fortran) = .err (.invalidData "fortran order is not currently supported") :=
  ⟨C122_understood pc_wf hpy (scipyDia_saved .c) ⟨rfl, rfl⟩ (scipyDia_fits .c),
    C122_formats pc_wf hpy (scipyDia_saved .c) ⟨rfl, rfl⟩ (scipyDia_fits .c),
    C122_fortran pc_wf hpy (scipyDia_saved .fortran) ⟨rfl, rfl⟩ (scipyDia_fits .fortran)⟩

end Npyz.Props
