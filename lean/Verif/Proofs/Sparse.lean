import Verif.Proofs.SparseBase
/-! Writing and reading whole matrices. -/
namespace Npyz
open Spec Py Sparse

/-! ### What reading depends on -/

/-- `z'` has the same arrays as `z`, except possibly `name`. -/
def KeepsOthers (M : Machine) (py : PyParser) (name : String) (z z' : NpzWriter) : Prop :=
  ∀ name', txt name ≠ txt name' → z'.archive.byName M py (txt name') = z.archive.byName M py (txt name')

section
variable {M : Machine} {py : PyParser} {a b : NpzArchive} {name : String}

theorem extractAndCheckNdim_congr (h : a.byName M py (txt name) = b.byName M py (txt name)) (k : Nat) :
    extractAndCheckNdim M py a name k = extractAndCheckNdim M py b name k := by
  unfold extractAndCheckNdim; rw [h]

theorem formatOf_congr (h : a.byName M py (txt "format") = b.byName M py (txt "format")) : formatOf M py a = formatOf M py b := by
  unfold formatOf extractScalar; rw [extractAndCheckNdim_congr h]

theorem extractIndices_congr (h : a.byName M py (txt name) = b.byName M py (txt name)) :
    extractIndices M py a name = extractIndices M py b name := by
  unfold extractIndices; rw [extractAndCheckNdim_congr h]

end

theorem expectFormat_ok {M : Machine} {py : PyParser} {a : NpzArchive} {name : String} (h : formatOf M py a = .ok (strBytes name)) :
    expectFormat M py a name = .ok () := by
  unfold expectFormat; rw [h]
  simp

theorem expectFormat_iff {M : Machine} {py : PyParser} {a : NpzArchive} {name : String} :
    expectFormat M py a name = .ok () ↔ formatOf M py a = .ok (strBytes name) := by
  refine ⟨fun h => ?_, expectFormat_ok⟩
  unfold expectFormat at h
  cases hf : formatOf M py a with
  | ok v =>
    rw [hf, Out.bind_ok] at h
    by_cases e : v = strBytes name
    · rw [e]
    · rw [if_pos e] at h; cases h
  | err e => rw [hf] at h; cases h
  | panic => rw [hf] at h; cases h

/-! ### The pieces -/

section
variable {M M' : Machine} {py : PyParser}

theorem writeFormat_keeps {name : String} {z z' : NpzWriter} {res : Res Unit} (h : writeFormatArray M name z = (res, z')) :
    KeepsOthers M' py "format" z z' := fun _ hne => writeArray_keeps h hne M' py

theorem one_reads (hM : M.Wf) (hM' : M'.Wf) (hpy : py.ExtendsRef) {t : Ty} {d : DType} {n : Nat} (hp : Plain d n) (hr : CanRead t d)
    {name : String} {v : t.Val} (hv : readBack t d v = v) {z z' : NpzWriter} (h : writeArray M t (.ok d) name [] [v] z = (.ok (), z')) :
    Holds M' py t z'.archive (txt name) d [] .c [v] := by
  have h1 := isizeMax_ge hM
  have h2 := isizeMax_ge hM'
  have h3 := usizeLim_ge hM'
  have hn := hp.small
  have hd := dictBytes_small (dims := []) hp.short hp.ascii (by simp) (by simp)
  have := writeArray_reads (vs := [v]) hM' hpy hp.wf hp.exact (by omega) (by omega) (hp.fits _ (by omega)) hr (dims := []) (by simp)
    (by decide) (by omega) (by simp) (by simp) h
  rwa [List.map_cons, hv] at this

theorem one_succeeds (hM : M.Wf) {t : Ty} {d : DType} {n : Nat} (hp : Plain d n) (hr : CanRead t d)
    {name : String} {v : t.Val} (hv : encode t d v ≠ none) (z : NpzWriter) : ∃ z', writeArray M t (.ok d) name [] [v] z = (.ok (), z') := by
  have h1 := isizeMax_ge hM
  have h3 := usizeLim_ge hM
  have hn := hp.small
  have hd := dictBytes_small (dims := []) hp.short hp.ascii (by simp) (by simp)
  exact writeArray_succeeds (vs := [v]) hM hp.wf hp.exact (by omega) hp.notArray hr
    (sizesFit_of_allFit _ _ hp.exact (hp.fits _ (by omega))) (dims := []) (by decide) (by omega) (by simp) (by simp)
    (by intro v hv'; rw [List.mem_singleton] at hv'; rw [hv']; exact hv) _ z

theorem writeFormat_reads (hM : M.Wf) (hM' : M'.Wf) (hpy : py.ExtendsRef) {name : String} (hv : readBack .vecU8 (.plain s3) (strBytes name) = strBytes name)
    {z z' : NpzWriter} (h : writeFormatArray M name z = (.ok (), z')) : formatOf M' py z'.archive = .ok (strBytes name) :=
  extractScalar_holds (one_reads (t := .vecU8) hM hM' hpy plain_s3 (Or.inr rfl) hv h)

theorem writeFormat_succeeds (hM : M.Wf) {name : String} (hv : encode .vecU8 (.plain s3) (strBytes name) ≠ none) (z : NpzWriter) :
    ∃ z', writeFormatArray M name z = (.ok (), z') :=
  one_succeeds (t := .vecU8) hM plain_s3 (Or.inr rfl) hv z

theorem writeIndices_keeps {name : String} {xs : List (BitVec 64)} {z z' : NpzWriter} {res : Res Unit} (h : writeIndices M name xs z = (res, z')) :
    KeepsOthers M' py name z z' := by
  intro _ hne
  unfold writeIndices at h
  split at h
  · exact writeArray_keeps h hne M' py
  · exact writeArray_keeps h hne M' py

theorem nonzeroProd_one {n : Nat} (h : n < 2 ^ 64) : nonzeroProd [n] < 2 ^ 64 := by
  unfold nonzeroProd
  by_cases h0 : n = 0
  · rw [h0]; decide
  · simp [h0, h, List.prod_cons, List.prod_nil]

theorem index_reads (hM : M.Wf) (hM' : M'.Wf) (hpy : py.ExtendsRef) {t : Ty} (ht : Exact t) {d : DType} {n : Nat} (hp : Plain d n) (hr : CanRead t d) {name : String}
    {vs : List t.Val} {k : Nat} (hk : vs.length = k) (hc : k < 2 ^ 64) {z z' : NpzWriter}
    (h : writeArray M t (.ok d) name [k] vs z = (.ok (), z')) : Holds M' py t z'.archive (txt name) d [k] .c vs := by
  subst hk
  have h1 := isizeMax_ge hM
  have h2 := isizeMax_ge hM'
  have h3 := usizeLim_ge hM'
  have hn := hp.small
  have hd := dictBytes_small (dims := [vs.length]) hp.short hp.ascii (by simp) (by simpa using hc)
  have := writeArray_reads (t := t) (vs := vs) hM' hpy hp.wf hp.exact (by omega) (by omega) (hp.fits _ (by omega)) hr (dims := [vs.length]) (by simpa using hc)
    (nonzeroProd_one hc) (by omega) hc (by simp [List.prod_cons, List.prod_nil]) h
  have e : vs.map (readBack t d) = vs := by
    conv => rhs; rw [← List.map_id vs]
    exact List.map_congr_left fun v _ => readBack_exact t d v ht
  rwa [e] at this

theorem index_succeeds (hM : M.Wf) {t : Ty} {d : DType} {n : Nat} (hp : Plain d n) (hr : CanRead t d) {name : String}
    {vs : List t.Val} {k : Nat} (hk : vs.length = k) (hc : k < 2 ^ 64) (he : ∀ v ∈ vs, encode t d v ≠ none) (z : NpzWriter) :
    ∃ z', writeArray M t (.ok d) name [k] vs z = (.ok (), z') := by
  subst hk
  have h1 := isizeMax_ge hM
  have h3 := usizeLim_ge hM
  have hn := hp.small
  have hd := dictBytes_small (dims := [vs.length]) hp.short hp.ascii (by simp) (by simpa using hc)
  exact writeArray_succeeds (t := t) (vs := vs) hM hp.wf hp.exact (by omega) hp.notArray hr
    (sizesFit_of_allFit _ _ hp.exact (hp.fits _ (by omega))) (dims := [vs.length]) (nonzeroProd_one hc) (by omega) hc (by simp [List.prod_cons, List.prod_nil]) he _ z

/-- Index arrays as they are stored. -/
theorem writeIndices_holds (hM : M.Wf) (hM' : M'.Wf) (hpy : py.ExtendsRef) {name : String} {xs : List (BitVec 64)} (hc : xs.length < 2 ^ 64)
    {z z' : NpzWriter} (h : writeIndices M name xs z = (.ok (), z')) :
    ((∀ x ∈ xs, FitsI32 x.toInt) ∧ Holds M' py (.num .i32) z'.archive (txt name) (intDType M 4) [xs.length] .c (xs.map narrow)) ∨
    ((¬ ∀ x ∈ xs, FitsI32 x.toInt) ∧ Holds M' py (.num .i64) z'.archive (txt name) (intDType M 8) [xs.length] .c xs) := by
  unfold writeIndices at h
  by_cases hn : ∀ x ∈ xs, FitsI32 x.toInt
  · refine .inl ⟨hn, ?_⟩
    rw [if_pos ((narrow_iff xs).mpr hn), i32DType_eq] at h
    exact index_reads (t := .num .i32) hM hM' hpy trivial (plain_int4 M) ⟨rfl, rfl⟩ (List.length_map (as := xs) narrow) hc h
  · refine .inr ⟨hn, ?_⟩
    rw [if_neg (fun e => hn ((narrow_iff xs).mp e)), i64DType_eq] at h
    exact index_reads (t := .num .i64) hM hM' hpy trivial (plain_int8 M) ⟨.inl rfl, rfl⟩ rfl hc h

theorem writeIndices_reads (hM : M.Wf) (hM' : M'.Wf) (hpy : py.ExtendsRef) {name : String} {xs : List (BitVec 64)} (hc : xs.length < 2 ^ 64)
    {z z' : NpzWriter} (h : writeIndices M name xs z = (.ok (), z')) : extractIndices M' py z'.archive name = .ok xs := by
  rcases writeIndices_holds hM hM' hpy hc h with ⟨h1, h2⟩ | ⟨h1, h2⟩
  · have : (xs.map narrow).map widen = xs := by
      rw [List.map_map]
      conv => rhs; rw [← List.map_id xs]
      exact List.map_congr_left fun x hx => widen_narrow (h1 x hx)
    exact (extractIndices_i32 h2).trans (congrArg Out.ok this)
  · exact extractIndices_i64 hM' h2

theorem num_encodes (p : Prim) {s : TypeStr} (v : (Ty.num p).Val) : encode (.num p) (.plain s) v ≠ none := by
  intro h; cases h

theorem writeIndices_succeeds (hM : M.Wf) {name : String} {xs : List (BitVec 64)} (hc : xs.length < 2 ^ 64) (z : NpzWriter) :
    ∃ z', writeIndices M name xs z = (.ok (), z') := by
  unfold writeIndices
  by_cases hn : -2 ^ 31 ≤ (mostNegativeAndPositive xs).1 ∧ (mostNegativeAndPositive xs).2 ≤ 2 ^ 31 - 1
  · rw [if_pos hn, i32DType_eq]
    exact index_succeeds (t := .num .i32) hM (plain_int4 M) ⟨rfl, rfl⟩ (List.length_map (as := xs) narrow) hc (fun v _ => num_encodes _ v) z
  · rw [if_neg hn, i64DType_eq]
    exact index_succeeds (t := .num .i64) hM (plain_int8 M) ⟨.inl rfl, rfl⟩ rfl hc (fun v _ => num_encodes _ v) z

theorem writeShape_keeps {shape : BitVec 64 × BitVec 64} {z z' : NpzWriter} {res : Res Unit} (h : writeShape M shape z = (res, z')) :
    KeepsOthers M' py "shape" z z' := fun _ hne => writeArray_keeps h hne M' py

theorem writeShape_reads (hM : M.Wf) (hM' : M'.Wf) (hpy : py.ExtendsRef) {shape : BitVec 64 × BitVec 64} {z z' : NpzWriter}
    (h : writeShape M shape z = (.ok (), z')) : extractShape M' py z'.archive "shape" = .ok shape := by
  have h2 : (2 : Nat) < 2 ^ 64 := by decide
  unfold writeShape at h
  rw [i64DType_eq] at h
  have hi := index_reads (k := 2) (t := .num .i64) hM hM' hpy trivial (plain_int8 M) ⟨.inl rfl, rfl⟩ rfl h2 h
  have := extractIndices_i64 hM' hi
  unfold extractShape
  rw [this]
  rfl

theorem writeShape_succeeds (hM : M.Wf) (shape : BitVec 64 × BitVec 64) (z : NpzWriter) : ∃ z', writeShape M shape z = (.ok (), z') := by
  have h2 : (2 : Nat) < 2 ^ 64 := by decide
  unfold writeShape
  rw [i64DType_eq]
  exact index_succeeds (k := 2) (t := .num .i64) hM (plain_int8 M) ⟨.inl rfl, rfl⟩ rfl h2 (fun v _ => num_encodes _ v) z

theorem writeData_keeps {t : Ty} {r : DRes DType} {data : List t.Val} {dims : List Nat} {z z' : NpzWriter} {res : Res Unit}
    (h : writeData M t r data dims z = (res, z')) : KeepsOthers M' py "data" z z' := fun _ hne => writeArray_keeps h hne M' py

theorem holds_congr {t : Ty} {a b : NpzArchive} {name : Text} {d : DType} {dims : List Nat} {o : Order} {vs : List t.Val}
    (h : a.byName M py name = b.byName M py name) (hb : Holds M py t b name d dims o vs) : Holds M py t a name d dims o vs := by
  obtain ⟨f, h1, h2⟩ := hb
  exact ⟨f, h.trans h1, h2⟩

theorem stored_of (hM : M.Wf) (hM' : M'.Wf) (hpy : py.ExtendsRef) {name : String} {xs : List (BitVec 64)} (hc : xs.length < 2 ^ 64)
    {z z' : NpzWriter} (h : writeIndices M name xs z = (.ok (), z')) : StoredIndices M M' py z'.archive name xs := by
  rcases writeIndices_holds hM hM' hpy hc h with ⟨h1, h2⟩ | ⟨h1, h2⟩
  · exact ⟨fun _ => h2, fun ⟨x, hx, hn⟩ => absurd (h1 x hx) hn⟩
  · exact ⟨fun h => absurd h h1, fun _ => h2⟩

theorem stored_congr {a b : NpzArchive} {name : String} {xs : List (BitVec 64)} (h : a.byName M' py (txt name) = b.byName M' py (txt name))
    (hb : StoredIndices M M' py b name xs) : StoredIndices M M' py a name xs :=
  ⟨fun hx => holds_congr h (hb.1 hx), fun hx => holds_congr h (hb.2 hx)⟩

/-- What the parts of an archive read as. -/
structure Parts (M' : Machine) (py : PyParser) (a : NpzArchive) (fmt : String) (shape : BitVec 64 × BitVec 64) : Prop where
  format : formatOf M' py a = .ok (strBytes fmt)
  shape : extractShape M' py a "shape" = .ok shape

/-- Format and shape, followed by something else. -/
theorem write_front (hM : M.Wf) (hM' : M'.Wf) (hpy : py.ExtendsRef) {fmt : String}
    (hv : readBack .vecU8 (.plain s3) (strBytes fmt) = strBytes fmt) {shape : BitVec 64 × BitVec 64}
    {k : NpzWriter → Res Unit × NpzWriter} {z z' : NpzWriter}
    (hk : ∀ z1, k z1 = (.ok (), z') → z'.archive.byName M' py (txt "format") = z1.archive.byName M' py (txt "format") ∧
      z'.archive.byName M' py (txt "shape") = z1.archive.byName M' py (txt "shape"))
    (h : Sparse.andThen (writeFormatArray M fmt z) (fun z => Sparse.andThen (writeShape M shape z) k) = (.ok (), z')) :
    ∃ z2, k z2 = (.ok (), z') ∧ Parts M' py z'.archive fmt shape := by
  obtain ⟨z1, h1, h⟩ := andThen_ok h
  obtain ⟨z2, h2, h⟩ := andThen_ok h
  obtain ⟨k1, k2⟩ := hk z2 h
  refine ⟨z2, h, ?_, ?_⟩
  · rw [formatOf_congr (k1.trans (writeShape_keeps h2 _ (by decide +kernel)))]
    exact writeFormat_reads hM hM' hpy hv h1
  · rw [← writeShape_reads hM hM' hpy h2]
    unfold extractShape
    rw [extractIndices_congr k2]

/-- An index array and what becomes of it. -/
theorem write_index (hM : M.Wf) (hM' : M'.Wf) (hpy : py.ExtendsRef) {name : String} {xs : List (BitVec 64)} (hc : xs.length < 2 ^ 64)
    {k : NpzWriter → Res Unit × NpzWriter} {z z' : NpzWriter}
    (hk : ∀ z1, k z1 = (.ok (), z') → z'.archive.byName M' py (txt name) = z1.archive.byName M' py (txt name))
    (h : Sparse.andThen (writeIndices M name xs z) k = (.ok (), z')) :
    ∃ z1, k z1 = (.ok (), z') ∧ extractIndices M' py z'.archive name = .ok xs ∧ StoredIndices M M' py z'.archive name xs ∧
      KeepsOthers M' py name z z1 := by
  obtain ⟨z1, h1, h⟩ := andThen_ok h
  have e := hk z1 h
  refine ⟨z1, h, ?_, stored_congr e (stored_of hM hM' hpy hc h1), writeIndices_keeps h1⟩
  rw [extractIndices_congr e]
  exact writeIndices_reads hM hM' hpy hc h1

end

/-! ### The data -/

section
variable {M M' : Machine} {py : PyParser} {t : Ty} {d : DType}

theorem dataDims_lt (hM : M.Wf) {m : Sparse t} (hf : SparseFits M M' d m) : ∀ k ∈ dataDims m, k < 2 ^ 64 := by
  have h64 := usizeLim_le hM
  intro k hk
  cases m with
  | coo m => simp only [dataDims, List.mem_singleton] at hk; rw [hk]; exact hf.count.1
  | csr m => simp only [dataDims, List.mem_singleton] at hk; rw [hk]; exact hf.count.1
  | csc m => simp only [dataDims, List.mem_singleton] at hk; rw [hk]; exact hf.count.1
  | dia m =>
    have h1 : m.data.length < 2 ^ 64 := hf.count.1
    have h2 : m.offsets.length < 2 ^ 64 := hf.count.2 ("offsets", m.offsets) (by simp [indexArrays])
    simp only [dataDims, List.mem_cons, List.not_mem_nil, or_false] at hk
    rcases hk with rfl | rfl
    · exact Nat.lt_of_le_of_lt (Nat.div_le_self _ _) h1
    · exact h2
  | bsr m =>
    have h2 : m.indices.length < 2 ^ 64 := hf.count.2 ("indices", m.indices) (by simp [indexArrays])
    have hb1 := (hf.words m.blocksize.1 (by simp [usizes])).1
    have hb2 := (hf.words m.blocksize.2 (by simp [usizes])).1
    simp only [dataDims, List.mem_cons, List.not_mem_nil, or_false] at hk
    rcases hk with rfl | rfl | rfl
    · exact h2
    · exact Nat.lt_of_lt_of_le hb1 h64
    · exact Nat.lt_of_lt_of_le hb2 h64

theorem data_holds (hM : M.Wf) (hM' : M'.Wf) (hpy : py.ExtendsRef) {m : Sparse t} (hdef : t.defaultDType M = some (.ok d))
    (hf : SparseFits M M' d m) (hp : (dataDims m).prod = (dataOf m).length) {z z' : NpzWriter}
    (h : writeData M t (.ok d) (dataOf m) (dataDims m) z = (.ok (), z')) :
    Holds M' py t z'.archive (txt "data") d (dataDims m) .c ((dataOf m).map (readBack t d)) := by
  have h64 := usizeLim_le hM
  obtain ⟨n, hn, hm, hm'⟩ := hf.size
  obtain ⟨d', e, hwf, hdf, -⟩ := default_ok hM t _ hf.consts hdef
  cases e
  exact writeArray_reads hM' hpy hwf hn hm hm' hf.fits (default_canRead _ t d hdf) (dataDims_lt hM hf) (Nat.lt_of_lt_of_le hf.prod h64) hf.mem
    hf.count.1 hp h

theorem data_succeeds (hM : M.Wf) {m : Sparse t} (hdef : t.defaultDType M = some (.ok d))
    (hf : SparseFits M M' d m) (hp : (dataDims m).prod = (dataOf m).length) (hna : d.NotArray)
    (hlen : dictBytes d .c (.nd (dataDims m)) ≤ 65525) (he : ∀ v ∈ dataOf m, encode t d v ≠ none) (z : NpzWriter) :
    ∃ z', writeData M t (.ok d) (dataOf m) (dataDims m) z = (.ok (), z') := by
  have h64 := usizeLim_le hM
  obtain ⟨n, hn, hm, hm'⟩ := hf.size
  obtain ⟨d', e, hwf, hdf, hs⟩ := default_ok hM t _ hf.consts hdef
  cases e
  exact writeArray_succeeds hM hwf hn hm hna (default_canRead _ t d hdf) hs (Nat.lt_of_lt_of_le hf.prod h64) hlen hf.count.1 hp he _ z


/-! ### Whole matrices -/

/-- The outcome of writing `m`. -/
structure Written (M M' : Machine) (py : PyParser) {t : Ty} (d : DType) (a : NpzArchive) (m : Sparse t) : Prop where
  format : formatOf M' py a = .ok (strBytes (formatName m))
  shape : extractShape M' py a "shape" = .ok (shapeOf m)
  indices : ∀ x ∈ indexArrays m, extractIndices M' py a x.1 = .ok x.2 ∧ StoredIndices M M' py a x.1 x.2
  data : Holds M' py t a (txt "data") d (dataDims m) .c ((dataOf m).map (readBack t d))

theorem write_two (hM : M.Wf) (hM' : M'.Wf) (hpy : py.ExtendsRef) {m : Sparse t} (hdef : t.defaultDType M = some (.ok d))
    (hf : SparseFits M M' d m) {n1 n2 : String} {xs ys : List (BitVec 64)}
    (hv : readBack .vecU8 (.plain s3) (strBytes (formatName m)) = strBytes (formatName m))
    (hi : indexArrays m = [(n1, xs), (n2, ys)])
    (hne : txt n1 ≠ txt "format" ∧ txt n1 ≠ txt "shape" ∧ txt n2 ≠ txt "format" ∧ txt n2 ≠ txt "shape" ∧ txt n2 ≠ txt n1 ∧
      txt "data" ≠ txt n1 ∧ txt "data" ≠ txt n2) {k : NpzWriter → Res Unit × NpzWriter}
    (hk : ∀ z z', k z = (.ok (), z') → writeData M t (.ok d) (dataOf m) (dataDims m) z = (.ok (), z') ∧ (dataDims m).prod = (dataOf m).length)
    {z z' : NpzWriter}
    (h : Sparse.andThen (writeFormatArray M (formatName m) z) (fun z => Sparse.andThen (writeShape M (shapeOf m) z) fun z =>
      Sparse.andThen (writeIndices M n1 xs z) fun z => Sparse.andThen (writeIndices M n2 ys z) k) = (.ok (), z')) :
    Written M M' py d z'.archive m := by
  have hx : xs.length < 2 ^ 64 := hf.count.2 (n1, xs) (by simp [hi])
  have hy : ys.length < 2 ^ 64 := hf.count.2 (n2, ys) (by simp [hi])
  obtain ⟨f1, f2, f3, f4, f5, f6, f7⟩ := hne
  have kd : ∀ {name : String} {z : NpzWriter}, txt "data" ≠ txt name → k z = (.ok (), z') →
      z'.archive.byName M' py (txt name) = z.archive.byName M' py (txt name) := fun hn h => writeData_keeps (hk _ _ h).1 _ hn
  have k2 : ∀ {name : String} {z : NpzWriter}, txt "data" ≠ txt name → txt n2 ≠ txt name → Sparse.andThen (writeIndices M n2 ys z) k = (.ok (), z') →
      z'.archive.byName M' py (txt name) = z.archive.byName M' py (txt name) := by
    intro name z hn1 hn2 h
    obtain ⟨z1, h1, h2⟩ := andThen_ok h
    exact (kd hn1 h2).trans (writeIndices_keeps h1 _ hn2)
  have k1 : ∀ {name : String} {z : NpzWriter}, txt "data" ≠ txt name → txt n2 ≠ txt name → txt n1 ≠ txt name →
      Sparse.andThen (writeIndices M n1 xs z) (fun z => Sparse.andThen (writeIndices M n2 ys z) k) = (.ok (), z') →
      z'.archive.byName M' py (txt name) = z.archive.byName M' py (txt name) := by
    intro name z hn1 hn2 hn3 h
    obtain ⟨z1, h1, h2⟩ := andThen_ok h
    exact (k2 hn1 hn2 h2).trans (writeIndices_keeps h1 _ hn3)
  obtain ⟨z2, h2, hparts⟩ := write_front hM hM' hpy hv
    (fun z1 h1 => ⟨k1 (by decide +kernel) f3 f1 h1, k1 (by decide +kernel) f4 f2 h1⟩) h
  obtain ⟨z3, h3, e1, s1, -⟩ := write_index hM hM' hpy hx (fun z1 h1 => k2 f6 f5 h1) h2
  obtain ⟨z4, h4, e2, s2, -⟩ := write_index hM hM' hpy hy (fun z1 h1 => kd f7 h1) h3
  obtain ⟨hd, hp⟩ := hk z4 z' h4
  refine ⟨hparts.format, hparts.shape, ?_, data_holds hM hM' hpy hdef hf hp hd⟩
  intro x hx
  rw [hi] at hx
  simp only [List.mem_cons, List.not_mem_nil, or_false] at hx
  rcases hx with rfl | rfl
  · exact ⟨e1, s1⟩
  · exact ⟨e2, s2⟩

theorem write_one (hM : M.Wf) (hM' : M'.Wf) (hpy : py.ExtendsRef) {m : Sparse t} (hdef : t.defaultDType M = some (.ok d))
    (hf : SparseFits M M' d m) {n1 : String} {xs : List (BitVec 64)}
    (hv : readBack .vecU8 (.plain s3) (strBytes (formatName m)) = strBytes (formatName m))
    (hi : indexArrays m = [(n1, xs)])
    (hne : txt n1 ≠ txt "format" ∧ txt n1 ≠ txt "shape" ∧ txt "data" ≠ txt n1) {k : NpzWriter → Res Unit × NpzWriter}
    (hk : ∀ z z', k z = (.ok (), z') → writeData M t (.ok d) (dataOf m) (dataDims m) z = (.ok (), z') ∧ (dataDims m).prod = (dataOf m).length)
    {z z' : NpzWriter}
    (h : Sparse.andThen (writeFormatArray M (formatName m) z) (fun z => Sparse.andThen (writeShape M (shapeOf m) z) fun z =>
      Sparse.andThen (writeIndices M n1 xs z) k) = (.ok (), z')) :
    Written M M' py d z'.archive m := by
  have hx : xs.length < 2 ^ 64 := hf.count.2 (n1, xs) (by simp [hi])
  obtain ⟨f1, f2, f6⟩ := hne
  have kd : ∀ {name : String} {z : NpzWriter}, txt "data" ≠ txt name → k z = (.ok (), z') →
      z'.archive.byName M' py (txt name) = z.archive.byName M' py (txt name) := fun hn h => writeData_keeps (hk _ _ h).1 _ hn
  have k1 : ∀ {name : String} {z : NpzWriter}, txt "data" ≠ txt name → txt n1 ≠ txt name →
      Sparse.andThen (writeIndices M n1 xs z) k = (.ok (), z') →
      z'.archive.byName M' py (txt name) = z.archive.byName M' py (txt name) := by
    intro name z hn1 hn3 h
    obtain ⟨z1, h1, h2⟩ := andThen_ok h
    exact (kd hn1 h2).trans (writeIndices_keeps h1 _ hn3)
  obtain ⟨z2, h2, hparts⟩ := write_front hM hM' hpy hv
    (fun z1 h1 => ⟨k1 (by decide +kernel) f1 h1, k1 (by decide +kernel) f2 h1⟩) h
  obtain ⟨z3, h3, e1, s1, -⟩ := write_index hM hM' hpy hx (fun z1 h1 => kd f6 h1) h2
  obtain ⟨hd, hp⟩ := hk z3 z' h3
  refine ⟨hparts.format, hparts.shape, ?_, data_holds hM hM' hpy hdef hf hp hd⟩
  intro x hx
  rw [hi] at hx
  simp only [List.mem_cons, List.not_mem_nil, or_false] at hx
  rcases hx with rfl
  exact ⟨e1, s1⟩

/-- The products of the check of a BSR matrix are exact if they do not overflow. -/
theorem Bsr.check_exact {m : Bsr t} (hprod : nonzeroProd [m.indices.length, m.blocksize.1, m.blocksize.2] < M.usizeLim) :
    m.check M = true ↔ m.data.length = m.indices.length * m.blocksize.1 * m.blocksize.2 := by
  have e3 : m.indices.length * m.blocksize.1 * m.blocksize.2 < M.usizeLim := by
    have := prod_le_nonzeroProd [m.indices.length, m.blocksize.1, m.blocksize.2]
    simp only [List.prod_cons, List.prod_nil, Nat.mul_one] at this
    rw [Nat.mul_assoc]
    exact Nat.lt_of_le_of_lt this hprod
  have e2 : m.indices.length * m.blocksize.1 < M.usizeLim := by
    by_cases hb : m.blocksize.2 = 0
    · have := prod_le_nonzeroProd [m.indices.length, m.blocksize.1]
      simp only [List.prod_cons, List.prod_nil, Nat.mul_one] at this
      have e : nonzeroProd [m.indices.length, m.blocksize.1, m.blocksize.2] = nonzeroProd [m.indices.length, m.blocksize.1] := by
        simp only [nonzeroProd_cons, hb, if_true, Nat.one_mul]
      rw [e] at hprod
      exact Nat.lt_of_le_of_lt this hprod
    · exact Nat.lt_of_le_of_lt (Nat.le_mul_of_pos_right _ (Nat.pos_of_ne_zero hb)) e3
  unfold Bsr.check NpyData.mulUsize
  rw [if_pos e2, Out.bind_ok, if_pos e3]
  simp

theorem write_written (hM : M.Wf) (hM' : M'.Wf) (hpy : py.ExtendsRef) {m : Sparse t} (hdef : t.defaultDType M = some (.ok d))
    (hf : SparseFits M M' d m) {z z' : NpzWriter} (h : m.writeNpz M hdef z = (.ok (), z')) : Written M M' py d z'.archive m := by
  have hv : ∀ s ∈ ["coo", "csr", "csc", "dia", "bsr"], readBackBytes (.plain s3) (strBytes s) = strBytes s := by decide +kernel
  have one : ∀ n : Nat, [n].prod = n := fun n => by simp [List.prod_cons, List.prod_nil]
  cases m with
  | coo m =>
    exact write_two hM hM' hpy hdef hf (hv "coo" (by simp)) rfl (by decide +kernel) (fun z z' h => ⟨h, one _⟩) h
  | csr m =>
    exact write_two hM hM' hpy hdef hf (hv "csr" (by simp)) rfl (by decide +kernel) (fun z z' h => ⟨h, one _⟩) h
  | csc m =>
    exact write_two hM hM' hpy hdef hf (hv "csc" (by simp)) rfl (by decide +kernel) (fun z z' h => ⟨h, one _⟩) h
  | dia m =>
    refine write_one hM hM' hpy hdef hf (hv "dia" (by simp)) rfl (by decide +kernel) (fun z z' h => ?_) h
    obtain ⟨h1, h2⟩ := assertThat_ok h
    refine ⟨h2, ?_⟩
    unfold Dia.check at h1
    simp only [Bool.and_eq_true, decide_eq_true_eq] at h1
    show [m.data.length / m.offsets.length, m.offsets.length].prod = m.data.length
    rw [List.prod_cons, one]
    exact Nat.div_mul_cancel (Nat.dvd_of_mod_eq_zero h1.2)
  | bsr m =>
    refine write_two hM hM' hpy hdef hf (hv "bsr" (by simp)) rfl (by decide +kernel) (fun z z' h => ?_) h
    obtain ⟨h1, h2⟩ := assertThat_ok h
    refine ⟨h2, ?_⟩
    rw [Bsr.check_exact hf.prod] at h1
    show [m.indices.length, m.blocksize.1, m.blocksize.2].prod = m.data.length
    rw [List.prod_cons, List.prod_cons, one, h1, Nat.mul_assoc]

/-! ### Reading back -/

/-- `x as usize` gives back what `usize as i64` made. -/
theorem usize_back (hM' : M'.Wf) {l : List Nat} (h : ∀ k ∈ l, k < M'.usizeLim) :
    (l.map (BitVec.ofNat 64)).map (fun x => x.toNat % M'.usizeLim) = l := by
  have h64 := usizeLim_le hM'
  rw [List.map_map]
  conv => rhs; rw [← List.map_id l]
  apply List.map_congr_left
  intro k hk
  have := h k hk
  show (BitVec.ofNat 64 k).toNat % M'.usizeLim = k
  rw [BitVec.toNat_ofNat, Nat.mod_eq_of_lt (Nat.lt_of_lt_of_le this h64), Nat.mod_eq_of_lt this]

theorem usizeIndices (hM' : M'.Wf) {a : NpzArchive} {name : String} {l : List Nat} (h : ∀ k ∈ l, k < M'.usizeLim)
    (he : extractIndices M' py a name = .ok (l.map (BitVec.ofNat 64))) : extractUsizeIndices M' py a name = .ok l := by
  unfold extractUsizeIndices
  rw [he, Out.bind_ok, usize_back hM' h]

/-- Reading one format. -/
theorem Coo.reads {a : NpzArchive} {m : Coo t} (h : Written M M' py d a (.coo m)) :
    Coo.fromNpz M' py t a = .ok { m with data := m.data.map (readBack t d) } := by
  have h1 := (h.indices ("row", m.row) (by simp [indexArrays])).1
  have h2 := (h.indices ("col", m.col) (by simp [indexArrays])).1
  have h3 := extract1d_holds (n := m.data.length) h.data
  have h4 : extractShape M' py a "shape" = .ok m.shape := h.shape
  have h0 : expectFormat M' py a "coo" = .ok () := expectFormat_ok h.format
  unfold Coo.fromNpz
  simp only [h0, Out.bind_ok, h4, h1, h2, h3]
  rfl

theorem Csr.reads (hM' : M'.Wf) {a : NpzArchive} {m : Csr t} (hu : ∀ k ∈ m.indptr, k < M'.usizeLim) (h : Written M M' py d a (.csr m)) :
    Csr.fromNpz M' py t a = .ok { m with data := m.data.map (readBack t d) } := by
  have h1 := (h.indices ("indices", m.indices) (by simp [indexArrays])).1
  have h2 := usizeIndices hM' hu (h.indices ("indptr", m.indptr.map (BitVec.ofNat 64)) (by simp [indexArrays])).1
  have h3 := extract1d_holds (n := m.data.length) h.data
  have h4 : extractShape M' py a "shape" = .ok m.shape := h.shape
  have h0 : expectFormat M' py a "csr" = .ok () := expectFormat_ok h.format
  unfold Csr.fromNpz
  simp only [h0, Out.bind_ok, h4, h1, h2, h3]
  rfl

theorem Csc.reads (hM' : M'.Wf) {a : NpzArchive} {m : Csc t} (hu : ∀ k ∈ m.indptr, k < M'.usizeLim) (h : Written M M' py d a (.csc m)) :
    Csc.fromNpz M' py t a = .ok { m with data := m.data.map (readBack t d) } := by
  have h1 := (h.indices ("indices", m.indices) (by simp [indexArrays])).1
  have h2 := usizeIndices hM' hu (h.indices ("indptr", m.indptr.map (BitVec.ofNat 64)) (by simp [indexArrays])).1
  have h3 := extract1d_holds (n := m.data.length) h.data
  have h4 : extractShape M' py a "shape" = .ok m.shape := h.shape
  have h0 : expectFormat M' py a "csc" = .ok () := expectFormat_ok h.format
  unfold Csc.fromNpz
  simp only [h0, Out.bind_ok, h4, h1, h2, h3]
  rfl

theorem Dia.reads {a : NpzArchive} {m : Dia t} (h : Written M M' py d a (.dia m)) :
    Dia.fromNpz M' py t a = .ok { m with data := m.data.map (readBack t d) } := by
  have h1 := (h.indices ("offsets", m.offsets) (by simp [indexArrays])).1
  have h3 : extractNd M' py t a "data" 2 = _ := extractNd_holds h.data
  have h4 : extractShape M' py a "shape" = .ok m.shape := h.shape
  have h0 : expectFormat M' py a "dia" = .ok () := expectFormat_ok h.format
  unfold Dia.fromNpz
  simp only [h0, Out.bind_ok, h4, h1, h3]
  rfl

theorem Bsr.reads (hM' : M'.Wf) {a : NpzArchive} {m : Bsr t} (hu : ∀ k ∈ m.blocksize.1 :: m.blocksize.2 :: m.indptr, k < M'.usizeLim)
    (h : Written M M' py d a (.bsr m)) : Bsr.fromNpz M' py t a = .ok { m with data := m.data.map (readBack t d) } := by
  have h1 := (h.indices ("indices", m.indices) (by simp [indexArrays])).1
  have h2 := usizeIndices hM' (fun k hk => hu k (by simp [hk])) (h.indices ("indptr", m.indptr.map (BitVec.ofNat 64)) (by simp [indexArrays])).1
  have h3 : extractNd M' py t a "data" 3 = _ := extractNd_holds h.data
  have h4 : extractShape M' py a "shape" = .ok m.shape := h.shape
  have b1 : index ((dataDims (.bsr m)).map (· % M'.usizeLim)) 1 = .ok m.blocksize.1 := by
    show Out.ok (m.blocksize.1 % M'.usizeLim) = _
    rw [Nat.mod_eq_of_lt (hu _ (by simp))]
  have b2 : index ((dataDims (.bsr m)).map (· % M'.usizeLim)) 2 = .ok m.blocksize.2 := by
    show Out.ok (m.blocksize.2 % M'.usizeLim) = _
    rw [Nat.mod_eq_of_lt (hu _ (by simp))]
  have h0 : expectFormat M' py a "bsr" = .ok () := expectFormat_ok h.format
  unfold Bsr.fromNpz
  simp only [h0, Out.bind_ok, h4, h1, h2, h3, b1, b2]
  rfl

end

end Npyz
