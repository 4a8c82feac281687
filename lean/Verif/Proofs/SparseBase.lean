import Verif.Spec.Sparse
import Verif.Proofs.NpzSave
import Verif.Props.Writer
/-! Pieces of `sparse.rs`. -/
namespace Npyz
open Spec Py Sparse

/-! ### Sizes -/

mutual
theorem sizesFit_of_allFit {lim : Nat} : (d : DType) → (n : Nat) → exactBytes d = some n → AllFit lim d → SizesFit lim d
  | .plain s, n, hn, h => by
    have hn : itemBytes s = some n := hn
    have h := h n hn
    show s.size < lim
    unfold itemBytes at hn
    by_cases h1 : s.typeChar = .object
    · rw [if_pos h1] at hn; cases hn
    · rw [if_neg h1] at hn
      by_cases h2 : s.typeChar = .unicodeStr
      · rw [if_pos h2] at hn; cases hn; omega
      · rw [if_neg h2] at hn; cases hn; exact h
  | .array k d, n, hn, h => by
    cases hd : exactBytes d with
    | none => simp [exactBytes, hd] at hn
    | some m => exact sizesFit_of_allFit d m hd h.1
  | .record fs, n, hn, h => fieldSizesFit_of_fieldsFit fs n hn h.1
theorem fieldSizesFit_of_fieldsFit {lim : Nat} : (fs : Fields) → (n : Nat) → exactFieldBytes fs = some n → FieldsFit lim fs → FieldSizesFit lim fs
  | .nil, _, _, _ => trivial
  | .cons name d rest, n, hn, h => by
    cases hd : exactBytes d with
    | none => simp [exactFieldBytes, hd] at hn
    | some m =>
      cases hr : exactFieldBytes rest with
      | none => simp [exactFieldBytes, hd, hr] at hn
      | some k => exact ⟨sizesFit_of_allFit d m hd h.1, fieldSizesFit_of_fieldsFit rest k hr h.2⟩
end

theorem isizeMax_ge {M : Machine} (hM : M.Wf) : 2 ^ 31 - 1 ≤ M.isizeMax := by
  unfold Machine.isizeMax
  rcases hM with h | h <;> rw [h] <;> decide

/-- Headers with short type descriptions are short. -/
theorem dictBytes_small {d : DType} (hl : d.descr.length ≤ 20) (ha : ¬ NonAscii d) {dims : List Nat} (hn : dims.length ≤ 3)
    (hd : ∀ k ∈ dims, k < 2 ^ 64) : dictBytes d .c (.nd dims) ≤ 200 := by
  have hsum : ∀ l : List Nat, (∀ k ∈ l, k < 2 ^ 64) → (l.flatMap fun n => Nat.toDigits 10 n ++ txt ", ").length ≤ 22 * l.length := by
    intro l
    induction l with
    | nil => simp
    | cons x xs ih =>
      intro h
      have h1 := toDigits_length_le (h x (by simp))
      have h2 := ih fun k hk => h k (by simp [hk])
      rw [List.flatMap_cons, List.length_append, List.length_append, show (txt ", ").length = 2 by decide +kernel, List.length_cons]
      omega
  have h1 := hsum dims hd
  unfold dictBytes
  rw [encodeUtf8_ascii, List.length_map]
  · unfold dictText shapeTuple
    simp only [List.length_append]
    rw [show (txt "{'descr': ").length = 10 by decide +kernel, show (txt ", 'fortran_order': ").length = 19 by decide +kernel,
      show (boolText (Order.c == .fortran)).length = 5 by decide +kernel, show (txt ", 'shape': ").length = 11 by decide +kernel,
      show (txt "(").length = 1 by decide +kernel, show (txt ")").length = 1 by decide +kernel, show (txt ", }").length = 3 by decide +kernel]
    omega
  · intro c hc
    apply Nat.lt_of_not_le
    intro h
    exact ha ((dictText_nonAscii _ .c (.nd dims)).mp ⟨c, hc, h⟩)

theorem i32DType_eq (M : Machine) : i32DType M = .ok (intDType M 4) := by
  obtain ⟨b, u, d⟩ := M; cases b <;> rfl

theorem i64DType_eq (M : Machine) : i64DType M = .ok (intDType M 8) := by
  obtain ⟨b, u, d⟩ := M; cases b <;> rfl

/-- The dtypes of index arrays and of the format. -/
structure Plain (d : DType) (n : Nat) : Prop where
  wf : d.Wf
  exact : exactBytes d = some n
  small : n ≤ 8
  fits : ∀ lim, 8 < lim → AllFit lim d
  short : d.descr.length ≤ 20
  ascii : ¬ NonAscii d
  notArray : d.NotArray

theorem plain_of {s : TypeStr} {n : Nat} (h1 : s.Wf) (h2 : itemBytes s = some n) (h3 : n ≤ 8) (h4 : (DType.plain s).descr.length ≤ 20)
    (h5 : ∀ c ∈ (DType.plain s).descr, c.toNat < 128) : Plain (.plain s) n where
  wf := h1
  exact := h2
  small := h3
  fits := fun lim hlim => by
    intro k hk
    have hk : itemBytes s = some k := hk
    rw [h2] at hk; cases hk; omega
  short := h4
  ascii := by rintro ⟨c, hc, h⟩; have := h5 c hc; omega
  notArray := trivial

theorem plain_int4 (M : Machine) : Plain (intDType M 4) 4 := by
  unfold intDType
  cases M.bigEndian
  · exact plain_of (wf_of_parse (s := "<i4".toList) (by decide)) (by decide) (by decide) (by decide +kernel) (by decide +kernel)
  · exact plain_of (wf_of_parse (s := ">i4".toList) (by decide)) (by decide) (by decide) (by decide +kernel) (by decide +kernel)

theorem plain_int8 (M : Machine) : Plain (intDType M 8) 8 := by
  unfold intDType
  cases M.bigEndian
  · exact plain_of (wf_of_parse (s := "<i8".toList) (by decide)) (by decide) (by decide) (by decide +kernel) (by decide +kernel)
  · exact plain_of (wf_of_parse (s := ">i8".toList) (by decide)) (by decide) (by decide) (by decide +kernel) (by decide +kernel)

theorem plain_s3 : Plain (.plain s3) 3 :=
  plain_of (wf_of_parse (s := "|S3".toList) (by decide)) (by decide) (by decide) (by decide +kernel) (by decide +kernel)


/-! ### Writing one array -/

theorem andThen_ok {r : Res Unit × NpzWriter} {k : NpzWriter → Res Unit × NpzWriter} {z' : NpzWriter}
    (h : Sparse.andThen r k = (.ok (), z')) : ∃ z, r = (.ok (), z) ∧ k z = (.ok (), z') := by
  rcases r with ⟨(⟨⟩ | e | _), z⟩
  · exact ⟨z, rfl, h⟩
  · cases h
  · cases h

theorem assertThat_ok {c : Bool} {k : NpzWriter → Res Unit × NpzWriter} {z z' : NpzWriter}
    (h : assertThat c k z = (.ok (), z')) : c = true ∧ k z = (.ok (), z') := by
  unfold assertThat at h
  cases c
  · cases h
  · exact ⟨rfl, h⟩

/-- Whatever happens, one member of that name is added. -/
theorem writeArray_adds (M : Machine) (t : Ty) (r : DRes DType) (name : String) (dims : List Nat) (vs : List t.Val) (z : NpzWriter) :
    ∃ c, (writeArray M t r name dims vs z).2 = ⟨z.members ++ [(fileNameFromArrayName (txt name), c)]⟩ := by
  cases r with
  | ok d =>
    obtain ⟨c, -, h⟩ := zip_saveDropped (M := M) (t := t) (d := d) (o := .c) (hint := .nd dims) (vs := vs) (z := z) (name := txt name)
    exact ⟨c, h⟩
  | err e => exact ⟨[], rfl⟩
  | panic => exact ⟨[], rfl⟩

/-- Arrays of other names stay as they are. -/
theorem writeArray_keeps {M : Machine} {t : Ty} {r : DRes DType} {name : String} {dims : List Nat} {vs : List t.Val} {z z' : NpzWriter}
    {res : Res Unit} (h : writeArray M t r name dims vs z = (res, z')) {name' : String} (hne : txt name ≠ txt name') (M' : Machine)
    (py : PyParser) : z'.archive.byName M' py (txt name') = z.archive.byName M' py (txt name') := by
  obtain ⟨c, hc⟩ := writeArray_adds M t r name dims vs z
  rw [h] at hc
  have hc : z' = _ := hc
  rw [hc]
  unfold NpzArchive.byName NpzWriter.archive
  rw [find_append, if_neg]
  intro e
  exact hne (fileName_inj e)

/-- What is written can be read. -/
theorem writeArray_reads {M M' : Machine} (hM' : M'.Wf) {py : PyParser} (hpy : py.ExtendsRef) {t : Ty} {d : DType} {size : Nat}
    (hd : d.Wf) (hn : exactBytes d = some size) (hm : size ≤ M.isizeMax) (hm' : size ≤ M'.isizeMax) (hf : AllFit M'.usizeLim d)
    (hr : CanRead t d) {dims : List Nat} (hdims : ∀ k ∈ dims, k < 2 ^ 64) (hprod : nonzeroProd dims < 2 ^ 64)
    (hmem : dictBytes d .c (.nd dims) + 76 ≤ M'.isizeMax) {vs : List t.Val} (hc : vs.length < 2 ^ 64) (hp : dims.prod = vs.length)
    {name : String} {z z' : NpzWriter} (h : writeArray M t (.ok d) name dims vs z = (.ok (), z')) :
    Holds M' py t z'.archive (txt name) d dims .c (vs.map (readBack t d)) := by
  obtain ⟨c, h1, h2⟩ := zip_saveDropped (M := M) (t := t) (d := d) (o := .c) (hint := .nd dims) (vs := vs) (z := z) (name := txt name)
  have h : NpyWriter.saveDropped M zipStream t d .c (.nd dims) vs (z.array (txt name)) = (.ok (), z') := h
  rw [h] at h1 h2
  have h1 : NpyWriter.saveDropped M solid t d .c (.nd dims) vs (plainSink []) = (.ok (), plainSink c) := h1
  have h2 : z' = _ := h2
  have h3 := saveDropped_save hd hn hm hc (by rw [shapeProduct_exact (acc := 1) (by simpa using hprod), Nat.one_mul, hp]) h1
  have hrd := (reader_ok_iff hM' t d).mpr ⟨hr, sizesFit_of_allFit d size hn hf⟩
  obtain ⟨-, h4⟩ := Props.C39_round_trip hM' hpy hd hn hm hm' hf hrd hdims hprod hmem hc h3
  obtain ⟨f, h5, h6⟩ := openMember_reads h4
  refine ⟨f, ?_, h6⟩
  rw [← h5]
  apply byName_find
  rw [h2]
  show (NpzArchive.mk (z.members ++ [(fileNameFromArrayName (txt name), c)])).find _ = _
  rw [find_append, if_pos rfl]
  rfl

/-- Writing succeeds. -/
theorem writeArray_succeeds {M : Machine} (hM : M.Wf) {t : Ty} {d : DType} {size : Nat}
    (hd : d.Wf) (hn : exactBytes d = some size) (hm : size ≤ M.isizeMax) (hna : d.NotArray)
    (hw : CanRead t d) (hs : SizesFit M.usizeLim d) {dims : List Nat} (hprod : nonzeroProd dims < 2 ^ 64)
    (hlen : dictBytes d .c (.nd dims) ≤ 65525) {vs : List t.Val} (hc : vs.length < 2 ^ 64) (hp : dims.prod = vs.length)
    (he : ∀ v ∈ vs, encode t d v ≠ none) (name : String) (z : NpzWriter) :
    ∃ z', writeArray M t (.ok d) name dims vs z = (.ok (), z') := by
  have hwr : ∃ w, t.writer M d = .ok w := (Props.C37_writer hM t d).mpr ⟨canWrite_of_canRead t d hw, hs⟩
  obtain ⟨s', h⟩ := Props.C39_succeeds (o := .c) (hint := .nd dims) hd hn hm hna hwr hprod hlen (by simp) hc hp.symm he (s := plainSink [])
    (by intro h; cases h)
  have h := save_saveDropped hd hn hm hc h
  obtain ⟨c, h1, h2⟩ := zip_saveDropped (M := M) (t := t) (d := d) (o := .c) (hint := .nd dims) (vs := vs) (z := z) (name := txt name)
  rw [h] at h1
  have h1 : (.ok () : Res Unit) = _ := (Prod.mk.inj h1).1
  refine ⟨(NpyWriter.saveDropped M zipStream t d .c (.nd dims) vs (z.array (txt name))).2, ?_⟩
  show NpyWriter.saveDropped M zipStream t d .c (.nd dims) vs (z.array (txt name)) = _
  rw [h1]

/-! ### Reading one array -/

theorem intoVec_try {M : Machine} {t : Ty} {f : NpyFile Src} {vs : List t.Val} (h : (f.intoVec M disk t).1 = .ok vs) :
    ∃ r, f.tryData M t = .ok r ∧ (r.collect disk).1 = .ok vs := by
  unfold NpyFile.intoVec at h
  cases hd : f.data M t with
  | ok r =>
    rw [hd] at h
    obtain ⟨hu, p, hp, rfl⟩ := data_ok_iff.mp hd
    refine ⟨_, ?_, h⟩
    unfold NpyFile.tryData
    rw [hu, hp]; rfl
  | err e => rw [hd] at h; cases h
  | panic => rw [hd] at h; cases h

theorem tryData_err {M : Machine} {t : Ty} {f : NpyFile Src} (h : ∀ p, t.reader M f.header.dtype ≠ .ok p) : f.tryData M t = .err f := by
  unfold NpyFile.tryData
  by_cases hu : f.header.usesPickled = true
  · rw [if_pos hu]
  · rw [if_neg hu]
    cases hr : t.reader M f.header.dtype with
    | ok p => exact absurd hr (h p)
    | err e => rfl
    | panic => exact absurd hr (reader_np M t _)

section
variable {M : Machine} {py : PyParser} {t : Ty} {a : NpzArchive} {name : String} {d : DType} {dims : List Nat} {vs : List t.Val}

theorem extract_holds (h : Holds M py t a (txt name) d dims .c vs) :
    ∃ f, extractAndCheckNdim M py a name dims.length = .ok f ∧ f.header.dtype = d ∧ f.header.shape = dims ∧ f.header.order = .c ∧
      (f.intoVec M disk t).1 = .ok vs := by
  obtain ⟨f, h1, h2, h3, h4, h5⟩ := h
  refine ⟨f, ?_, h2, h3, h4, h5⟩
  unfold extractAndCheckNdim
  rw [h1]
  show checkNdim dims.length f = _
  unfold checkNdim
  rw [h3, if_neg (by simp)]

theorem extractScalar_holds {v : t.Val} (h : Holds M py t a (txt name) d [] .c [v]) : extractScalar M py t a name = .ok v := by
  obtain ⟨f, h1, -, -, -, h5⟩ := extract_holds h
  unfold extractScalar
  have h1 : extractAndCheckNdim M py a name 0 = .ok f := h1
  rw [h1]
  simp only [Out.bind_ok]
  rw [h5]
  rfl

theorem extract1d_holds {n : Nat} (h : Holds M py t a (txt name) d [n] .c vs) : extract1d M py t a name = .ok vs := by
  obtain ⟨f, h1, -, -, -, h5⟩ := extract_holds h
  unfold extract1d
  have h1 : extractAndCheckNdim M py a name 1 = .ok f := h1
  rw [h1]
  simp only [Out.bind_ok]
  rw [h5]

theorem extractNd_holds (h : Holds M py t a (txt name) d dims .c vs) :
    extractNd M py t a name dims.length = .ok (vs, dims.map (· % M.usizeLim)) := by
  obtain ⟨f, h1, -, h3, h4, h5⟩ := extract_holds h
  unfold extractNd
  rw [h1]
  simp only [Out.bind_ok, requireC, h4, ne_eq, not_true_eq_false, if_false]
  rw [h5, h3]
  rfl

end

theorem extractIndices_i32 {M : Machine} {py : PyParser} {a : NpzArchive} {name : String} {d : DType} {n : Nat} {xs : List (BitVec 32)}
    (h : Holds M py (.num .i32) a (txt name) d [n] .c xs) : extractIndices M py a name = .ok (xs.map widen) := by
  obtain ⟨f, h1, -, -, -, h5⟩ := extract_holds h
  unfold extractIndices
  have h1 : extractAndCheckNdim M py a name 1 = .ok f := h1
  rw [h1]
  simp only [Out.bind_ok]
  obtain ⟨r, h6, h7⟩ := intoVec_try h5
  unfold indicesOf
  rw [h6]
  show collectI32 r = _
  unfold collectI32
  rw [h7]
  rfl

theorem extractIndices_i64 {M M' : Machine} (hM : M.Wf) {py : PyParser} {a : NpzArchive} {name : String} {n : Nat} {xs : List (BitVec 64)}
    (h : Holds M py (.num .i64) a (txt name) (intDType M' 8) [n] .c xs) : extractIndices M py a name = .ok xs := by
  obtain ⟨f, h1, h2, -, -, h5⟩ := extract_holds h
  unfold extractIndices
  have h1 : extractAndCheckNdim M py a name 1 = .ok f := h1
  rw [h1]
  simp only [Out.bind_ok]
  have h32 : f.tryData M (.num .i32) = .err f := by
    apply tryData_err
    intro p hp
    obtain ⟨hc, -⟩ := (reader_ok_iff hM (.num .i32) f.header.dtype).mp ⟨p, hp⟩
    rw [h2] at hc
    have hc : TypeChar.int = .int ∧ 8 = 4 := hc
    omega
  obtain ⟨r, h6, h7⟩ := intoVec_try h5
  unfold indicesOf
  rw [h32]
  show indicesI64 M f = _
  unfold indicesI64
  rw [h6]
  exact h7

/-! ### Narrow integers -/

theorem foldl_min (xs : List (BitVec 64)) (a b : Int) :
    ((xs.foldl (fun best x => (min best.1 x.toInt, max best.2 x.toInt)) (a, b)).1 ≥ -2 ^ 31 ∧
     (xs.foldl (fun best x => (min best.1 x.toInt, max best.2 x.toInt)) (a, b)).2 ≤ 2 ^ 31 - 1) ↔
    (a ≥ -2 ^ 31 ∧ b ≤ 2 ^ 31 - 1) ∧ ∀ x ∈ xs, FitsI32 x.toInt := by
  induction xs generalizing a b with
  | nil => simp
  | cons x xs ih =>
    rw [List.foldl_cons, ih]
    unfold FitsI32
    simp only [List.mem_cons, forall_eq_or_imp]
    constructor
    · rintro ⟨⟨h1, h2⟩, h3⟩
      exact ⟨by omega, by omega, h3⟩
    · rintro ⟨h1, h2, h3⟩
      exact ⟨by omega, h3⟩

theorem narrow_iff (xs : List (BitVec 64)) :
    (-2 ^ 31 ≤ (mostNegativeAndPositive xs).1 ∧ (mostNegativeAndPositive xs).2 ≤ 2 ^ 31 - 1) ↔ ∀ x ∈ xs, FitsI32 x.toInt := by
  have := foldl_min xs 0 0
  unfold mostNegativeAndPositive
  constructor
  · intro h; exact (this.mp h).2
  · intro h; exact this.mpr ⟨by decide, h⟩

theorem widen_narrow {x : BitVec 64} (h : FitsI32 x.toInt) : widen (narrow x) = x := by
  apply BitVec.eq_of_toInt_eq
  unfold widen narrow
  rw [BitVec.toInt_signExtend, BitVec.toInt_setWidth]
  obtain ⟨h1, h2⟩ := h
  have e : (x.toNat : Int) = x.toInt ∨ (x.toNat : Int) = x.toInt + 2 ^ 64 := by
    rw [BitVec.toInt_eq_toNat_cond]
    split <;> omega
  have e2 : (x.toNat : Int).bmod (2 ^ 32) = x.toInt := by
    rw [Int.bmod_eq_iff (by decide)]
    constructor
    · omega
    · constructor
      · omega
      · rcases e with e | e <;> rw [e] <;> omega
  rw [e2, show 2 ^ min 64 32 = 2 ^ 32 by decide, Int.bmod_eq_iff (by decide)]
  refine ⟨by omega, by omega, by omega⟩

end Npyz
