import Verif.Proofs.SparseRead
import Verif.Props.Npz
/-!
Properties C53 to C57, C61 and C62: sparse matrices.
-/
namespace Npyz.Props
open Npyz Npyz.Spec Py Sparse

section
variable {M M' : Machine} {py : PyParser} {t : Ty} {d : DType}

/-! ### C53 -/

/-- C53: a matrix that was written (to an archive that may contain other arrays already) is read back,
by `Sparse::from_npz`, as a matrix of the same format, shape and indices with the same elements (up to
the padding of strings, see `readBack`). -/
theorem C53_round_trip (hM : M.Wf) (hM' : M'.Wf) (hpy : py.ExtendsRef) {m : Sparse t} (hdef : t.defaultDType M = some (.ok d))
    (hf : SparseFits M M' d m) {z z' : NpzWriter} (h : m.writeNpz M hdef z = (.ok (), z')) :
    Sparse.fromNpz M' py t z'.archive = .ok (mapData (readBack t d) m) := by
  have hw := write_written hM hM' hpy hdef hf h
  have n1 : strBytes "csc" ≠ strBytes "coo" := by decide +kernel
  have n2 : strBytes "csr" ≠ strBytes "coo" ∧ strBytes "csr" ≠ strBytes "csc" := by decide +kernel
  have n3 : strBytes "dia" ≠ strBytes "coo" ∧ strBytes "dia" ≠ strBytes "csc" ∧ strBytes "dia" ≠ strBytes "csr" := by decide +kernel
  have n4 : strBytes "bsr" ≠ strBytes "coo" ∧ strBytes "bsr" ≠ strBytes "csc" ∧ strBytes "bsr" ≠ strBytes "csr" ∧ strBytes "bsr" ≠ strBytes "dia" := by
    decide +kernel
  unfold Sparse.fromNpz
  rw [hw.format, Out.bind_ok]
  unfold Sparse.dispatch
  cases m with
  | coo m => rw [formatName, if_pos rfl, Coo.reads hw]; rfl
  | csc m => rw [formatName, if_neg n1, if_pos rfl, Csc.reads hM' (fun k hk => (hf.words k hk).2) hw]; rfl
  | csr m => rw [formatName, if_neg n2.1, if_neg n2.2, if_pos rfl, Csr.reads hM' (fun k hk => (hf.words k hk).2) hw]; rfl
  | dia m => rw [formatName, if_neg n3.1, if_neg n3.2.1, if_neg n3.2.2, if_pos rfl, Dia.reads hw]; rfl
  | bsr m =>
    rw [formatName, if_neg n4.1, if_neg n4.2.1, if_neg n4.2.2.1, if_neg n4.2.2.2, if_pos rfl, Bsr.reads hM' (fun k hk => (hf.words k hk).2) hw]
    rfl

theorem map_exact (ht : Exact t) (l : List t.Val) : l.map (readBack t d) = l := by
  conv => rhs; rw [← List.map_id l]
  exact List.map_congr_left fun v _ => readBack_exact t d v ht

/-- C53: for element types without strings the very same matrix. -/
theorem C53_exact (hM : M.Wf) (hM' : M'.Wf) (hpy : py.ExtendsRef) (ht : Exact t) {m : Sparse t} (hdef : t.defaultDType M = some (.ok d))
    (hf : SparseFits M M' d m) {z z' : NpzWriter} (h : m.writeNpz M hdef z = (.ok (), z')) :
    Sparse.fromNpz M' py t z'.archive = .ok m := by
  rw [C53_round_trip hM hM' hpy hdef hf h]
  cases m <;> simp only [mapData, map_exact ht]

/-- C53: the same for the reader of each format. -/
theorem C53_coo (hM : M.Wf) (hM' : M'.Wf) (hpy : py.ExtendsRef) (ht : Exact t) {m : Coo t} (hdef : t.defaultDType M = some (.ok d))
    (hf : SparseFits M M' d (.coo m)) {z z' : NpzWriter} (h : m.writeNpz M hdef z = (.ok (), z')) :
    Coo.fromNpz M' py t z'.archive = .ok m := by
  rw [Coo.reads (write_written hM hM' hpy (m := .coo m) hdef hf h), map_exact ht]

/-- C53, CSR. -/
theorem C53_csr (hM : M.Wf) (hM' : M'.Wf) (hpy : py.ExtendsRef) (ht : Exact t) {m : Csr t} (hdef : t.defaultDType M = some (.ok d))
    (hf : SparseFits M M' d (.csr m)) {z z' : NpzWriter} (h : m.writeNpz M hdef z = (.ok (), z')) :
    Csr.fromNpz M' py t z'.archive = .ok m := by
  rw [Csr.reads hM' (fun k hk => (hf.words k hk).2) (write_written hM hM' hpy (m := .csr m) hdef hf h), map_exact ht]

/-- C53, CSC. -/
theorem C53_csc (hM : M.Wf) (hM' : M'.Wf) (hpy : py.ExtendsRef) (ht : Exact t) {m : Csc t} (hdef : t.defaultDType M = some (.ok d))
    (hf : SparseFits M M' d (.csc m)) {z z' : NpzWriter} (h : m.writeNpz M hdef z = (.ok (), z')) :
    Csc.fromNpz M' py t z'.archive = .ok m := by
  rw [Csc.reads hM' (fun k hk => (hf.words k hk).2) (write_written hM hM' hpy (m := .csc m) hdef hf h), map_exact ht]

/-- C53, DIA. -/
theorem C53_dia (hM : M.Wf) (hM' : M'.Wf) (hpy : py.ExtendsRef) (ht : Exact t) {m : Dia t} (hdef : t.defaultDType M = some (.ok d))
    (hf : SparseFits M M' d (.dia m)) {z z' : NpzWriter} (h : m.writeNpz M hdef z = (.ok (), z')) :
    Dia.fromNpz M' py t z'.archive = .ok m := by
  rw [Dia.reads (write_written hM hM' hpy (m := .dia m) hdef hf h), map_exact ht]

/-- C53, BSR. -/
theorem C53_bsr (hM : M.Wf) (hM' : M'.Wf) (hpy : py.ExtendsRef) (ht : Exact t) {m : Bsr t} (hdef : t.defaultDType M = some (.ok d))
    (hf : SparseFits M M' d (.bsr m)) {z z' : NpzWriter} (h : m.writeNpz M hdef z = (.ok (), z')) :
    Bsr.fromNpz M' py t z'.archive = .ok m := by
  rw [Bsr.reads hM' (fun k hk => (hf.words k hk).2) (write_written hM hM' hpy (m := .bsr m) hdef hf h), map_exact ht]

/-- C53: every matrix that satisfies the checks can be written, if the default dtype of its elements is
not an array dtype at top level, the header of its data has at most 65525 bytes and each element can be
encoded (always the case for elements without strings). -/
theorem C53_succeeds (hM : M.Wf) {m : Sparse t} (hdef : t.defaultDType M = some (.ok d)) (hf : SparseFits M M' d m)
    (hc : Consistent m) (hna : d.NotArray) (hlen : dictBytes d .c (.nd (dataDims m)) ≤ 65525) (he : ∀ v ∈ dataOf m, encode t d v ≠ none)
    (z : NpzWriter) : ∃ z', m.writeNpz M hdef z = (.ok (), z') := by
  have hv : ∀ s ∈ ["coo", "csr", "csc", "dia", "bsr"], encodeBytes s3 (strBytes s) ≠ none := by decide +kernel
  have hn : ∀ s ∈ ["coo", "csr", "csc", "dia", "bsr"], encode .vecU8 (.plain s3) (strBytes s) ≠ none := hv
  have one : ∀ n : Nat, [n].prod = n := fun n => by simp [List.prod_cons, List.prod_nil]
  have then_ok : ∀ {r : Res Unit × NpzWriter} {k : NpzWriter → Res Unit × NpzWriter}, (∃ z', r = (.ok (), z')) →
      (∀ z, ∃ z', k z = (.ok (), z')) → ∃ z', Sparse.andThen r k = (.ok (), z') := by
    rintro _ k ⟨z1, rfl⟩ hk
    exact hk z1
  have assert_ok : ∀ {c : Bool} {k : NpzWriter → Res Unit × NpzWriter}, c = true → (∀ z, ∃ z', k z = (.ok (), z')) →
      ∀ z, ∃ z', assertThat c k z = (.ok (), z') := by
    rintro _ k rfl hk z
    exact hk z
  have hl : ∀ x ∈ indexArrays m, x.2.length < 2 ^ 64 := hf.count.2
  cases m with
  | coo m =>
    refine then_ok (writeFormat_succeeds hM (hn "coo" (by simp)) z) fun z => then_ok (writeShape_succeeds hM _ z) fun z => ?_
    refine then_ok (writeIndices_succeeds hM (hl ("row", m.row) (by simp [indexArrays])) z) fun z => ?_
    refine then_ok (writeIndices_succeeds hM (hl ("col", m.col) (by simp [indexArrays])) z) fun z => ?_
    exact data_succeeds hM hdef hf (one _) hna hlen he z
  | csr m =>
    refine then_ok (writeFormat_succeeds hM (hn "csr" (by simp)) z) fun z => then_ok (writeShape_succeeds hM _ z) fun z => ?_
    refine then_ok (writeIndices_succeeds hM (hl ("indices", m.indices) (by simp [indexArrays])) z) fun z => ?_
    refine then_ok (writeIndices_succeeds hM (hl ("indptr", m.indptr.map (BitVec.ofNat 64)) (by simp [indexArrays])) z) fun z => ?_
    exact data_succeeds hM hdef hf (one _) hna hlen he z
  | csc m =>
    refine then_ok (writeFormat_succeeds hM (hn "csc" (by simp)) z) fun z => then_ok (writeShape_succeeds hM _ z) fun z => ?_
    refine then_ok (writeIndices_succeeds hM (hl ("indices", m.indices) (by simp [indexArrays])) z) fun z => ?_
    refine then_ok (writeIndices_succeeds hM (hl ("indptr", m.indptr.map (BitVec.ofNat 64)) (by simp [indexArrays])) z) fun z => ?_
    exact data_succeeds hM hdef hf (one _) hna hlen he z
  | dia m =>
    obtain ⟨h0, k, hk⟩ := hc
    refine then_ok (writeFormat_succeeds hM (hn "dia" (by simp)) z) fun z => then_ok (writeShape_succeeds hM _ z) fun z => ?_
    refine then_ok (writeIndices_succeeds hM (hl ("offsets", m.offsets) (by simp [indexArrays])) z) ?_
    have hpos : m.offsets.length ≠ 0 := fun e => h0 (List.length_eq_zero_iff.mp e)
    refine assert_ok ?_ fun z => data_succeeds hM hdef hf ?_ hna hlen he z
    · unfold Dia.check
      simp [h0, hk]
    · show [m.data.length / m.offsets.length, m.offsets.length].prod = m.data.length
      rw [List.prod_cons, one, hk, Nat.mul_div_cancel _ (by omega)]
  | bsr m =>
    refine then_ok (writeFormat_succeeds hM (hn "bsr" (by simp)) z) fun z => then_ok (writeShape_succeeds hM _ z) fun z => ?_
    refine then_ok (writeIndices_succeeds hM (hl ("indices", m.indices) (by simp [indexArrays])) z) fun z => ?_
    refine then_ok (writeIndices_succeeds hM (hl ("indptr", m.indptr.map (BitVec.ofNat 64)) (by simp [indexArrays])) z) ?_
    have hc : m.data.length = m.indices.length * m.blocksize.1 * m.blocksize.2 := hc
    refine assert_ok ((Bsr.check_exact hf.prod).mpr hc) fun z => data_succeeds hM hdef hf ?_ hna hlen he z
    show [m.indices.length, m.blocksize.1, m.blocksize.2].prod = m.data.length
    rw [List.prod_cons, List.prod_cons, one, hc, Nat.mul_assoc]

/-- C53: for element types without strings, encoding does not fail. -/
theorem C53_succeeds_exact (hM : M.Wf) (ht : Exact t) {m : Sparse t} (hdef : t.defaultDType M = some (.ok d)) (hf : SparseFits M M' d m)
    (hc : Consistent m) (hna : d.NotArray) (hlen : dictBytes d .c (.nd (dataDims m)) ≤ 65525) (z : NpzWriter) :
    ∃ z', m.writeNpz M hdef z = (.ok (), z') := by
  refine C53_succeeds hM hdef hf hc hna hlen (fun v _ => ?_) z
  obtain ⟨d', hd, -, hdd, -⟩ := default_ok hM t _ hf.consts hdef
  cases hd
  exact exact_encodes t d ht (default_canRead _ t d hdd) v

/-- C53: the checks of the writer are exactly these: an inconsistent matrix makes it panic. -/
theorem C53_checks (hM : M.Wf) {m : Sparse t} (hdef : t.defaultDType M = some (.ok d)) (hf : SparseFits M M' d m)
    (hc : ¬ Consistent m) (z : NpzWriter) : (m.writeNpz M hdef z).1 = .panic := by
  have hv : ∀ s ∈ ["coo", "csr", "csc", "dia", "bsr"], encodeBytes s3 (strBytes s) ≠ none := by decide +kernel
  have hn : ∀ s ∈ ["coo", "csr", "csc", "dia", "bsr"], encode .vecU8 (.plain s3) (strBytes s) ≠ none := hv
  have then_ok : ∀ {r : Res Unit × NpzWriter} {k : NpzWriter → Res Unit × NpzWriter}, (∃ z', r = (.ok (), z')) →
      (∀ z, (k z).1 = .panic) → (Sparse.andThen r k).1 = .panic := by
    rintro _ k ⟨z1, rfl⟩ hk
    exact hk z1
  have assert_ok : ∀ {c : Bool} {k : NpzWriter → Res Unit × NpzWriter}, c = false → ∀ z, (assertThat c k z).1 = .panic := by
    rintro _ k rfl z
    rfl
  have hl : ∀ x ∈ indexArrays m, x.2.length < 2 ^ 64 := hf.count.2
  cases m with
  | coo m => exact absurd trivial hc
  | csr m => exact absurd trivial hc
  | csc m => exact absurd trivial hc
  | dia m =>
    refine then_ok (writeFormat_succeeds hM (hn "dia" (by simp)) z) fun z => then_ok (writeShape_succeeds hM _ z) fun z => ?_
    refine then_ok (writeIndices_succeeds hM (hl ("offsets", m.offsets) (by simp [indexArrays])) z) (assert_ok ?_)
    unfold Dia.check
    by_cases h0 : m.offsets.length = 0
    · simp [h0]
    · have : m.data.length % m.offsets.length ≠ 0 := by
        intro e
        refine hc ⟨fun e => h0 (by rw [e]; rfl), m.data.length / m.offsets.length, ?_⟩
        exact (Nat.div_mul_cancel (Nat.dvd_of_mod_eq_zero e)).symm
      simp [this]
  | bsr m =>
    refine then_ok (writeFormat_succeeds hM (hn "bsr" (by simp)) z) fun z => then_ok (writeShape_succeeds hM _ z) fun z => ?_
    refine then_ok (writeIndices_succeeds hM (hl ("indices", m.indices) (by simp [indexArrays])) z) fun z => ?_
    refine then_ok (writeIndices_succeeds hM (hl ("indptr", m.indptr.map (BitVec.ofNat 64)) (by simp [indexArrays])) z) (assert_ok ?_)
    cases hb : m.check M with
    | false => rfl
    | true => exact absurd ((Bsr.check_exact hf.prod).mp hb) hc

/-! ### C54 -/

/-- C54, what holds: every index array is stored with 4 bytes per index exactly if all indices, taken as
signed 64-bit numbers, fit into 32 bits, else with 8 bytes. -/
theorem C54_stored_partial (hM : M.Wf) (hM' : M'.Wf) (hpy : py.ExtendsRef) {m : Sparse t} (hdef : t.defaultDType M = some (.ok d))
    (hf : SparseFits M M' d m) {z z' : NpzWriter} (h : m.writeNpz M hdef z = (.ok (), z')) :
    ∀ x ∈ indexArrays m, StoredIndices M M' py z'.archive x.1 x.2 :=
  fun x hx => ((write_written hM hM' hpy hdef hf h).indices x hx).2

/-- C54: for unsigned indices below `2^64 - 2^31` this is the same as: all of them are below `2^31`. -/
theorem C54_unsigned_partial (xs : List (BitVec 64)) (h : ∀ x ∈ xs, x.toNat < 2 ^ 64 - 2 ^ 31) :
    (∀ x ∈ xs, FitsI32 x.toInt) ↔ ∀ x ∈ xs, x.toNat < 2 ^ 31 := by
  constructor
  · intro h1 x hx
    obtain ⟨h2, h3⟩ := h1 x hx
    have := h x hx
    rw [BitVec.toInt_eq_toNat_cond] at h2 h3
    split at h2 <;> split at h3 <;> omega
  · intro h1 x hx
    have := h1 x hx
    unfold FitsI32
    rw [BitVec.toInt_eq_toNat_cond]
    split <;> omega

/-- C54: either way the same indices are read back (also those of `C54_violated`). -/
theorem C54_read_back (hM : M.Wf) (hM' : M'.Wf) (hpy : py.ExtendsRef) {m : Sparse t} (hdef : t.defaultDType M = some (.ok d))
    (hf : SparseFits M M' d m) {z z' : NpzWriter} (h : m.writeNpz M hdef z = (.ok (), z')) :
    ∃ m', Sparse.fromNpz M' py t z'.archive = .ok m' ∧ indexArrays m' = indexArrays m := by
  refine ⟨_, C53_round_trip hM hM' hpy hdef hf h, ?_⟩
  cases m <;> rfl

/-! ### C55 -/

/-- What the readers of the formats share: they begin with the check of the format. -/
theorem expect_bind_ok {α : Type} {a : NpzArchive} {name : String} {k : Unit → Res α} {m : α}
    (h : (expectFormat M py a name >>= k) = .ok m) : formatOf M py a = .ok (strBytes name) := by
  cases he : expectFormat M py a name with
  | ok u => exact expectFormat_iff.mp he
  | err e => rw [he] at h; cases h
  | panic => rw [he] at h; cases h

theorem expect_bind_err {α : Type} {a : NpzArchive} {name : String} {f : Bytes} (hf : formatOf M py a = .ok f) (hne : f ≠ strBytes name)
    (k : Unit → Res α) : ∃ e, (expectFormat M py a name >>= k) = .err e := by
  unfold expectFormat
  rw [hf, Out.bind_ok]
  rw [if_pos hne]
  exact ⟨_, rfl⟩

theorem map_iff {α β : Type} {x : Res α} {f : α → β} (hf : ∀ a b, f a = f b → a = b) (a : α) : (x >>= fun m => .ok (f m)) = .ok (f a) ↔ x = .ok a := by
  cases x with
  | ok b =>
    rw [Out.bind_ok]
    exact ⟨fun h => congrArg Out.ok (hf _ _ (Out.ok.inj h)), fun h => congrArg (fun z => Out.ok (f z)) (Out.ok.inj h)⟩
  | err e => exact ⟨fun h => (by cases h), fun h => (by cases h)⟩
  | panic => exact ⟨fun h => (by cases h), fun h => (by cases h)⟩

theorem map_ne {α β : Type} {x : Res α} {f : α → β} {b : β} (hf : ∀ a, f a ≠ b) : (x >>= fun m => .ok (f m)) ≠ .ok b := by
  cases x with
  | ok a => rw [Out.bind_ok]; exact fun h => hf a (Out.ok.inj h)
  | err e => exact fun h => by cases h
  | panic => exact fun h => by cases h

/-- C55: `Sparse::from_npz` reads a matrix of a format exactly if the reader of that format does. -/
theorem C55_dispatch (M : Machine) (py : PyParser) (t : Ty) (a : NpzArchive) :
    (∀ m, Sparse.fromNpz M py t a = .ok (.coo m) ↔ Coo.fromNpz M py t a = .ok m) ∧
    (∀ m, Sparse.fromNpz M py t a = .ok (.csr m) ↔ Csr.fromNpz M py t a = .ok m) ∧
    (∀ m, Sparse.fromNpz M py t a = .ok (.csc m) ↔ Csc.fromNpz M py t a = .ok m) ∧
    (∀ m, Sparse.fromNpz M py t a = .ok (.dia m) ↔ Dia.fromNpz M py t a = .ok m) ∧
    (∀ m, Sparse.fromNpz M py t a = .ok (.bsr m) ↔ Bsr.fromNpz M py t a = .ok m) := by
  have n1 : strBytes "csc" ≠ strBytes "coo" := by decide +kernel
  have n2 : strBytes "csr" ≠ strBytes "coo" ∧ strBytes "csr" ≠ strBytes "csc" := by decide +kernel
  have n3 : strBytes "dia" ≠ strBytes "coo" ∧ strBytes "dia" ≠ strBytes "csc" ∧ strBytes "dia" ≠ strBytes "csr" := by decide +kernel
  have n4 : strBytes "bsr" ≠ strBytes "coo" ∧ strBytes "bsr" ≠ strBytes "csc" ∧ strBytes "bsr" ≠ strBytes "csr" ∧ strBytes "bsr" ≠ strBytes "dia" := by
    decide +kernel
  have d1 : Sparse.dispatch M py t a (strBytes "coo") = (Coo.fromNpz M py t a >>= fun m => .ok (.coo m)) := by
    unfold Sparse.dispatch; rw [if_pos rfl]
  have d2 : Sparse.dispatch M py t a (strBytes "csc") = (Csc.fromNpz M py t a >>= fun m => .ok (.csc m)) := by
    unfold Sparse.dispatch; rw [if_neg n1, if_pos rfl]
  have d3 : Sparse.dispatch M py t a (strBytes "csr") = (Csr.fromNpz M py t a >>= fun m => .ok (.csr m)) := by
    unfold Sparse.dispatch; rw [if_neg n2.1, if_neg n2.2, if_pos rfl]
  have d4 : Sparse.dispatch M py t a (strBytes "dia") = (Dia.fromNpz M py t a >>= fun m => .ok (.dia m)) := by
    unfold Sparse.dispatch; rw [if_neg n3.1, if_neg n3.2.1, if_neg n3.2.2, if_pos rfl]
  have d5 : Sparse.dispatch M py t a (strBytes "bsr") = (Bsr.fromNpz M py t a >>= fun m => .ok (.bsr m)) := by
    unfold Sparse.dispatch; rw [if_neg n4.1, if_neg n4.2.1, if_neg n4.2.2.1, if_neg n4.2.2.2, if_pos rfl]
  have hcases : ∀ {m : Sparse t}, Sparse.fromNpz M py t a = .ok m →
      ((Coo.fromNpz M py t a >>= fun m => .ok (.coo m)) = .ok m ∨ (Csc.fromNpz M py t a >>= fun m => .ok (.csc m)) = .ok m ∨
      (Csr.fromNpz M py t a >>= fun m => .ok (.csr m)) = .ok m ∨ (Dia.fromNpz M py t a >>= fun m => .ok (.dia m)) = .ok m ∨
      (Bsr.fromNpz M py t a >>= fun m => .ok (.bsr m)) = .ok m) := by
    intro m h
    unfold Sparse.fromNpz at h
    cases hf : formatOf M py a with
    | err e => rw [hf] at h; cases h
    | panic => rw [hf] at h; cases h
    | ok f =>
      rw [hf, Out.bind_ok] at h
      by_cases h1 : f = strBytes "coo"
      · exact .inl (by rw [← d1, ← h1, h])
      by_cases h2 : f = strBytes "csc"
      · exact .inr (.inl (by rw [← d2, ← h2, h]))
      by_cases h3 : f = strBytes "csr"
      · exact .inr (.inr (.inl (by rw [← d3, ← h3, h])))
      by_cases h4 : f = strBytes "dia"
      · exact .inr (.inr (.inr (.inl (by rw [← d4, ← h4, h]))))
      by_cases h5 : f = strBytes "bsr"
      · exact .inr (.inr (.inr (.inr (by rw [← d5, ← h5, h]))))
      · unfold Sparse.dispatch at h
        rw [if_neg h1, if_neg h2, if_neg h3, if_neg h4, if_neg h5] at h
        cases h
  refine ⟨fun m => ⟨fun h => ?_, fun h => ?_⟩, fun m => ⟨fun h => ?_, fun h => ?_⟩, fun m => ⟨fun h => ?_, fun h => ?_⟩,
    fun m => ⟨fun h => ?_, fun h => ?_⟩, fun m => ⟨fun h => ?_, fun h => ?_⟩⟩
  · rcases hcases h with h | h | h | h | h
    all_goals first | exact (map_iff (fun a b e => by cases e; rfl) m).mp h | exact absurd h (map_ne fun a e => by cases e)
  · unfold Sparse.fromNpz
    rw [expect_bind_ok h, Out.bind_ok, d1, h]; rfl
  · rcases hcases h with h | h | h | h | h
    all_goals first | exact (map_iff (fun a b e => by cases e; rfl) m).mp h | exact absurd h (map_ne fun a e => by cases e)
  · unfold Sparse.fromNpz
    rw [expect_bind_ok h, Out.bind_ok, d3, h]; rfl
  · rcases hcases h with h | h | h | h | h
    all_goals first | exact (map_iff (fun a b e => by cases e; rfl) m).mp h | exact absurd h (map_ne fun a e => by cases e)
  · unfold Sparse.fromNpz
    rw [expect_bind_ok h, Out.bind_ok, d2, h]; rfl
  · rcases hcases h with h | h | h | h | h
    all_goals first | exact (map_iff (fun a b e => by cases e; rfl) m).mp h | exact absurd h (map_ne fun a e => by cases e)
  · unfold Sparse.fromNpz
    rw [expect_bind_ok h, Out.bind_ok, d4, h]; rfl
  · rcases hcases h with h | h | h | h | h
    all_goals first | exact (map_iff (fun a b e => by cases e; rfl) m).mp h | exact absurd h (map_ne fun a e => by cases e)
  · unfold Sparse.fromNpz
    rw [expect_bind_ok h, Out.bind_ok, d5, h]; rfl

/-- C55: once a matrix was written, the readers of the other formats fail, for every element type. -/
theorem C55_rejected (hM : M.Wf) (hM' : M'.Wf) (hpy : py.ExtendsRef) {m : Sparse t} (hdef : t.defaultDType M = some (.ok d))
    (hf : SparseFits M M' d m) {z z' : NpzWriter} (h : m.writeNpz M hdef z = (.ok (), z')) (t' : Ty) :
    (formatName m ≠ "coo" → ∃ e, Coo.fromNpz M' py t' z'.archive = .err e) ∧
    (formatName m ≠ "csr" → ∃ e, Csr.fromNpz M' py t' z'.archive = .err e) ∧
    (formatName m ≠ "csc" → ∃ e, Csc.fromNpz M' py t' z'.archive = .err e) ∧
    (formatName m ≠ "dia" → ∃ e, Dia.fromNpz M' py t' z'.archive = .err e) ∧
    (formatName m ≠ "bsr" → ∃ e, Bsr.fromNpz M' py t' z'.archive = .err e) := by
  have hw := (write_written hM hM' hpy hdef hf h).format
  have key : ∀ x ∈ ["coo", "csr", "csc", "dia", "bsr"], ∀ y ∈ ["coo", "csr", "csc", "dia", "bsr"], x ≠ y → strBytes x ≠ strBytes y := by
    decide +kernel
  have hin : formatName m ∈ ["coo", "csr", "csc", "dia", "bsr"] := by cases m <;> simp [formatName]
  exact ⟨fun hn => expect_bind_err hw (key _ hin _ (by simp) hn) _, fun hn => expect_bind_err hw (key _ hin _ (by simp) hn) _,
    fun hn => expect_bind_err hw (key _ hin _ (by simp) hn) _, fun hn => expect_bind_err hw (key _ hin _ (by simp) hn) _,
    fun hn => expect_bind_err hw (key _ hin _ (by simp) hn) _⟩

/-- C55: `Sparse::from_npz` returns the format that was written. -/
theorem C55_format (hM : M.Wf) (hM' : M'.Wf) (hpy : py.ExtendsRef) {m : Sparse t} (hdef : t.defaultDType M = some (.ok d))
    (hf : SparseFits M M' d m) {z z' : NpzWriter} (h : m.writeNpz M hdef z = (.ok (), z')) :
    ∃ m', Sparse.fromNpz M' py t z'.archive = .ok m' ∧ formatName m' = formatName m := by
  refine ⟨_, C53_round_trip hM hM' hpy hdef hf h, ?_⟩
  cases m <;> rfl

/-- C55: the array `format` of the archive decides which reader can succeed; any other format name is
rejected by all of them. -/
theorem C55_unknown {a : NpzArchive} {f : Bytes} (hf : formatOf M py a = .ok f)
    (hn : ∀ x ∈ ["coo", "csr", "csc", "dia", "bsr"], f ≠ strBytes x) :
    (∃ e, Sparse.fromNpz M py t a = .err e) ∧ (∃ e, Coo.fromNpz M py t a = .err e) ∧ (∃ e, Csr.fromNpz M py t a = .err e) ∧
    (∃ e, Csc.fromNpz M py t a = .err e) ∧ (∃ e, Dia.fromNpz M py t a = .err e) ∧ ∃ e, Bsr.fromNpz M py t a = .err e := by
  refine ⟨⟨.invalidData "bad format", ?_⟩, expect_bind_err hf (hn _ (by simp)) _, expect_bind_err hf (hn _ (by simp)) _,
    expect_bind_err hf (hn _ (by simp)) _, expect_bind_err hf (hn _ (by simp)) _, expect_bind_err hf (hn _ (by simp)) _⟩
  unfold Sparse.fromNpz
  rw [hf, Out.bind_ok]
  unfold Sparse.dispatch
  rw [if_neg (hn _ (by simp)), if_neg (hn _ (by simp)), if_neg (hn _ (by simp)), if_neg (hn _ (by simp)), if_neg (hn _ (by simp))]

/-! ### C56 -/

/-- C56, what holds: the shape in the archive is [length, number of offsets]. -/
theorem C56_shape_partial (hM : M.Wf) (hM' : M'.Wf) (hpy : py.ExtendsRef) {m : Dia t} (hdef : t.defaultDType M = some (.ok d))
    (hf : SparseFits M M' d (.dia m)) {z z' : NpzWriter} (h : m.writeNpz M hdef z = (.ok (), z')) :
    Holds M' py t z'.archive (txt "data") d [m.data.length / m.offsets.length, m.offsets.length] .c (m.data.map (readBack t d)) :=
  (write_written hM hM' hpy (m := .dia m) hdef hf h).data

/-- C56: a matrix without offsets cannot be written: the writer panics. -/
theorem C56_no_offsets (hM : M.Wf) {m : Dia t} (hdef : t.defaultDType M = some (.ok d)) (hf : SparseFits M M' d (.dia m))
    (h0 : m.offsets = []) (z : NpzWriter) : (m.writeNpz M hdef z).1 = .panic :=
  C53_checks hM (m := .dia m) hdef hf (fun h => h.1 h0) z

/-! ### C57 -/

theorem index_np {l : List Nat} {i : Nat} (h : i < l.length) : index l i ≠ .panic := by
  unfold index
  rw [List.getElem?_eq_getElem h]
  simp

/-- C57: no reader of sparse matrices panics on an archive whose arrays can be opened without panic and
have elements of at most `isize::MAX` bytes, whatever arrays are missing, malformed or of another shape
or type. -/
theorem C57_no_panic {a : NpzArchive} (ha : WellFormed M py a) (t : Ty) :
    Sparse.fromNpz M py t a ≠ .panic ∧ Coo.fromNpz M py t a ≠ .panic ∧ Csr.fromNpz M py t a ≠ .panic ∧ Csc.fromNpz M py t a ≠ .panic ∧
    Dia.fromNpz M py t a ≠ .panic ∧ Bsr.fromNpz M py t a ≠ .panic := by
  have ok_np : ∀ {α : Type} (x : α), (Out.ok x : Res α) ≠ .panic := by simp
  have coo : Coo.fromNpz M py t a ≠ .panic :=
    bind_np (expectFormat_np ha _) fun _ _ => bind_np (extractShape_np ha _) fun _ _ => bind_np (extractIndices_np ha _) fun _ _ =>
      bind_np (extractIndices_np ha _) fun _ _ => bind_np (extract1d_np ha _ _) fun _ _ => ok_np _
  have csr : Csr.fromNpz M py t a ≠ .panic :=
    bind_np (expectFormat_np ha _) fun _ _ => bind_np (extractShape_np ha _) fun _ _ => bind_np (extractIndices_np ha _) fun _ _ =>
      bind_np (extractUsizeIndices_np ha _) fun _ _ => bind_np (extract1d_np ha _ _) fun _ _ => ok_np _
  have csc : Csc.fromNpz M py t a ≠ .panic :=
    bind_np (expectFormat_np ha _) fun _ _ => bind_np (extractShape_np ha _) fun _ _ => bind_np (extractIndices_np ha _) fun _ _ =>
      bind_np (extractUsizeIndices_np ha _) fun _ _ => bind_np (extract1d_np ha _ _) fun _ _ => ok_np _
  have dia : Dia.fromNpz M py t a ≠ .panic :=
    bind_np (expectFormat_np ha _) fun _ _ => bind_np (extractShape_np ha _) fun _ _ => bind_np (extractIndices_np ha _) fun _ _ =>
      bind_np (extractNd_np ha _ _ _).1 fun _ _ => ok_np _
  have bsr : Bsr.fromNpz M py t a ≠ .panic :=
    bind_np (expectFormat_np ha _) fun _ _ => bind_np (extractShape_np ha _) fun _ _ => bind_np (extractIndices_np ha _) fun _ _ =>
      bind_np (extractUsizeIndices_np ha _) fun _ _ => bind_np (extractNd_np ha _ _ _).1 fun r hr =>
        bind_np (index_np (by rw [(extractNd_np ha t "data" 3).2 r hr]; omega)) fun _ _ =>
          bind_np (index_np (by rw [(extractNd_np ha t "data" 3).2 r hr]; omega)) fun _ _ => ok_np _
  refine ⟨?_, coo, csr, csc, dia, bsr⟩
  refine bind_np (formatOf_np ha) fun f _ => ?_
  unfold Sparse.dispatch
  split
  · exact bind_np coo fun _ _ => ok_np _
  split
  · exact bind_np csc fun _ _ => ok_np _
  split
  · exact bind_np csr fun _ _ => ok_np _
  split
  · exact bind_np dia fun _ _ => ok_np _
  split
  · exact bind_np bsr fun _ _ => ok_np _
  · simp

end

/-! ### C62 -/

section
variable {M : Machine} {py : PyParser} {t : Ty} {a : NpzArchive}

/-- C62: a COO matrix is read exactly if the archive has all its parts. -/
theorem C62_coo (hM : M.Wf) {m : Coo t} : Coo.fromNpz M py t a = .ok m ↔
    HasFormat M py a "coo" ∧ HasIndices M py a "shape" [m.shape.1, m.shape.2] ∧ HasIndices M py a "row" m.row ∧
    HasIndices M py a "col" m.col ∧ ∃ d o n, Holds M py t a (txt "data") d [n] o m.data := by
  unfold Coo.fromNpz
  simp only [bind_ok_iff, ← expect_iff, ← shape_iff hM, ← indices_iff hM, ← extract1d_iff]
  constructor
  · rintro ⟨u, h1, s, h2, x, h3, y, h4, z, h5, h6⟩
    cases h6
    exact ⟨h1, h2, h3, h4, h5⟩
  · rintro ⟨h1, h2, h3, h4, h5⟩
    exact ⟨(), h1, _, h2, _, h3, _, h4, _, h5, rfl⟩

/-- C62, CSR. -/
theorem C62_csr (hM : M.Wf) {m : Csr t} : Csr.fromNpz M py t a = .ok m ↔
    HasFormat M py a "csr" ∧ HasIndices M py a "shape" [m.shape.1, m.shape.2] ∧ HasIndices M py a "indices" m.indices ∧
    (∃ xs, HasIndices M py a "indptr" xs ∧ m.indptr = asUsize M xs) ∧ ∃ d o n, Holds M py t a (txt "data") d [n] o m.data := by
  unfold Csr.fromNpz
  simp only [bind_ok_iff, ← expect_iff, ← shape_iff hM, ← indices_iff hM, ← extract1d_iff]
  simp only [indices_iff hM, usizeIndices_iff hM]
  constructor
  · rintro ⟨u, h1, s, h2, x, h3, y, h4, z, h5, h6⟩
    cases h6
    exact ⟨h1, h2, h3, h4, h5⟩
  · rintro ⟨h1, h2, h3, h4, h5⟩
    exact ⟨(), h1, _, h2, _, h3, _, h4, _, h5, rfl⟩

/-- C62, CSC. -/
theorem C62_csc (hM : M.Wf) {m : Csc t} : Csc.fromNpz M py t a = .ok m ↔
    HasFormat M py a "csc" ∧ HasIndices M py a "shape" [m.shape.1, m.shape.2] ∧ HasIndices M py a "indices" m.indices ∧
    (∃ xs, HasIndices M py a "indptr" xs ∧ m.indptr = asUsize M xs) ∧ ∃ d o n, Holds M py t a (txt "data") d [n] o m.data := by
  unfold Csc.fromNpz
  simp only [bind_ok_iff, ← expect_iff, ← shape_iff hM, ← indices_iff hM, ← extract1d_iff]
  simp only [indices_iff hM, usizeIndices_iff hM]
  constructor
  · rintro ⟨u, h1, s, h2, x, h3, y, h4, z, h5, h6⟩
    cases h6
    exact ⟨h1, h2, h3, h4, h5⟩
  · rintro ⟨h1, h2, h3, h4, h5⟩
    exact ⟨(), h1, _, h2, _, h3, _, h4, _, h5, rfl⟩

/-- C62, DIA: the data has two axes and is in C order. -/
theorem C62_dia (hM : M.Wf) {m : Dia t} : Dia.fromNpz M py t a = .ok m ↔
    HasFormat M py a "dia" ∧ HasIndices M py a "shape" [m.shape.1, m.shape.2] ∧ HasIndices M py a "offsets" m.offsets ∧
    ∃ d n k, Holds M py t a (txt "data") d [n, k] .c m.data := by
  unfold Dia.fromNpz
  simp only [bind_ok_iff, ← expect_iff, ← shape_iff hM, ← indices_iff hM, extractNd_iff]
  constructor
  · rintro ⟨u, h1, s, h2, x, h3, r, ⟨d, dims, h4, h5, -⟩, h6⟩
    cases h6
    match dims, h4 with
    | [n, k], _ => exact ⟨h1, h2, h3, d, n, k, h5⟩
  · rintro ⟨h1, h2, h3, d, n, k, h4⟩
    exact ⟨(), h1, _, h2, _, h3, (m.data, _), ⟨d, [n, k], rfl, h4, rfl⟩, rfl⟩

/-- C62, BSR: the data has three axes and is in C order, and the second and third axis are the block
size. -/
theorem C62_bsr (hM : M.Wf) {m : Bsr t} : Bsr.fromNpz M py t a = .ok m ↔
    HasFormat M py a "bsr" ∧ HasIndices M py a "shape" [m.shape.1, m.shape.2] ∧ HasIndices M py a "indices" m.indices ∧
    (∃ xs, HasIndices M py a "indptr" xs ∧ m.indptr = asUsize M xs) ∧
    ∃ d n b0 b1, Holds M py t a (txt "data") d [n, b0, b1] .c m.data ∧ m.blocksize = (b0 % M.usizeLim, b1 % M.usizeLim) := by
  unfold Bsr.fromNpz
  simp only [bind_ok_iff, ← expect_iff, ← shape_iff hM, ← indices_iff hM, extractNd_iff]
  simp only [indices_iff hM, usizeIndices_iff hM]
  constructor
  · rintro ⟨u, h1, s, h2, x, h3, y, h4, r, ⟨d, dims, h5, h6, h7⟩, b0, h8, b1, h9, h10⟩
    cases h10
    match dims, h5 with
    | [n, k0, k1], _ =>
      rw [h7] at h8 h9
      cases h8
      cases h9
      exact ⟨h1, h2, h3, h4, d, n, k0, k1, h6, rfl⟩
  · obtain ⟨shape, block, data, indices, indptr⟩ := m
    rintro ⟨h1, h2, h3, h4, d, n, b0, b1, h5, rfl⟩
    exact ⟨(), h1, _, h2, _, h3, _, h4, (data, _), ⟨d, [n, b0, b1], rfl, h5, rfl⟩, _, rfl, _, rfl, rfl⟩

end

/-! ### Concrete matrices -/

/-- A 64-bit little-endian machine with overflow checks. -/
def pc : Machine := ⟨false, 64, true⟩

theorem pc_wf : pc.Wf := .inr rfl

theorem f64_default : f64.defaultDType pc = some (.ok (.plain ⟨.little, .float, 8, none⟩)) := rfl

/-- Matrices of numbers meet the hypotheses if their lengths, block sizes and pointers are small. -/
theorem pc_fits {m : Sparse f64} (hmem : dictBytes (.plain ⟨.little, .float, 8, none⟩) .c (.nd (dataDims m)) + 76 ≤ 65601)
    (hd : (dataOf m).length < 2 ^ 64) (hi : ∀ a ∈ indexArrays m, a.2.length < 2 ^ 64) (hu : ∀ k ∈ usizes m, k < 2 ^ 64)
    (hp : nonzeroProd (dataDims m) < 2 ^ 64) : SparseFits pc pc (.plain ⟨.little, .float, 8, none⟩) m where
  consts := trivial
  size := ⟨8, rfl, by decide +kernel, by decide +kernel⟩
  fits := by
    intro n hn
    have : n = 8 := by simpa [itemBytes] using hn.symm
    subst this
    decide +kernel
  mem := by have : 65601 ≤ pc.isizeMax := by decide +kernel
            omega
  count := ⟨hd, hi⟩
  words k hk := ⟨hu k hk, hu k hk⟩
  prod := hp

/-- 2 by 3 matrices with the elements 1 and 2, one of each format. -/
def cooMatrix : Sparse f64 := .coo ⟨(2#64, 3#64), [1#64, 2#64], [0#64, 1#64], [2#64, 0#64]⟩
def csrMatrix : Sparse f64 := .csr ⟨(2#64, 3#64), [1#64, 2#64], [2#64, 0#64], [0, 1, 2]⟩
def cscMatrix : Sparse f64 := .csc ⟨(2#64, 3#64), [1#64, 2#64], [1#64, 0#64], [0, 1, 1, 2]⟩
def diaMatrix : Sparse f64 := .dia ⟨(2#64, 3#64), [1#64, 2#64, 3#64, 4#64, 5#64, 6#64], [0#64, -1#64]⟩
def bsrMatrix : Sparse f64 := .bsr ⟨(2#64, 3#64), (2, 1), [1#64, 2#64], [1#64], [0, 1]⟩

theorem cooMatrix_fits : SparseFits pc pc (.plain ⟨.little, .float, 8, none⟩) cooMatrix :=
  pc_fits (by decide +kernel) (by decide +kernel) (by decide +kernel) (by decide +kernel) (by decide +kernel)

theorem diaMatrix_fits : SparseFits pc pc (.plain ⟨.little, .float, 8, none⟩) diaMatrix :=
  pc_fits (by decide +kernel) (by decide +kernel) (by decide +kernel) (by decide +kernel) (by decide +kernel)

-- the hypotheses of C53 to C56 are met by a matrix of each format

theorem pc_written {m : Sparse f64} (h : (m.writeNpz pc f64_default .new).1 = .ok ()) : ∃ z', m.writeNpz pc f64_default .new = (.ok (), z') :=
  ⟨_, Prod.ext h rfl⟩

/-- C53_round_trip, C53_exact, C53_coo, C54_stored_partial, C54_read_back, C55_rejected, C55_format,
C62_coo: the COO matrix. -/
example : ∃ z', cooMatrix.writeNpz pc f64_default .new = (.ok (), z') ∧
    Sparse.fromNpz pc Py.parse f64 z'.archive = .ok (mapData (readBack f64 (.plain ⟨.little, .float, 8, none⟩)) cooMatrix) ∧
    Sparse.fromNpz pc Py.parse f64 z'.archive = .ok cooMatrix ∧
    Coo.fromNpz pc Py.parse f64 z'.archive = .ok ⟨(2#64, 3#64), [1#64, 2#64], [0#64, 1#64], [2#64, 0#64]⟩ ∧
    StoredIndices pc pc Py.parse z'.archive "row" [0#64, 1#64] ∧
    (∃ m', Sparse.fromNpz pc Py.parse f64 z'.archive = .ok m' ∧ indexArrays m' = indexArrays cooMatrix) ∧
    (∃ m', Sparse.fromNpz pc Py.parse f64 z'.archive = .ok m' ∧ formatName m' = "coo") ∧
    (∃ e, Dia.fromNpz pc Py.parse f64 z'.archive = .err e) ∧ HasFormat pc Py.parse z'.archive "coo" := by
  obtain ⟨z', h⟩ := pc_written (m := cooMatrix) (by decide +kernel)
  have hpy : (Py.parse).ExtendsRef := fun _ _ h => h
  have hc := C53_coo pc_wf pc_wf hpy (t := f64) trivial f64_default cooMatrix_fits h
  exact ⟨z', h, C53_round_trip pc_wf pc_wf hpy f64_default cooMatrix_fits h, C53_exact pc_wf pc_wf hpy (t := f64) trivial f64_default cooMatrix_fits h, hc,
    C54_stored_partial pc_wf pc_wf hpy f64_default cooMatrix_fits h ("row", [0#64, 1#64]) (by simp [cooMatrix, indexArrays]),
    C54_read_back pc_wf pc_wf hpy f64_default cooMatrix_fits h, C55_format pc_wf pc_wf hpy f64_default cooMatrix_fits h,
    (C55_rejected pc_wf pc_wf hpy f64_default cooMatrix_fits h f64).2.2.2.1 (by decide), ((C62_coo pc_wf).mp hc).1⟩

/-- C53_csr, C53_csc, C53_bsr, C62_csr, C62_csc, C62_bsr: the other formats with pointers. -/
example : (∃ z', csrMatrix.writeNpz pc f64_default .new = (.ok (), z') ∧
      Csr.fromNpz pc Py.parse f64 z'.archive = .ok ⟨(2#64, 3#64), [1#64, 2#64], [2#64, 0#64], [0, 1, 2]⟩ ∧ HasFormat pc Py.parse z'.archive "csr") ∧
    (∃ z', cscMatrix.writeNpz pc f64_default .new = (.ok (), z') ∧
      Csc.fromNpz pc Py.parse f64 z'.archive = .ok ⟨(2#64, 3#64), [1#64, 2#64], [1#64, 0#64], [0, 1, 1, 2]⟩ ∧ HasFormat pc Py.parse z'.archive "csc") ∧
    ∃ z', bsrMatrix.writeNpz pc f64_default .new = (.ok (), z') ∧
      Bsr.fromNpz pc Py.parse f64 z'.archive = .ok ⟨(2#64, 3#64), (2, 1), [1#64, 2#64], [1#64], [0, 1]⟩ ∧ HasFormat pc Py.parse z'.archive "bsr" := by
  have hpy : (Py.parse).ExtendsRef := fun _ _ h => h
  refine ⟨?_, ?_, ?_⟩
  · obtain ⟨z', h⟩ := pc_written (m := csrMatrix) (by decide +kernel)
    have hc := C53_csr pc_wf pc_wf hpy (t := f64) trivial f64_default (pc_fits (m := csrMatrix) (by decide +kernel) (by decide +kernel) (by decide +kernel)
      (by decide +kernel) (by decide +kernel)) h
    exact ⟨z', h, hc, ((C62_csr pc_wf).mp hc).1⟩
  · obtain ⟨z', h⟩ := pc_written (m := cscMatrix) (by decide +kernel)
    have hc := C53_csc pc_wf pc_wf hpy (t := f64) trivial f64_default (pc_fits (m := cscMatrix) (by decide +kernel) (by decide +kernel) (by decide +kernel)
      (by decide +kernel) (by decide +kernel)) h
    exact ⟨z', h, hc, ((C62_csc pc_wf).mp hc).1⟩
  · obtain ⟨z', h⟩ := pc_written (m := bsrMatrix) (by decide +kernel)
    have hc := C53_bsr pc_wf pc_wf hpy (t := f64) trivial f64_default (pc_fits (m := bsrMatrix) (by decide +kernel) (by decide +kernel) (by decide +kernel)
      (by decide +kernel) (by decide +kernel)) h
    exact ⟨z', h, hc, ((C62_bsr pc_wf).mp hc).1⟩

/-- C53_dia, C56_shape_partial, C62_dia: the DIA matrix. -/
example : ∃ z', diaMatrix.writeNpz pc f64_default .new = (.ok (), z') ∧
    Dia.fromNpz pc Py.parse f64 z'.archive = .ok ⟨(2#64, 3#64), [1#64, 2#64, 3#64, 4#64, 5#64, 6#64], [0#64, -1#64]⟩ ∧
    HasFormat pc Py.parse z'.archive "dia" ∧
    Holds pc Py.parse f64 z'.archive (txt "data") (.plain ⟨.little, .float, 8, none⟩) [3, 2] .c
      (([1#64, 2#64, 3#64, 4#64, 5#64, 6#64] : List f64.Val).map (readBack f64 (.plain ⟨.little, .float, 8, none⟩))) := by
  have hpy : (Py.parse).ExtendsRef := fun _ _ h => h
  obtain ⟨z', h⟩ := pc_written (m := diaMatrix) (by decide +kernel)
  have hc := C53_dia pc_wf pc_wf hpy (t := f64) trivial f64_default diaMatrix_fits h
  exact ⟨z', h, hc, ((C62_dia pc_wf).mp hc).1, C56_shape_partial pc_wf pc_wf hpy (t := f64) f64_default diaMatrix_fits h⟩

/-- C53_succeeds, C53_succeeds_exact, C53_checks: six elements on two diagonals; five are refused. -/
example (z : NpzWriter) : (∃ z', diaMatrix.writeNpz pc f64_default z = (.ok (), z')) ∧
    (∃ z', diaMatrix.writeNpz pc f64_default z = (.ok (), z')) ∧
    (Sparse.writeNpz pc f64_default (.dia ⟨(2#64, 3#64), [1#64, 2#64, 3#64, 4#64, 5#64], [0#64, -1#64]⟩) z).1 = .panic := by
  have hc : Consistent diaMatrix := ⟨by simp, 3, rfl⟩
  have hl : dictBytes (.plain ⟨.little, .float, 8, none⟩) .c (.nd (dataDims diaMatrix)) ≤ 65525 := by decide +kernel
  refine ⟨C53_succeeds pc_wf f64_default diaMatrix_fits hc trivial hl (fun v _ => nofun) z,
    C53_succeeds_exact pc_wf (t := f64) trivial f64_default diaMatrix_fits hc trivial hl z, ?_⟩
  refine C53_checks (M' := pc) pc_wf f64_default (pc_fits (by decide +kernel) (by decide +kernel) (by decide +kernel) (by decide +kernel) (by decide +kernel)) ?_ z
  rintro ⟨-, k, hk⟩
  have : 5 = k * 2 := hk
  omega

/-- C54_unsigned_partial: one index that needs eight bytes. -/
example : ¬ ∀ x ∈ [0x80000000#64, 5#64], FitsI32 x.toInt := by
  rw [C54_unsigned_partial _ (by simp)]
  simp

/-- C55_unknown: a format that SciPy has and the crate does not. -/
example : ∃ e, Sparse.fromNpz pc Py.parse f64
    (Spec.saveAll pc [⟨txt "format", .vecU8, .plain ⟨.irrelevant, .byteStr, 3, none⟩, .c, [], [strBytes "lil"]⟩] .new).2.archive = .err e := by
  have h : (match formatOf pc Py.parse
      (Spec.saveAll pc [⟨txt "format", .vecU8, .plain ⟨.irrelevant, .byteStr, 3, none⟩, .c, [], [strBytes "lil"]⟩] .new).2.archive with
    | .ok f => some f | _ => none) = some (strBytes "lil") := by decide +kernel
  rcases hf : formatOf pc Py.parse
    (Spec.saveAll pc [⟨txt "format", .vecU8, .plain ⟨.irrelevant, .byteStr, 3, none⟩, .c, [], [strBytes "lil"]⟩] .new).2.archive with f | e | _
  · rw [hf] at h
    cases h
    exact (C55_unknown hf (by decide)).1
  · rw [hf] at h; cases h
  · rw [hf] at h; cases h

/-- C56_no_offsets. -/
example (z : NpzWriter) : (Dia.writeNpz pc f64_default ⟨(2#64, 3#64), [1#64], []⟩ z).1 = .panic :=
  C56_no_offsets (M' := pc) pc_wf f64_default (pc_fits (by decide +kernel) (by decide +kernel) (by decide +kernel) (by decide +kernel) (by decide +kernel)) rfl z

example : ∀ m ∈ [cooMatrix, csrMatrix, cscMatrix, diaMatrix, bsrMatrix],
    SparseFits pc pc (.plain ⟨.little, .float, 8, none⟩) m ∧ (m.writeNpz pc f64_default .new).1 = .ok () := by
  simp only [List.forall_mem_cons, List.not_mem_nil, false_implies, implies_true, and_true]
  refine ⟨⟨cooMatrix_fits, by decide +kernel⟩, ⟨pc_fits ?_ ?_ ?_ ?_ ?_, by decide +kernel⟩, ⟨pc_fits ?_ ?_ ?_ ?_ ?_, by decide +kernel⟩,
    ⟨diaMatrix_fits, by decide +kernel⟩, ⟨pc_fits ?_ ?_ ?_ ?_ ?_, by decide +kernel⟩⟩
  all_goals decide +kernel

/-- The elements and the index arrays of what is read back after writing to a new archive. -/
def readBackParts (m : Sparse f64) : Option (List (BitVec 64) × List (String × List (BitVec 64))) :=
  match Sparse.fromNpz pc Py.parse f64 (m.writeNpz pc f64_default .new).2.archive with
  | .ok m' => some (dataOf m', indexArrays m')
  | _ => none

-- the conclusion of C53 for a concrete matrix
example : readBackParts bsrMatrix = some ([1#64, 2#64], [("indices", [1#64]), ("indptr", [0#64, 1#64])]) := by decide +kernel

/-- C54 is violated: an array of unsigned indices one of which is `2^64 - 1` is stored with 4 bytes per
index. -/
theorem C54_violated {py : PyParser} (hpy : py.ExtendsRef) :
    ∃ (m : Coo f64) (z' : NpzWriter), m.writeNpz pc f64_default .new = (.ok (), z') ∧
    (∃ x ∈ m.row, ¬ x.toNat < 2 ^ 31) ∧
    ∃ vs, Holds pc py (.num .i32) z'.archive (txt "row") (intDType pc 4) [m.row.length] .c vs := by
  have hf : SparseFits pc pc (.plain ⟨.little, .float, 8, none⟩) (.coo ⟨(2#64, 3#64), [1#64], [BitVec.ofNat 64 (2 ^ 64 - 1)], [0#64]⟩ : Sparse f64) :=
    pc_fits (by decide +kernel) (by decide +kernel) (by decide +kernel) (by decide +kernel) (by decide +kernel)
  obtain ⟨z', hz⟩ := C53_succeeds_exact pc_wf (t := f64) trivial f64_default hf trivial (by simp [DType.NotArray]) (by decide +kernel) .new
  have hx : ∀ x ∈ [BitVec.ofNat 64 (2 ^ 64 - 1)], FitsI32 x.toInt := by
    intro x hx
    rw [List.mem_singleton.mp hx]
    exact ⟨by decide +kernel, by decide +kernel⟩
  refine ⟨_, z', hz, ⟨_, List.mem_singleton_self _, by decide +kernel⟩, ?_⟩
  exact ⟨_, (C54_stored_partial pc_wf pc_wf hpy f64_default hf hz ("row", _) (by simp [indexArrays])).1 hx⟩

example := C54_violated (py := Py.parse) fun _ _ h => h

/-- C56 is violated: the data of a matrix with 2 offsets of 3 elements is stored with shape [3, 2]. -/
theorem C56_violated {py : PyParser} (hpy : py.ExtendsRef) :
    ∃ (m : Dia f64) (z' : NpzWriter) (f : NpyFile Src), m.writeNpz pc f64_default .new = (.ok (), z') ∧
    z'.archive.byName pc py (txt "data") = .ok (some f) ∧ f.header.shape ≠ [m.offsets.length, m.data.length / m.offsets.length] := by
  obtain ⟨z', hz⟩ := C53_succeeds_exact pc_wf (t := f64) trivial f64_default diaMatrix_fits ⟨by decide, 3, rfl⟩ (by simp [DType.NotArray]) (by decide +kernel)
    .new
  obtain ⟨f, h1, h2, h3, -⟩ := C56_shape_partial pc_wf pc_wf hpy f64_default diaMatrix_fits hz
  refine ⟨_, z', f, hz, h1, ?_⟩
  rw [h3]
  decide

example := C56_violated (py := Py.parse) fun _ _ h => h

/-! ### C61 -/

/-- C61, what holds: the writer of BSR matrices panics unless the matrix has the elements of all its
blocks, if overflow is checked or the number of elements does not overflow. -/
theorem C61_panics_partial {M : Machine} (hM : M.Wf) {t : Ty} {r : DRes DType} {m : Bsr t} (hdef : t.defaultDType M = some r)
    (hl : m.indices.length < 2 ^ 64 ∧ m.indptr.length < 2 ^ 64)
    (hc : M.overflowChecks = true ∨ nonzeroProd [m.indices.length, m.blocksize.1, m.blocksize.2] < M.usizeLim)
    (hne : m.data.length ≠ m.indices.length * m.blocksize.1 * m.blocksize.2) (z : NpzWriter) : (m.writeNpz M hdef z).1 = .panic := by
  have hv' : encodeBytes s3 (strBytes "bsr") ≠ none := by decide +kernel
  have hv : encode .vecU8 (.plain s3) (strBytes "bsr") ≠ none := hv'
  have then_ok : ∀ {r : Res Unit × NpzWriter} {k : NpzWriter → Res Unit × NpzWriter}, (∃ z', r = (.ok (), z')) →
      (∀ z, (k z).1 = .panic) → (Sparse.andThen r k).1 = .panic := by
    rintro _ k ⟨z1, rfl⟩ hk
    exact hk z1
  have hfalse : m.check M = false := by
    rcases hc with hc | hc
    · unfold Bsr.check NpyData.mulUsize
      by_cases h1 : m.indices.length * m.blocksize.1 < M.usizeLim
      · rw [if_pos h1, Out.bind_ok]
        by_cases h2 : m.indices.length * m.blocksize.1 * m.blocksize.2 < M.usizeLim
        · rw [if_pos h2]
          exact decide_eq_false hne
        · rw [if_neg h2, if_pos hc]
      · rw [if_neg h1, if_pos hc]
        rfl
    · cases hb : m.check M with
      | false => rfl
      | true => exact absurd ((Bsr.check_exact hc).mp hb) hne
  refine then_ok (writeFormat_succeeds hM hv z) fun z => then_ok (writeShape_succeeds hM _ z) fun z => ?_
  refine then_ok (writeIndices_succeeds hM hl.1 z) fun z => ?_
  refine then_ok (writeIndices_succeeds hM (by rw [List.length_map]; exact hl.2) z) fun z => ?_
  rw [hfalse]
  rfl

/-- Whether something is an error. -/
def failed {α : Type} : Res α → Bool
  | .err _ => true
  | _ => false

/-- One block of 65536 by 65536 elements, without its elements. -/
def emptyBlock : Bsr f64 := ⟨(65536#64, 65536#64), (65536, 65536), [], [0#64], [0, 1]⟩

/-- C61 is violated without overflow checks: on a 32-bit machine a block of 65536 by 65536 elements can
be written without any of its elements, and cannot be read back. -/
theorem C61_violated :
    emptyBlock.data.length ≠ emptyBlock.indices.length * emptyBlock.blocksize.1 * emptyBlock.blocksize.2 ∧
    (emptyBlock.writeNpz ⟨false, 32, false⟩ rfl .new).1 = .ok () ∧
    failed (Bsr.fromNpz ⟨false, 32, false⟩ Py.parse f64 (emptyBlock.writeNpz ⟨false, 32, false⟩ rfl .new).2.archive) = true := by
  refine ⟨by decide +kernel, by decide +kernel, by decide +kernel⟩

-- the hypotheses are met: a block of 2 by 2 with 3 elements
example : (Bsr.writeNpz pc f64_default ⟨(2#64, 2#64), (2, 2), [1#64, 2#64, 3#64], [0#64], [0, 1]⟩ .new).1 = .panic :=
  C61_panics_partial pc_wf f64_default ⟨by decide, by decide⟩ (.inl rfl) (by decide) _

/-- Opening a member does not panic and its elements are small enough. -/
def opensWell (M : Machine) (py : PyParser) (content : Bytes) : Bool :=
  match NpzArchive.openMember M py content with
  | .ok (some f) => f.header.itemSize.all fun n => decide (n ≤ M.isizeMax)
  | .panic => false
  | _ => true

/-- The members of an archive decide whether it is well-formed. -/
theorem wellFormed_of {M : Machine} {py : PyParser} {a : NpzArchive} (h : a.members.all (fun m => opensWell M py m.2) = true) : WellFormed M py a := by
  have key : ∀ name, (∃ m ∈ a.members, a.byName M py name = NpzArchive.openMember M py m.2) ∨ a.byName M py name = .ok none := by
    intro name
    unfold NpzArchive.byName NpzArchive.find
    cases hf : a.members.reverse.find? fun m => m.1 == fileNameFromArrayName name with
    | none => exact .inr rfl
    | some m => exact .inl ⟨m, by simpa using List.mem_of_find?_eq_some hf, rfl⟩
  constructor
  · intro name he
    rcases key name with ⟨m, hm, h1⟩ | h1
    · have := List.all_eq_true.mp h m hm
      unfold opensWell at this
      rw [← h1, he] at this
      cases this
    · rw [h1] at he; cases he
  · intro name f n he hn
    rcases key name with ⟨m, hm, h1⟩ | h1
    · have := List.all_eq_true.mp h m hm
      unfold opensWell at this
      rw [← h1, he] at this
      simpa [hn] using this
    · rw [h1] at he; cases he

-- C57: an archive with an array of the wrong number of axes, and without the others
/-- C57_no_panic: an archive whose format is a number. -/
example : WellFormed pc Py.parse (Spec.saveAll pc [⟨txt "format", f64, .plain ⟨.little, .float, 8, none⟩, .c, [1], [1#64]⟩] .new).2.archive := by
  refine wellFormed_of ?_
  decide +kernel

end Npyz.Props
