import Verif.Proofs.Index
import Verif.Props.Writer
import Verif.Props.Read
import Verif.Proofs.SparsePanic
/-!
Property C82: finding elements by their index.
`storage o dims` lists the indices of an array of shape `dims` in the order in which NumPy stores them
(Spec/Index.lean); `flatIndex idx strides` is `sum(index_k * stride_k)`; `r.steps M disk ops` performs a history
of `next`, `seek_to` and `read_at` calls.
-/
set_option autoImplicit false
namespace Npyz.Props
open Npyz Npyz.Spec

theorem opened_strides {M : Machine} {h : NpyHeader} (ho : Opened M h) : computeStrides M h.order h.shape = .ok h.strides := by
  obtain ⟨py, bs, rest, hr⟩ := ho
  obtain ⟨v, r, h1, h2⟩ := RProg.run_bind_ok.mp hr
  cases v with
  | dict kvs =>
    simp only [RProg.run_lift, Prod.mk.injEq] at h2
    obtain ⟨_, b, vs, vd, shape, d, _, _, _, _, h5, h6⟩ := interpretHeader_ok_iff.mp h2.1
    obtain ⟨k1, k2, k3, k4, k5, k6, k7⟩ := fromParts_ok h6
    rw [k2, k3]; exact k5
  | _ => simp [interpretHeader] at h2

theorem opened_exactStrides {M : Machine} {h : NpyHeader} (ho : Opened M h) (hpos : ∀ n ∈ h.shape, 0 < n) (hlt : h.shape.prod < 2 ^ 64) :
    h.strides = exactStrides h.order h.shape := by
  have := opened_strides ho
  rw [computeStrides_exact (by rwa [nonzeroProd_of_pos hpos])] at this
  exact (Out.ok.inj this).symm

theorem fromReader_nil (M : Machine) (py : PyParser) : ∃ e, (NpyHeader.fromReader M py).run [] = (.err e, []) := ⟨_, rfl⟩

/-- Opening a file at any position of a source. -/
theorem new_at {M : Machine} {py : PyParser} {src : Src} {f : NpyFile Src} (h : (NpyFile.new M py disk src).1 = .ok f) :
    Opened M f.header ∧ f.src.data = src.data ∧ f.src.pos ≤ src.data.length := by
  unfold NpyFile.new at h
  simp only [disk] at h
  rcases hx : (NpyHeader.fromReader M py).run src.rest with ⟨x, rest⟩
  rw [hx] at h
  rcases x with hd | e | _
  · simp only [Out.ok.injEq] at h
    subst h
    obtain ⟨used, hu, -⟩ := RProg.run_ok_local hx
    refine ⟨⟨py, _, rest, hx⟩, rfl, ?_⟩
    have hp : src.pos ≤ src.data.length := by
      apply Classical.byContradiction
      intro hgt
      rw [show src.rest = [] from List.drop_eq_nil_of_le (by omega)] at hx
      obtain ⟨e, he⟩ := fromReader_nil M py
      rw [he] at hx
      cases (Prod.mk.inj hx).1
    have hl := congrArg List.length hu
    simp only [Src.rest, List.length_drop, List.length_append] at hl
    simp only [Src.leave, Src.rest, List.length_drop]
    omega
  · cases h
  · cases h

/-- C82: the `k`-th element of a sequential pass over a file is the element whose index is the `k`-th in NumPy's
storage order: reading at the position that the strides give for that index returns it, after any history of calls
with indices in range.  Limits: fewer than `2^63` elements and bytes (see C18). -/
theorem C82_sequential_order {M : Machine} {py : PyParser} {t : Ty} {src : Src} (hlen : src.data.length < 2 ^ 63) {f : NpyFile Src} (hnew : (NpyFile.new M py disk src).1 = .ok f)
    (hprod : f.header.shape.prod < 2 ^ 63) {size : Nat} (hs : f.header.itemSize = some size) (hm : size ≤ M.isizeMax)
    {vs : List t.Val} (hv : (f.intoVec M disk t).1 = .ok vs) :
    vs.length = (storage f.header.order f.header.shape).length ∧
    ∃ r, f.data M t = .ok r ∧ ∀ (k : Nat) (hk : k < vs.length) (hk' : k < (storage f.header.order f.header.shape).length)
      (ops : List ROp), InRange f.header.nRecords ops →
      (r.steps M disk (ops ++ [.readAt (flatIndex (storage f.header.order f.header.shape)[k] f.header.strides)])).1.getLast?.map seen =
        some (some (.value vs[k])) := by
  obtain ⟨ho, hdata, hpos⟩ := new_at hnew
  have hb : f.src.pos ≤ f.src.data.length := by rw [hdata]; exact hpos
  have hnr : f.header.nRecords = f.header.shape.prod := by
    have := shapeProduct_ok (by decide) (opened_count ho)
    rw [this, Nat.one_mul, Nat.mod_eq_of_lt (by omega)]
  rcases C21_into_vec (t := t) ho hs hm hb with ⟨ws, e1, e2, e3, e4⟩ | ⟨e, e1, -⟩
  rotate_left
  · rw [e1] at hv; cases hv
  rw [e1] at hv
  cases hv
  refine ⟨by rw [e2, hnr, length_storage], ?_⟩
  obtain ⟨r, hr⟩ : ∃ r, f.data M t = .ok r := by
    cases hd : f.data M t with
    | ok r => exact ⟨r, rfl⟩
    | err e => unfold NpyFile.intoVec at e1; rw [hd] at e1; cases (Prod.mk.inj e1).1
    | panic => unfold NpyFile.intoVec at e1; rw [hd] at e1; cases (Prod.mk.inj e1).1
  refine ⟨r, hr, fun k hk hk' ops hop => ?_⟩
  obtain ⟨h1, h2⟩ := storage_position hk'
  have hst := opened_exactStrides ho h1.pos (by omega)
  rw [hst, h2]
  have hfits := fits_of_complete hs (by omega) e3 (by rw [hdata]; exact hlen)
  obtain ⟨v, g1, g2, -⟩ := C18_agrees_partial ho hr hfits hm hb ops hop
    (fun i hi => by rw [e4 i (by omega)]; simp) k (by omega)
  have hone := C18_agrees_partial ho hr hfits hm hb [] (by intro op h; cases h)
    (fun i hi => by rw [e4 i (by omega)]; simp) k (by omega)
  have hx := C18_random_access_partial ho hr hfits hm hb [.readAt k]
    (by intro op h; rw [List.mem_singleton] at h; subst h; exact ⟨by simp, fun j hj => by cases hj; omega⟩) (by simp [expected])
  rw [g1]
  obtain ⟨v', q1, q2, -⟩ := hone
  have : v = v' := by rw [g2] at q2; simpa using q2
  subst this
  simp only [List.nil_append] at q1
  rw [← List.getLast?_map, hx] at q1
  simp only [expected, look, e4 k hk, List.map_cons, List.map_nil, List.getLast?_singleton, Option.some.injEq, Seen.value.injEq] at q1
  rw [q1]

/-- The position of an index in the file, for the file's own strides. -/
theorem written_at {M : Machine} {py : PyParser} {t : Ty} {d : DType} {size : Nat} (hn : exactBytes d = some size) (hm : size ≤ M.isizeMax)
    {data : Bytes} {pos : Nat} (hlen : data.length < 2 ^ 63) {o : Order} {dims : List Nat} (hprod : dims.prod < 2 ^ 63)
    {A : List Nat → t.Val} (h : ReadsBack M py t data pos d dims o ((storage o dims).map A)) :
    ∃ f r, (NpyFile.new M py disk ⟨data, pos⟩).1 = .ok f ∧ f.data M t = .ok r ∧ f.header.shape = dims ∧ f.header.order = o ∧
      ∀ idx, InShape idx dims → ∀ ops, InRange dims.prod ops →
        (r.steps M disk (ops ++ [.readAt (flatIndex idx f.header.strides)])).1.getLast?.map seen = some (some (.value (A idx))) := by
  obtain ⟨f, h1, h2, h3, h4, h5⟩ := h
  obtain ⟨ho, -, -⟩ := new_at h1
  have hs : f.header.itemSize = some size := by
    unfold NpyFile.intoVec at h5
    cases hd : f.data M t with
    | ok r =>
      obtain ⟨n, e1, e2, -⟩ := opened_reads ho hd
      rw [h2, hn] at e1; cases e1; exact e2
    | err e => rw [hd] at h5; cases h5
    | panic => rw [hd] at h5; cases h5
  obtain ⟨-, r, hr, hk⟩ := C82_sequential_order hlen h1 (by rw [h3]; exact hprod) hs hm h5
  refine ⟨f, r, h1, hr, h3, h4, fun idx hi ops hop => ?_⟩
  have hnr : f.header.nRecords = dims.prod := by
    have := shapeProduct_ok (by decide) (opened_count ho)
    rw [this, Nat.one_mul, h3, Nat.mod_eq_of_lt (by omega)]
  rw [h3, h4, hnr] at hk
  have hst := opened_exactStrides ho (by rw [h3]; exact hi.pos) (by rw [h3]; omega)
  rw [h3, h4] at hst
  have hat := storage_at (o := o) hi
  obtain ⟨hlt, hget⟩ := List.getElem?_eq_some_iff.mp hat
  have := hk _ (by rw [List.length_map]; exact hlt) hlt ops hop
  rw [hget] at this
  rw [this, List.getElem_map, hget]

/-- C82: an array `A` (a function from indices to values) that was written with `begin_nd`, element by element in
NumPy's storage order, is found again by index: in the file, opened on any machine whose limits it respects,
`read_at(sum(index_k * strides_k))` returns `A` at the index, for every index of the shape and after every history of
calls. -/
theorem C82_by_index {M M' : Machine} (hM' : M'.Wf) {py : PyParser} (hpy : py.ExtendsRef) {t : Ty} {d : DType} {size : Nat}
    (hd : d.Wf) (hn : exactBytes d = some size) (hm : size ≤ M.isizeMax) (hm' : size ≤ M'.isizeMax) (hf : AllFit M'.usizeLim d)
    (hp : ∃ p, t.reader M' d = .ok p) {o : Order} {dims : List Nat} (hdims : ∀ k ∈ dims, k < 2 ^ 64) (hnz : nonzeroProd dims < 2 ^ 63)
    (hmem : dictBytes d o (.nd dims) + 76 ≤ M'.isizeMax) (A : List Nat → t.Val) {s s' : Sink}
    (hlen : s'.data.length < 2 ^ 63) (h : NpyWriter.save M solid t d o (.nd dims) ((storage o dims).map A) s = (.ok (), s')) :
    ∃ f r, (NpyFile.new M' py disk ⟨s'.data, s.pos⟩).1 = .ok f ∧ f.data M' t = .ok r ∧ f.header.shape = dims ∧ f.header.order = o ∧
      ∀ idx, InShape idx dims → ∀ ops, InRange dims.prod ops →
        (r.steps M' disk (ops ++ [.readAt (flatIndex idx f.header.strides)])).1.getLast?.map seen =
          some (some (.value (readBack t d (A idx)))) := by
  have hprod : dims.prod < 2 ^ 63 := Nat.lt_of_le_of_lt (prod_le_nonzeroProd dims) hnz
  have hrb := (C39_round_trip hM' hpy hd hn hm hm' hf hp hdims (by omega) hmem (by rw [List.length_map, length_storage]; omega) h).2
  rw [List.map_map] at hrb
  exact written_at hn hm' hlen hprod hrb

/-- C82: the same for `begin_1d` and `begin_2d`, with the shape that `finish` fills in. -/
theorem C82_by_index_auto {M M' : Machine} (hM' : M'.Wf) {py : PyParser} (hpy : py.ExtendsRef) {t : Ty} {d : DType} {size : Nat}
    (hd : d.Wf) (hn : exactBytes d = some size) (hm : size ≤ M.isizeMax) (hm' : size ≤ M'.isizeMax) (hf : AllFit M'.usizeLim d)
    (hp : ∃ p, t.reader M' d = .ok p) {o : Order} {hint : ShapeHint} (hhint : hint = .oneD ∨ ∃ r, hint = .twoD r ∧ r < 2 ^ 64)
    (hmem : dictBytes d o hint + 76 ≤ M'.isizeMax) {n : Nat} (hc : n < 2 ^ 63) (hcf : CountFits n hint) (A : List Nat → t.Val) {s s' : Sink}
    (hp0 : s.pos + dictBytes d o hint + 76 ≤ 2 ^ 64) (hlen : s'.data.length < 2 ^ 63)
    (h : NpyWriter.save M solid t d o hint ((storage o (finalShape o n hint)).map A) s = (.ok (), s')) :
    ∃ f r, (NpyFile.new M' py disk ⟨s'.data, s.pos⟩).1 = .ok f ∧ f.data M' t = .ok r ∧ f.header.shape = finalShape o n hint ∧
      f.header.order = o ∧ ∀ idx, InShape idx (finalShape o n hint) → ∀ ops, InRange n ops →
        (r.steps M' disk (ops ++ [.readAt (flatIndex idx f.header.strides)])).1.getLast?.map seen =
          some (some (.value (readBack t d (A idx)))) := by
  have hprod : (finalShape o n hint).prod = n := by
    rcases hhint with rfl | ⟨r, rfl, -⟩
    · cases o <;> simp [finalShape, axisOf, List.prod_cons, List.prod_nil]
    · obtain ⟨k, rfl⟩ : r ∣ n := hcf
      cases o <;> simp only [finalShape, List.prod_cons, List.prod_nil, Nat.mul_one]
      · exact Nat.div_mul_cancel (Nat.dvd_mul_right r k)
      · exact Nat.mul_div_cancel' (Nat.dvd_mul_right r k)
  have hl : ((storage o (finalShape o n hint)).map A).length = n := by rw [List.length_map, length_storage, hprod]
  have hrb := (C40_round_trip hM' hpy hd hn hm hm' hf hp hhint hmem (by rw [hl]; omega) hp0 h).2
  rw [List.map_map, hl] at hrb
  have := written_at hn hm' hlen (by rw [hprod]; exact hc) hrb
  rw [hprod] at this
  exact this

-- a 2 x 3 array of doubles in Fortran order: the hypotheses are met
example : storage .c [2, 3] = [[0, 0], [0, 1], [0, 2], [1, 0], [1, 1], [1, 2]] ∧
    storage .fortran [2, 3] = [[0, 0], [1, 0], [0, 1], [1, 1], [0, 2], [1, 2]] ∧ storage .c [] = [[]] ∧ storage .c [2, 0] = [] := by decide

/-- The double at an index. -/
def grid : List Nat → f64.Val
  | [i, j] => (BitVec.ofNat 64 (10 * i + j) : BitVec 64)
  | _ => (0#64 : BitVec 64)

def gridSave (s : Sink) : Res Unit × Sink :=
  NpyWriter.save ⟨false, 64, true⟩ solid f64 (.plain ⟨.little, .float, 8, none⟩) .fortran (.nd [2, 3]) ((storage .fortran [2, 3]).map grid) s

/-- C82_by_index, C82_sequential_order: the grid, column by column, read on another machine. -/
example : ∃ s' f r, gridSave ⟨[], 0, true⟩ = (.ok (), s') ∧ (NpyFile.new ⟨true, 64, false⟩ Py.parse disk ⟨s'.data, 0⟩).1 = .ok f ∧
    f.data ⟨true, 64, false⟩ f64 = .ok r ∧ ∀ idx, InShape idx [2, 3] → ∀ ops, InRange 6 ops →
      (r.steps ⟨true, 64, false⟩ disk (ops ++ [.readAt (flatIndex idx f.header.strides)])).1.getLast?.map seen = some (some (.value (grid idx))) := by
  have h : (gridSave ⟨[], 0, true⟩).1 = .ok () ∧ (gridSave ⟨[], 0, true⟩).2.data.length = 176 := by decide +kernel
  rcases hx : gridSave ⟨[], 0, true⟩ with ⟨x, s'⟩
  rw [hx] at h
  obtain ⟨h, hl⟩ := h
  cases h
  obtain ⟨f, r, h1, h2, -, -, h3⟩ := C82_by_index (M' := ⟨true, 64, false⟩) (py := Py.parse) (.inr rfl) (fun _ _ h => h) f8_wf rfl (by decide) (by decide)
    (f8_fits _ (by decide)) ⟨_, rfl⟩ (by decide) (by decide) (by decide +kernel) grid (by rw [hl]; decide) hx
  exact ⟨s', f, r, rfl, h1, h2, h3⟩

example : ∃ (f : NpyFile Src) (vs : List f64.Val), (NpyFile.new ⟨false, 64, true⟩ Py.parse disk ⟨twoFloats, 0⟩).1 = .ok f ∧ (f.intoVec ⟨false, 64, true⟩ disk f64).1 = .ok vs ∧
    vs.length = (storage f.header.order f.header.shape).length := by
  obtain ⟨f, r, h0, h1, h2, h3, h4, h5, h6⟩ := twoFloats_reader
  have hn := congrArg Prod.fst h1
  have hd : f.src.data = twoFloats := (new_disk h1).2.2.1
  have hl : twoFloats.length = 82 := by decide +kernel
  rcases C21_into_vec h0 h3.size (by decide) (by omega) with ⟨vs, k1, -⟩ | ⟨e, -, ⟨why, k⟩ | ⟨i, k2, k3⟩⟩
  · refine ⟨f, vs, hn, by rw [k1], (C82_sequential_order (by rw [hl]; decide) hn ?_ h3.size (by decide) (by rw [k1])).1⟩
    have hq : (match (NpyFile.new ⟨false, 64, true⟩ Py.parse disk ⟨twoFloats, 0⟩).1 with | .ok f => decide (f.header.shape.prod = 2) | _ => false) = true := by
      decide +kernel
    rw [hn] at hq
    rw [of_decide_eq_true hq]
    decide
  · rw [h2] at k; cases k
  · exact absurd k3 (twoFloats_elements h4 h5 h6 i k2)

/-- Write the grid, open the file and read the element at an index through the strides, after another read. -/
def gridElement (o : Order) (hint : ShapeHint) (i j : Nat) : Option Nat :=
  match NpyWriter.save ⟨false, 64, true⟩ solid f64 (.plain ⟨.little, .float, 8, none⟩) o hint ((storage o [2, 3]).map grid) ⟨[], 0, true⟩ with
  | (.ok (), s') =>
    match (NpyFile.new ⟨false, 64, true⟩ Py.parse disk ⟨s'.data, 0⟩).1 with
    | .ok f =>
      match f.data ⟨false, 64, true⟩ f64 with
      | .ok r =>
        match (r.steps ⟨false, 64, true⟩ disk [.readAt 4, .readAt (flatIndex [i, j] f.header.strides)]).1 with
        | [_, .value (.ok v)] => some (BitVec.toNat (w := 64) v)
        | _ => none
      | _ => none
    | _ => none
  | _ => none

example : gridElement .c (.nd [2, 3]) 1 2 = some 12 ∧ gridElement .fortran (.nd [2, 3]) 1 2 = some 12 ∧
    gridElement .fortran (.nd [2, 3]) 0 1 = some 1 ∧ gridElement .c (.twoD 3) 1 0 = some 10 ∧ gridElement .fortran (.twoD 2) 1 0 = some 10 := by
  decide +kernel

end Npyz.Props
