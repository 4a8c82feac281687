import Verif.Proofs.Ndarray
import Verif.Props.Index
import Verif.Props.Codec
/-!
Property C125: the documented conversions from and to `ndarray` arrays.  `storage o dims` lists the indices of an array in NumPy's storage
order (Spec/Index.lean); `ArrayIs`, `Sound`, `SameElements` are in Spec/Ndarray.lean.
-/
set_option autoImplicit false
namespace Npyz.Props
open Npyz Npyz.Spec

/-- If there are elements, their number limits the dimensions. -/
theorem nonempty_shape {M : Machine} {dims : List Nat} (h0 : dims.prod ≠ 0) (h : dims.prod ≤ M.isizeMax) : NdShape M dims := by
  have hpos : ∀ n ∈ dims, 0 < n := by
    intro n hn
    apply Nat.pos_of_ne_zero
    rintro rfl
    obtain ⟨l, r, rfl⟩ := List.append_of_mem hn
    exact h0 (by rw [List.prod_append, List.prod_cons, Nat.zero_mul, Nat.mul_zero])
  have hlim : M.isizeMax < M.usizeLim := by
    unfold Machine.isizeMax Machine.usizeLim
    have := Nat.pow_le_pow_right (n := 2) (by decide) (Nat.sub_le M.usizeBits 1)
    have := Nat.two_pow_pos (M.usizeBits - 1)
    omega
  refine ⟨fun n hn => ?_, by rw [nonzeroProd_of_pos hpos]; exact h⟩
  obtain ⟨l, r, rfl⟩ := List.append_of_mem hn
  rw [List.prod_append, List.prod_cons] at h
  have hl : 0 < l.prod := prod_pos fun m hm => hpos m (by simp [hm])
  have hr : 0 < r.prod := prod_pos fun m hm => hpos m (by simp [hm])
  have h1 : n ≤ n * r.prod := Nat.le_mul_of_pos_right _ hr
  have h2 : n * r.prod ≤ l.prod * (n * r.prod) := Nat.le_mul_of_pos_left _ hl
  omega

/-- The conversion of a vector of the right length. -/
theorem toArrayD_is {V : Type} {M : Machine} {dims : List Nat} (hd : NdShape M dims) {vs : List V} (hl : vs.length = dims.prod) (o : Order) :
    ∃ a, toArrayD M vs dims o = .ok a ∧ ArrayIs a o dims vs := by
  obtain ⟨a, h1, h2⟩ := ndFromShapeVec_is (o := o) hl hd.2
  refine ⟨a, ?_, h2⟩
  unfold toArrayD
  rw [map_mod_eq hd.1, h1]

/-- What `into_vec` returned has as many elements as the shape says. -/
theorem vec_count {M : Machine} {py : PyParser} {t : Ty} {src : Src} {f : NpyFile Src} (hnew : (NpyFile.new M py disk src).1 = .ok f)
    {size : Nat} (hs : f.header.itemSize = some size) (hm : size ≤ M.isizeMax) (hprod : f.header.shape.prod < 2 ^ 64)
    {vs : List t.Val} (hv : (f.intoVec M disk t).1 = .ok vs) : vs.length = f.header.shape.prod := by
  obtain ⟨ho, hdata, hpos⟩ := new_at hnew
  have hnr : f.header.nRecords = f.header.shape.prod := by
    have := shapeProduct_ok (by decide) (opened_count ho)
    rw [this, Nat.one_mul, Nat.mod_eq_of_lt hprod]
  rcases C21_into_vec (t := t) ho hs hm (by rw [hdata]; exact hpos) with ⟨ws, e1, e2, -⟩ | ⟨e, e1, -⟩
  · rw [e1] at hv
    cases hv
    rw [e2, hnr]
  · rw [e1] at hv; cases hv

/-- C125, where it holds: if the file can be read, `to_array_d` makes an array of the file's shape whose elements, in NumPy's storage
order, are the elements of the file.  Missing: empty arrays whose other dimensions are too large (`C125_violated`). -/
theorem C125_loaded_partial {M : Machine} {py : PyParser} {t : Ty} {src : Src} {f : NpyFile Src} (hnew : (NpyFile.new M py disk src).1 = .ok f)
    {size : Nat} (hs : f.header.itemSize = some size) (hm : size ≤ M.isizeMax) (hprod : f.header.shape.prod < 2 ^ 64)
    {vs : List t.Val} (hv : (f.intoVec M disk t).1 = .ok vs) (hd : (vs ≠ [] ∧ vs.length ≤ M.isizeMax) ∨ NdShape M f.header.shape) :
    ∃ a, loadArrayD M py t src = .ok a ∧ ArrayIs a f.header.order f.header.shape vs := by
  have hl := vec_count hnew hs hm hprod hv
  have hd : NdShape M f.header.shape := by
    rcases hd with ⟨h1, h2⟩ | h
    · refine nonempty_shape ?_ (by omega)
      rw [← hl]
      exact fun h => h1 (List.length_eq_zero_iff.mp h)
    · exact h
  obtain ⟨a, h1, h2⟩ := toArrayD_is hd hl f.header.order
  refine ⟨a, ?_, h2⟩
  unfold loadArrayD
  rw [hnew]
  simp only [hv, h1]

/-- C125: the element of that array at an index is the one that `read_at` finds through the strides of the file. -/
theorem C125_strides {M : Machine} {f : NpyFile Src} (ho : Opened M f.header) (hprod : f.header.shape.prod < 2 ^ 64) {V : Type} {vs : List V}
    {a : NdView V} (ha : ArrayIs a f.header.order f.header.shape vs) {idx : List Nat} (hi : InShape idx f.header.shape) :
    a.get idx = vs[flatIndex idx f.header.strides]? := by
  rw [opened_exactStrides ho hi.pos hprod]
  have h1 := congrArg (fun l => l[flatIndex idx (exactStrides f.header.order f.header.shape)]?) ha.2
  simp only [List.getElem?_map, storage_at hi, Option.map_some] at h1
  cases hx : vs[flatIndex idx (exactStrides f.header.order f.header.shape)]? with
  | none => rw [hx] at h1; cases h1
  | some v => rw [hx] at h1; exact Option.some.inj h1

/-- C125: `to_array_3` does the same for three dimensions, and panics for any other number. -/
theorem C125_three {V : Type} (M : Machine) (vs : List V) (shape : List Nat) (o : Order) :
    toArray3 M vs shape o = if shape.length = 3 then toArrayD M vs shape o else .panic := by
  rcases shape with _ | ⟨i1, _ | ⟨i2, _ | ⟨i3, _ | ⟨i4, rest⟩⟩⟩⟩
  · rfl
  · rfl
  · rfl
  · rfl
  · rw [if_neg (by simp)]; rfl

/-- C125: an array or view, of any memory layout, that `write_array` has written comes back from the documented way of reading with the
same shape and, at every index, the element that was there (as it is read back: strings lose trailing NULs). -/
theorem C125_round_trip {M M' : Machine} (hM : M.Wf) (hM' : M'.Wf) {py : PyParser} (hpy : py.ExtendsRef) {t : Ty} (ht : ConstsFit M.usizeLim t)
    {d : DType} (hd : t.defaultDType M = some (.ok d)) {size : Nat} (hn : exactBytes d = some size) (hm : size ≤ M.isizeMax) (hm' : size ≤ M'.isizeMax)
    (hf : AllFit M'.usizeLim d) (hp : ∃ p, t.reader M' d = .ok p) {a : NdView t.Val} (hs : Sound a) (hsh : NdShape M a.dims) (hsh' : NdShape M' a.dims)
    (hmem : dictBytes d .c (.nd a.dims) + 76 ≤ M'.isizeMax) {s s' : Sink} (h : writeArray M solid t a s = some (.ok (), s')) :
    ∃ b, loadArrayD M' py t ⟨s'.data, s.pos⟩ = .ok b ∧ b.dims = a.dims ∧
      ∀ idx, InShape idx a.dims → b.get idx = (a.get idx).map (readBack t d) := by
  obtain ⟨d', e, hwf, -⟩ := C38_default hM t ht _ hd
  cases e
  unfold writeArray at h
  rw [hd] at h
  have h := Option.some.inj h
  have hlim : ∀ {N : Machine}, N.Wf → N.usizeLim ≤ 2 ^ 64 ∧ N.isizeMax < 2 ^ 64 := by
    intro N hN
    rcases hN with hN | hN <;> simp only [Machine.usizeLim, Machine.isizeMax, hN] <;> decide
  have hlen : a.iter.length = a.dims.prod := by
    have := congrArg List.length hs.iter
    simpa [length_indices] using this
  have hle : a.dims.prod ≤ nonzeroProd a.dims := prod_le_nonzeroProd _
  obtain ⟨-, f, h1, -, h3, h4, h5⟩ := C39_round_trip hM' hpy hwf hn hm hm' hf hp (fun k hk => Nat.lt_of_lt_of_le (hsh.1 k hk) (hlim hM).1)
    (Nat.lt_of_le_of_lt hsh.2 (hlim hM).2) hmem (by have := hsh.2; have := (hlim hM).2; omega) h
  obtain ⟨b, g1, g2⟩ := toArrayD_is hsh' (vs := a.iter.map (readBack t d)) (by rw [List.length_map, hlen]) .c
  refine ⟨b, ?_, g2.1, fun idx hi => ?_⟩
  · unfold loadArrayD
    rw [h1]
    simp only [h5, h3, h4, g1]
  · have e : (indices a.dims).map b.get = (indices a.dims).map fun i => (a.get i).map (readBack t d) := by
      have : (indices a.dims).map b.get = (a.iter.map (readBack t d)).map some := g2.2
      rw [this]
      have e2 := congrArg (List.map (Option.map (readBack t d))) hs.iter
      rw [List.map_map, List.map_map] at e2
      rw [List.map_map]
      exact e2
    exact List.map_inj_left.mp e idx (mem_storage_of (o := .c) hi)

/-- C125: the file that `write_array` makes depends on the elements of the array and not on how they lie in memory. -/
theorem C125_layout {σ : Type} (M : Machine) (T : Target σ) (t : Ty) {a b : NdView t.Val} (h : SameElements a b) (s : σ) :
    writeArray M T t a s = writeArray M T t b s := by
  have e : a.iter = b.iter := by
    unfold NdView.iter
    rw [← h.1]
    have key : ∀ l : List (List Nat), (∀ idx ∈ l, a.get idx = b.get idx) → l.filterMap a.get = l.filterMap b.get := by
      intro l hl
      induction l with
      | nil => rfl
      | cons x xs ih => rw [List.filterMap_cons, List.filterMap_cons, hl x (by simp), ih fun y hy => hl y (by simp [hy])]
    exact key _ fun idx hi => h.2 idx (mem_indices hi)
  unfold writeArray
  rw [h.1, e]

/-- C125 does not hold otherwise: if the product of the nonzero dimensions is larger than `isize::MAX`, the documented functions panic on
a file that can be read. -/
theorem C125_refused {M : Machine} {py : PyParser} {t : Ty} {src : Src} {f : NpyFile Src} (hnew : (NpyFile.new M py disk src).1 = .ok f)
    {vs : List t.Val} (hv : (f.intoVec M disk t).1 = .ok vs) (hd : ∀ n ∈ f.header.shape, n < M.usizeLim)
    (hlt : M.isizeMax < nonzeroProd f.header.shape) : loadArrayD M py t src = .panic := by
  unfold loadArrayD toArrayD ndFromShapeVec
  rw [hnew]
  simp only [hv, map_mod_eq hd, if_pos hlt]

/-- A file with an empty array of doubles. -/
def emptyFile (dims : List Nat) : Bytes :=
  (NpyWriter.save ⟨false, 64, true⟩ solid f64 (.plain ⟨.little, .float, 8, none⟩) .c (.nd dims) [] ⟨[], 0, true⟩).2.data

/-- What `shape` and `into_vec` say about a file, as numbers. -/
def readNumbers (M : Machine) (data : Bytes) : Option (List Nat × List Nat) :=
  match (NpyFile.new M Py.parse disk ⟨data, 0⟩).1 with
  | .ok f =>
    match (f.intoVec M disk f64).1 with
    | .ok vs => some (f.header.shape, vs.map (BitVec.toNat (w := 64)))
    | _ => none
  | _ => none

/-- The shape of the array that the documented way of reading makes. -/
def loadedDims (M : Machine) (data : Bytes) : Res (List Nat) :=
  match loadArrayD M Py.parse f64 ⟨data, 0⟩ with
  | .ok a => .ok a.dims
  | .err e => .err e
  | .panic => .panic

/-- C125 is violated: an empty array of shape (0, 2^63) is read, but its conversion panics; on 32-bit machines an empty array of shape
(0, 2^32 + 1) becomes one of shape (0, 1). -/
theorem C125_violated :
    (readNumbers ⟨false, 64, true⟩ (emptyFile [0, 2 ^ 63]) = some ([0, 2 ^ 63], []) ∧
      (match loadedDims ⟨false, 64, true⟩ (emptyFile [0, 2 ^ 63]) with | .panic => true | _ => false) = true) ∧
    readNumbers ⟨false, 32, true⟩ (emptyFile [0, 2 ^ 32 + 1]) = some ([0, 2 ^ 32 + 1], []) ∧
      (match loadedDims ⟨false, 32, true⟩ (emptyFile [0, 2 ^ 32 + 1]) with | .ok dims => decide (dims = [0, 1]) | _ => false) = true := by
  decide +kernel

/-- A view like the one of the example: the axes of a 4 x 3 x 2 array in reverse, and every second element of the last one. -/
def exampleView : NdView f64.Val :=
  ⟨[2, 3, 2], 0, [1, 2, 12], (List.range 24).map fun k => (BitVec.ofNat 64 k : BitVec 64)⟩

theorem place_bound {V : Type} {a : NdView V} (h : ∀ idx ∈ indices a.dims, (a.get idx).isSome) : Sound a :=
  fun idx hi => h idx (mem_storage_of (o := .c) hi)

theorem exampleView_sound : Sound exampleView := place_bound (by
  have : ∀ idx ∈ indices [2, 3, 2], 0 ≤ exampleView.place idx ∧ (exampleView.place idx).toNat < 24 := by decide +kernel
  intro idx hi
  obtain ⟨h1, h2⟩ := this idx hi
  unfold NdView.get
  rw [if_pos h1]
  have : exampleView.data.length = 24 := (List.length_map _).trans List.length_range
  rw [List.getElem?_eq_getElem (by omega)]
  rfl)

/-- What is written and loaded again, at an index. -/
def viewElement (idx : List Nat) : Option (List Nat × Option Nat) :=
  match writeArray ⟨false, 64, true⟩ solid f64 exampleView ⟨[], 0, true⟩ with
  | some (.ok (), s') =>
    match loadArrayD ⟨true, 64, false⟩ Py.parse f64 ⟨s'.data, 0⟩ with
    | .ok b => some (b.dims, (b.get idx).map (BitVec.toNat (w := 64)))
    | _ => none
  | _ => none

example : viewElement [0, 0, 1] = some ([2, 3, 2], some 12) ∧ viewElement [1, 2, 1] = some ([2, 3, 2], some 17) := by decide +kernel

/-- C125_round_trip: the view of the example, loaded on another machine. -/
example : ∃ s' b, writeArray ⟨false, 64, true⟩ solid f64 exampleView ⟨[], 0, true⟩ = some (.ok (), s') ∧
    loadArrayD ⟨true, 64, false⟩ Py.parse f64 ⟨s'.data, 0⟩ = .ok b ∧ SameElements exampleView b := by
  have h : (writeArray ⟨false, 64, true⟩ solid f64 exampleView ⟨[], 0, true⟩).map (·.1) = some (.ok ()) := by decide +kernel
  obtain ⟨⟨x, s'⟩, hx, h⟩ := Option.map_eq_some_iff.mp h
  cases h
  obtain ⟨b, h1, h2, h3⟩ := C125_round_trip (M := ⟨false, 64, true⟩) (M' := ⟨true, 64, false⟩) (py := Py.parse) (.inr rfl) (.inr rfl) (fun _ _ h => h) (t := f64) trivial
    (d := .plain ⟨.little, .float, 8, none⟩) rfl rfl (by decide) (by decide) (f8_fits _ (by decide)) ⟨_, rfl⟩ exampleView_sound
    (by unfold NdShape; decide +kernel) (by unfold NdShape; decide +kernel) (by decide +kernel) hx
  refine ⟨s', b, hx, h1, h2.symm, fun idx hi => ?_⟩
  rw [h3 idx hi]
  cases exampleView.get idx <;> rfl

/-- C125_layout: the same elements in another order in memory. -/
example : SameElements exampleView ⟨[2, 3, 2], 11, [-6, -2, -1], (exampleView.iter).reverse⟩ := by
  have h : ∀ idx ∈ indices [2, 3, 2], (exampleView.get idx).map (BitVec.toNat (w := 64)) =
      ((⟨[2, 3, 2], 11, [-6, -2, -1], exampleView.iter.reverse⟩ : NdView f64.Val).get idx).map (BitVec.toNat (w := 64)) := by decide +kernel
  refine ⟨rfl, fun idx hi => ?_⟩
  have := h idx (mem_storage_of (o := .c) hi)
  generalize exampleView.get idx = x at this ⊢
  generalize (⟨[2, 3, 2], 11, [-6, -2, -1], exampleView.iter.reverse⟩ : NdView f64.Val).get idx = y at this ⊢
  cases x <;> cases y
  · rfl
  · cases this
  · cases this
  · have := Option.some.inj this
    exact congrArg some (BitVec.eq_of_toNat_eq this)

/-- C125_loaded_partial, C125_strides: a file with two doubles. -/
example : ∃ (f : NpyFile Src) (vs : List f64.Val) (a : NdView f64.Val), (NpyFile.new ⟨false, 64, true⟩ Py.parse disk ⟨twoFloats, 0⟩).1 = .ok f ∧
    loadArrayD ⟨false, 64, true⟩ Py.parse f64 ⟨twoFloats, 0⟩ = .ok a ∧ ArrayIs a .c [2] vs ∧ a.get [1] = vs[1]? := by
  obtain ⟨f, r, h0, h1, h2, h3, h4, h5, h6⟩ := twoFloats_reader
  have hn := congrArg Prod.fst h1
  have hd : f.src.data = twoFloats := (new_disk h1).2.2.1
  have hl : twoFloats.length = 82 := by decide +kernel
  have hq : (match (NpyFile.new ⟨false, 64, true⟩ Py.parse disk ⟨twoFloats, 0⟩).1 with
      | .ok f => decide (f.header.shape = [2] ∧ f.header.order = .c ∧ f.header.strides = [1]) | _ => false) = true := by decide +kernel
  rw [hn] at hq
  obtain ⟨hq1, hq2, hq3⟩ := of_decide_eq_true hq
  rcases C21_into_vec h0 h3.size (by decide) (by omega) with ⟨vs, k1, k2, -⟩ | ⟨e, -, ⟨why, k⟩ | ⟨i, k2, k3⟩⟩
  · obtain ⟨a, g1, g2⟩ := C125_loaded_partial hn h3.size (by decide) (by rw [hq1]; decide) (congrArg Prod.fst k1) (.inr (by rw [hq1]; unfold NdShape; decide +kernel))
    have := C125_strides h0 (by rw [hq1]; decide) g2 (idx := [1]) (by rw [hq1]; exact .cons (by decide) .nil)
    rw [hq3] at this
    rw [hq1, hq2] at g2
    exact ⟨f, vs, a, hn, g1, g2, this⟩
  · rw [h2] at k; cases k
  · exact absurd k3 (twoFloats_elements h4 h5 h6 i k2)

/-- C125_refused: the empty array of `C125_violated`. -/
example : ∃ (f : NpyFile Src) (vs : List f64.Val), (NpyFile.new ⟨false, 64, true⟩ Py.parse disk ⟨emptyFile [0, 2 ^ 63], 0⟩).1 = .ok f ∧
    (f.intoVec ⟨false, 64, true⟩ disk f64).1 = .ok vs ∧ (∀ n ∈ f.header.shape, n < Machine.usizeLim ⟨false, 64, true⟩) ∧
    Machine.isizeMax ⟨false, 64, true⟩ < nonzeroProd f.header.shape := by
  have h := C125_violated.1.1
  unfold readNumbers at h
  split at h
  · rename_i f hf
    split at h
    · rename_i vs hv
      have h := congrArg Prod.fst (Option.some.inj h)
      have h : f.header.shape = [0, 2 ^ 63] := h
      refine ⟨f, vs, hf, hv, ?_, ?_⟩ <;> rw [h] <;> decide +kernel
    · cases h
  · cases h

-- three dimensions
example : (match toArray3 ⟨false, 64, true⟩ [1, 2, 3, 4, 5, 6] [1, 2, 3] .fortran with | .ok a => a.get [0, 1, 2] | _ => none) = some 6 ∧
    (match toArray3 ⟨false, 64, true⟩ [1, 2, 3, 4, 5, 6] [1, 2, 3] .fortran with | .ok a => a.get [0, 1, 0] | _ => none) = some 2 ∧
    (match toArray3 ⟨false, 64, true⟩ [1, 2, 3, 4, 5, 6] [1, 2, 3] .c with | .ok a => a.get [0, 1, 0] | _ => none) = some 4 := by decide +kernel

end Npyz.Props
