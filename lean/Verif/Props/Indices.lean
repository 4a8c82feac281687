import Verif.Props.SparseCopy
/-!
C108: the numbers in a sparse archive are taken at their value.
-/
namespace Npyz.Spec
set_option autoImplicit false

/-- The one-dimensional array `name` holds these whole numbers. -/
def StoresInts (M : Machine) (py : PyParser) (a : NpzArchive) (name : String) (ints : List Int) : Prop :=
  (∃ d o n, ∃ ys : List (BitVec 32), Holds M py (.num .i32) a (txt name) d [n] o ys ∧ ints = ys.map BitVec.toInt) ∨
  ∃ d o n, ∃ xs : List (BitVec 64), Holds M py (.num .i64) a (txt name) d [n] o xs ∧ ints = xs.map BitVec.toInt

/-- The indices of a matrix in this array are unsigned words of 64 bits, as numbers. -/
def unsigned (xs : List (BitVec 64)) : List Int := xs.map fun x => (x.toNat : Int)

/-- None is negative, and all fit the word size of the machine. -/
def IndexRange (M : Machine) (ints : List Int) : Prop := ∀ i ∈ ints, 0 ≤ i ∧ i < M.usizeLim

end Npyz.Spec

namespace Npyz.Props
set_option autoImplicit false
open Npyz.Spec
open Npyz.Sparse

variable {M : Machine} {py : PyParser} {t : Ty} {a : NpzArchive} {name : String}

theorem storesInts_iff (hM : M.Wf) {xs : List (BitVec 64)} (h : HasIndices M py a name xs) {ints : List Int} :
    StoresInts M py a name ints ↔ ints = xs.map BitVec.toInt := by
  have widen_int : ∀ ys : List (BitVec 32), (ys.map fun y => y.signExtend 64).map BitVec.toInt = ys.map BitVec.toInt := by
    intro ys
    rw [List.map_map]
    apply List.map_congr_left
    intro y _
    exact BitVec.toInt_signExtend_of_le (by decide)
  have uniq : ∀ {zs}, HasIndices M py a name zs → zs = xs := by
    intro zs hz
    have e1 := (indices_iff hM).mpr hz
    rw [(indices_iff hM).mpr h] at e1
    exact (Out.ok.inj e1).symm
  constructor
  · rintro (⟨d, o, n, ys, h1, rfl⟩ | ⟨d, o, n, zs, h1, rfl⟩)
    · rw [← uniq (.inl ⟨d, o, n, ys, h1, rfl⟩), widen_int]
    · rw [← uniq (.inr ⟨d, o, n, h1⟩)]
  · rintro rfl
    rcases h with ⟨d, o, n, ys, h1, rfl⟩ | ⟨d, o, n, h1⟩
    · exact .inl ⟨d, o, n, ys, h1, widen_int ys⟩
    · exact .inr ⟨d, o, n, xs, h1, rfl⟩

theorem toInt_of_nonneg {x : BitVec 64} (h : 0 ≤ x.toInt) : x.toInt = (x.toNat : Int) := by
  have hx := x.isLt
  rw [BitVec.toInt_eq_toNat_cond] at h ⊢
  by_cases hl : 2 * x.toNat < 2 ^ 64
  · rw [if_pos hl]
  · rw [if_neg hl] at h
    omega

theorem unsigned_eq {xs : List (BitVec 64)} (h : ∀ i ∈ xs.map BitVec.toInt, 0 ≤ i) : unsigned xs = xs.map BitVec.toInt := by
  apply List.map_congr_left
  intro x hx
  exact (toInt_of_nonneg (h x.toInt (List.mem_map.mpr ⟨x, hx, rfl⟩))).symm

theorem usize_eq {xs : List (BitVec 64)} (h : IndexRange M (xs.map BitVec.toInt)) : (asUsize M xs).map Int.ofNat = xs.map BitVec.toInt := by
  rw [← unsigned_eq fun i hi => (h i hi).1]
  unfold asUsize unsigned
  rw [List.map_map]
  apply List.map_congr_left
  intro x hx
  obtain ⟨h1, h2⟩ := h x.toInt (List.mem_map.mpr ⟨x, hx, rfl⟩)
  rw [toInt_of_nonneg h1] at h2
  have h2 : x.toNat < M.usizeLim := by omega
  show ((x.toNat % M.usizeLim : Nat) : Int) = _
  rw [Nat.mod_eq_of_lt h2]

/-- C108, COO, for numbers that are not negative. -/
theorem C108_coo_partial (hM : M.Wf) {m : Coo t} (h : Coo.fromNpz M py t a = .ok m) {shape row col : List Int} (h1 : StoresInts M py a "shape" shape)
    (h2 : StoresInts M py a "row" row) (h3 : StoresInts M py a "col" col) (hs : ∀ i ∈ shape ++ row ++ col, 0 ≤ i) :
    unsigned [m.shape.1, m.shape.2] = shape ∧ unsigned m.row = row ∧ unsigned m.col = col := by
  obtain ⟨-, g1, g2, g3, -⟩ := (C62_coo hM).mp h
  cases (storesInts_iff hM g1).mp h1
  cases (storesInts_iff hM g2).mp h2
  cases (storesInts_iff hM g3).mp h3
  simp only [List.mem_append] at hs
  exact ⟨unsigned_eq fun i hi => hs i (.inl (.inl hi)), unsigned_eq fun i hi => hs i (.inl (.inr hi)), unsigned_eq fun i hi => hs i (.inr hi)⟩

/-- C108, CSR, for numbers that are not negative, and pointers within the word size. -/
theorem C108_csr_partial (hM : M.Wf) {m : Csr t} (h : Csr.fromNpz M py t a = .ok m) {shape indices indptr : List Int}
    (h1 : StoresInts M py a "shape" shape) (h2 : StoresInts M py a "indices" indices) (h3 : StoresInts M py a "indptr" indptr)
    (hs : ∀ i ∈ shape ++ indices, 0 ≤ i) (hp : IndexRange M indptr) :
    unsigned [m.shape.1, m.shape.2] = shape ∧ unsigned m.indices = indices ∧ m.indptr.map Int.ofNat = indptr := by
  obtain ⟨-, g1, g2, ⟨xs, g3, g4⟩, -⟩ := (C62_csr hM).mp h
  cases (storesInts_iff hM g1).mp h1
  cases (storesInts_iff hM g2).mp h2
  cases (storesInts_iff hM g3).mp h3
  simp only [List.mem_append] at hs
  exact ⟨unsigned_eq fun i hi => hs i (.inl hi), unsigned_eq fun i hi => hs i (.inr hi), by rw [g4]; exact usize_eq hp⟩

/-- C108, CSC. -/
theorem C108_csc_partial (hM : M.Wf) {m : Csc t} (h : Csc.fromNpz M py t a = .ok m) {shape indices indptr : List Int}
    (h1 : StoresInts M py a "shape" shape) (h2 : StoresInts M py a "indices" indices) (h3 : StoresInts M py a "indptr" indptr)
    (hs : ∀ i ∈ shape ++ indices, 0 ≤ i) (hp : IndexRange M indptr) :
    unsigned [m.shape.1, m.shape.2] = shape ∧ unsigned m.indices = indices ∧ m.indptr.map Int.ofNat = indptr := by
  obtain ⟨-, g1, g2, ⟨xs, g3, g4⟩, -⟩ := (C62_csc hM).mp h
  cases (storesInts_iff hM g1).mp h1
  cases (storesInts_iff hM g2).mp h2
  cases (storesInts_iff hM g3).mp h3
  simp only [List.mem_append] at hs
  exact ⟨unsigned_eq fun i hi => hs i (.inl hi), unsigned_eq fun i hi => hs i (.inr hi), by rw [g4]; exact usize_eq hp⟩

/-- C108, BSR. -/
theorem C108_bsr_partial (hM : M.Wf) {m : Bsr t} (h : Bsr.fromNpz M py t a = .ok m) {shape indices indptr : List Int}
    (h1 : StoresInts M py a "shape" shape) (h2 : StoresInts M py a "indices" indices) (h3 : StoresInts M py a "indptr" indptr)
    (hs : ∀ i ∈ shape ++ indices, 0 ≤ i) (hp : IndexRange M indptr) :
    unsigned [m.shape.1, m.shape.2] = shape ∧ unsigned m.indices = indices ∧ m.indptr.map Int.ofNat = indptr := by
  obtain ⟨-, g1, g2, ⟨xs, g3, g4⟩, -⟩ := (C62_bsr hM).mp h
  cases (storesInts_iff hM g1).mp h1
  cases (storesInts_iff hM g2).mp h2
  cases (storesInts_iff hM g3).mp h3
  simp only [List.mem_append] at hs
  exact ⟨unsigned_eq fun i hi => hs i (.inl hi), unsigned_eq fun i hi => hs i (.inr hi), by rw [g4]; exact usize_eq hp⟩

/-- C108, DIA: offsets are signed, and always taken at their value. -/
theorem C108_dia_partial (hM : M.Wf) {m : Dia t} (h : Dia.fromNpz M py t a = .ok m) {shape offsets : List Int}
    (h1 : StoresInts M py a "shape" shape) (h2 : StoresInts M py a "offsets" offsets) (hs : ∀ i ∈ shape, 0 ≤ i) :
    unsigned [m.shape.1, m.shape.2] = shape ∧ m.offsets.map BitVec.toInt = offsets := by
  obtain ⟨-, g1, g2, -⟩ := (C62_dia hM).mp h
  cases (storesInts_iff hM g1).mp h1
  cases (storesInts_iff hM g2).mp h2
  exact ⟨unsigned_eq hs, rfl⟩

/-- An archive in CSR format with this index pointer array. -/
@[irreducible] def csrFile (indptr : List (BitVec 64)) : NpzArchive :=
  (Sparse.andThen (Sparse.writeFormatArray pc "csr" .new) fun z => Sparse.andThen (Sparse.writeShape pc (1#64, 1#64) z) fun z =>
    Sparse.andThen (Sparse.writeIndices pc "indices" [] z) fun z => Sparse.andThen (Sparse.writeIndices pc "indptr" indptr z) fun z =>
      Sparse.writeArray pc f64 (.ok (.plain ⟨.little, .float, 8, none⟩)) "data" [0] [] z).2.archive

def indptrOf : Res (Csr f64) → Option (List Nat)
  | .ok m => some m.indptr
  | _ => none

def pc32 : Machine := ⟨false, 32, false⟩

theorem of_indptr {M : Machine} {a : NpzArchive} {l : List Nat} (h : indptrOf (Csr.fromNpz M Py.parse f64 a) = some l) :
    ∃ m, Csr.fromNpz M Py.parse f64 a = .ok m ∧ m.indptr = l := by
  cases hx : Csr.fromNpz M Py.parse f64 a with
  | ok m => rw [hx] at h; exact ⟨m, rfl, Option.some.inj h⟩
  | err e => rw [hx] at h; cases h
  | panic => rw [hx] at h; cases h

/-- C108 is violated: negative pointers are read, as enormous ones. -/
theorem C108_violated : ∃ (a : NpzArchive) (m : Csr f64), Csr.fromNpz pc Py.parse f64 a = .ok m ∧ StoresInts pc Py.parse a "indptr" [-1] ∧
    m.indptr = [2 ^ 64 - 1] := by
  obtain ⟨m, h1, h2⟩ := of_indptr (M := pc) (a := csrFile [BitVec.allOnes 64]) (l := [2 ^ 64 - 1]) (by unfold csrFile; decide +kernel)
  refine ⟨_, m, h1, ?_, h2⟩
  obtain ⟨-, -, -, ⟨xs, g3, g4⟩, -⟩ := (C62_csr pc_wf).mp h1
  rw [storesInts_iff pc_wf g3]
  rw [h2] at g4
  match xs, g4 with
  | [x], g4 =>
    have e : 2 ^ 64 - 1 = x.toNat % 2 ^ 64 := (List.cons.inj g4).1
    have hx : x = BitVec.allOnes 64 := by
      apply BitVec.eq_of_toNat_eq
      rw [Nat.mod_eq_of_lt x.isLt] at e
      rw [← e]
      decide
    rw [hx]
    decide
  | [], g4 => cases g4
  | _ :: _ :: _, g4 => exact absurd (congrArg List.length g4) (by simp [asUsize])

/-- C108 is violated on machines of 32 bits: pointers of 64 bits lose their upper half, so that the same file holds different matrices
on different machines. -/
theorem C108_machines : ∃ (a : NpzArchive) (m m' : Csr f64), Csr.fromNpz pc Py.parse f64 a = .ok m ∧ Csr.fromNpz pc32 Py.parse f64 a = .ok m' ∧
    m.indptr = [2 ^ 32 + 5] ∧ m'.indptr = [5] := by
  obtain ⟨m, h1, h2⟩ := of_indptr (M := pc) (a := csrFile [BitVec.ofNat 64 (2 ^ 32 + 5)]) (l := [2 ^ 32 + 5]) (by unfold csrFile; decide +kernel)
  obtain ⟨m', h3, h4⟩ := of_indptr (M := pc32) (a := csrFile [BitVec.ofNat 64 (2 ^ 32 + 5)]) (l := [5]) (by unfold csrFile; decide +kernel)
  exact ⟨_, m, m', h1, h3, h2, h4⟩

theorem pointers_eq (xs : List (BitVec 64)) : xs = (asUsize pc xs).map (BitVec.ofNat 64) := by
  unfold asUsize
  rw [List.map_map]
  conv => lhs; rw [← List.map_id xs]
  apply List.map_congr_left
  intro x _
  apply BitVec.eq_of_toNat_eq
  show x.toNat = (x.toNat % 2 ^ 64) % 2 ^ 64
  have := x.isLt
  omega

theorem pointers_range {l : List Int} (h : ∀ i ∈ l, 0 ≤ i ∧ i < 1000) : IndexRange pc l := by
  intro i hi
  have := h i hi
  have : pc.usizeLim = 2 ^ 64 := rfl
  omega

/-- C108_coo_partial: the matrix `cooMatrix`. -/
example : ∃ a m, Coo.fromNpz pc Py.parse f64 a = .ok m ∧ unsigned [m.shape.1, m.shape.2] = [2, 3] ∧ unsigned m.row = [0, 1] ∧ unsigned m.col = [2, 0] := by
  obtain ⟨z', h⟩ := pc_written (m := cooMatrix) (by decide +kernel)
  have hc := C53_coo pc_wf pc_wf (fun _ _ h => h) (py := Py.parse) (t := f64) trivial f64_default cooMatrix_fits h
  obtain ⟨-, h2, h3, h4, -⟩ := (C62_coo pc_wf).mp hc
  exact ⟨_, _, hc, C108_coo_partial pc_wf hc ((storesInts_iff pc_wf h2).mpr (by decide)) ((storesInts_iff pc_wf h3).mpr (by decide))
    ((storesInts_iff pc_wf h4).mpr (by decide)) (by decide)⟩

/-- C108_csr_partial: the matrix `csrMatrix`. -/
example : ∃ a m, Csr.fromNpz pc Py.parse f64 a = .ok m ∧ unsigned [m.shape.1, m.shape.2] = [2, 3] ∧ unsigned m.indices = [2, 0] ∧
    m.indptr.map Int.ofNat = [0, 1, 2] := by
  obtain ⟨z', h⟩ := pc_written (m := csrMatrix) (by decide +kernel)
  have hc := C53_csr pc_wf pc_wf (fun _ _ h => h) (py := Py.parse) (t := f64) trivial f64_default
    (pc_fits (by decide +kernel) (by decide +kernel) (by decide +kernel) (by decide +kernel) (by decide +kernel)) h
  obtain ⟨-, h2, h3, ⟨xs, h4, e⟩, -⟩ := (C62_csr pc_wf).mp hc
  rw [pointers_eq xs, ← e] at h4
  exact ⟨_, _, hc, C108_csr_partial pc_wf hc ((storesInts_iff pc_wf h2).mpr (by decide)) ((storesInts_iff pc_wf h3).mpr (by decide))
    ((storesInts_iff pc_wf h4).mpr (by decide)) (by decide) (pointers_range (by decide))⟩

/-- C108_csc_partial: the matrix `cscMatrix`. -/
example : ∃ a m, Csc.fromNpz pc Py.parse f64 a = .ok m ∧ unsigned [m.shape.1, m.shape.2] = [2, 3] ∧ unsigned m.indices = [1, 0] ∧
    m.indptr.map Int.ofNat = [0, 1, 1, 2] := by
  obtain ⟨z', h⟩ := pc_written (m := cscMatrix) (by decide +kernel)
  have hc := C53_csc pc_wf pc_wf (fun _ _ h => h) (py := Py.parse) (t := f64) trivial f64_default
    (pc_fits (by decide +kernel) (by decide +kernel) (by decide +kernel) (by decide +kernel) (by decide +kernel)) h
  obtain ⟨-, h2, h3, ⟨xs, h4, e⟩, -⟩ := (C62_csc pc_wf).mp hc
  rw [pointers_eq xs, ← e] at h4
  exact ⟨_, _, hc, C108_csc_partial pc_wf hc ((storesInts_iff pc_wf h2).mpr (by decide)) ((storesInts_iff pc_wf h3).mpr (by decide))
    ((storesInts_iff pc_wf h4).mpr (by decide)) (by decide) (pointers_range (by decide))⟩

/-- C108_bsr_partial: the matrix `bsrMatrix`. -/
example : ∃ a m, Bsr.fromNpz pc Py.parse f64 a = .ok m ∧ unsigned [m.shape.1, m.shape.2] = [2, 3] ∧ unsigned m.indices = [1] ∧
    m.indptr.map Int.ofNat = [0, 1] := by
  obtain ⟨z', h⟩ := pc_written (m := bsrMatrix) (by decide +kernel)
  have hc := C53_bsr pc_wf pc_wf (fun _ _ h => h) (py := Py.parse) (t := f64) trivial f64_default
    (pc_fits (by decide +kernel) (by decide +kernel) (by decide +kernel) (by decide +kernel) (by decide +kernel)) h
  obtain ⟨-, h2, h3, ⟨xs, h4, e⟩, -⟩ := (C62_bsr pc_wf).mp hc
  rw [pointers_eq xs, ← e] at h4
  exact ⟨_, _, hc, C108_bsr_partial pc_wf hc ((storesInts_iff pc_wf h2).mpr (by decide)) ((storesInts_iff pc_wf h3).mpr (by decide))
    ((storesInts_iff pc_wf h4).mpr (by decide)) (by decide) (pointers_range (by decide))⟩

/-- C108_dia_partial: the matrix `diaMatrix`, one of whose offsets is negative. -/
example : ∃ a m, Dia.fromNpz pc Py.parse f64 a = .ok m ∧ unsigned [m.shape.1, m.shape.2] = [2, 3] ∧ m.offsets.map BitVec.toInt = [0, -1] := by
  obtain ⟨z', h⟩ := pc_written (m := diaMatrix) (by decide +kernel)
  have hc := C53_dia pc_wf pc_wf (fun _ _ h => h) (py := Py.parse) (t := f64) trivial f64_default diaMatrix_fits h
  obtain ⟨-, h2, h3, -⟩ := (C62_dia pc_wf).mp hc
  exact ⟨_, _, hc, C108_dia_partial pc_wf hc ((storesInts_iff pc_wf h2).mpr (by decide)) ((storesInts_iff pc_wf h3).mpr (by decide)) (by decide)⟩

/-- Pointers in range satisfy the hypotheses. -/
example : ∃ m, Csr.fromNpz pc Py.parse f64 (csrFile [0, 7]) = .ok m ∧ StoresInts pc Py.parse (csrFile [0, 7]) "indptr" (m.indptr.map Int.ofNat) ∧
    IndexRange pc (m.indptr.map Int.ofNat) ∧ m.indptr = [0, 7] := by
  obtain ⟨m, h1, h2⟩ := of_indptr (M := pc) (a := csrFile [0, 7]) (l := [0, 7]) (by unfold csrFile; decide +kernel)
  obtain ⟨-, -, -, ⟨xs, g3, g4⟩, -⟩ := (C62_csr pc_wf).mp h1
  have hr : IndexRange pc (m.indptr.map Int.ofNat) := by
    rw [h2]
    intro i hi
    have : pc.usizeLim = 2 ^ 64 := rfl
    simp at hi
    omega
  refine ⟨m, h1, ?_, hr, h2⟩
  rw [storesInts_iff pc_wf g3, g4]
  rw [h2] at g4
  match xs, g4 with
  | [x, y], g4 =>
    have e1 : 0 = x.toNat % 2 ^ 64 := (List.cons.inj g4).1
    have e2 : 7 = y.toNat % 2 ^ 64 := (List.cons.inj (List.cons.inj g4).2).1
    rw [Nat.mod_eq_of_lt x.isLt] at e1
    rw [Nat.mod_eq_of_lt y.isLt] at e2
    have hx : x = 0#64 := BitVec.eq_of_toNat_eq e1.symm
    have hy : y = 7#64 := BitVec.eq_of_toNat_eq e2.symm
    rw [hx, hy]
    decide
  | [], g4 => cases g4
  | [_], g4 => exact absurd (congrArg List.length g4) (by simp [asUsize])
  | _ :: _ :: _ :: _, g4 => exact absurd (congrArg List.length g4) (by simp [asUsize])

end Npyz.Props
