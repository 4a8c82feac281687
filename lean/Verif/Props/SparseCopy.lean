import Verif.Spec.SparseCopy
import Verif.Props.Sparse
import Verif.Props.User
/-!
C99: writing sparse matrices that were read.
-/
namespace Npyz.Props
set_option autoImplicit false
open Npyz.Spec Npyz.Sparse

variable {M M' : Machine} {py py' : PyParser} {t : Ty} {d : DType} {a : NpzArchive}

theorem length_allOk {V : Type} : ∀ {l : List (Res V)} {vs : List V}, allOk l = some vs → vs.length = l.length
  | [], vs, h => by cases h; rfl
  | .ok v :: rs, vs, h => by
    obtain ⟨ws, h1, rfl⟩ := Option.map_eq_some_iff.mp h
    rw [List.length_cons, length_allOk h1, List.length_cons]
  | .err e :: rs, vs, h => by cases h
  | .panic :: rs, vs, h => by cases h

theorem length_repeated {V σ : Type} (S : Source σ) (p : RProg V) (k : Nat) (s : σ) : (repeated S p k s).length = k := by
  induction k generalizing s with
  | zero => rfl
  | succ k ih => rw [repeated, List.length_cons, ih]

/-- The number of elements that an archive holds in an array. -/
theorem holds_length {t : Ty} {name : Text} {shape : List Nat} {o : Order} {vs : List t.Val} (h : Holds M py t a name d shape o vs) :
    vs.length < 2 ^ 64 ∧ vs.length = shape.prod % 2 ^ 64 := by
  obtain ⟨f, h1, h2, h3, h4, h5⟩ := h
  obtain ⟨ho, -⟩ := byName_opened h1
  have hc := shapeProduct_ok (by decide) (opened_count ho)
  have hl : vs.length = f.header.nRecords := by
    unfold NpyFile.intoVec at h5
    cases hd : f.data M t with
    | ok r =>
      rw [hd] at h5
      obtain ⟨p, -, -, h6⟩ := C84_sequential (M := M) (S := disk) hd
      rw [length_allOk ((h6 vs).mp h5), length_repeated]
    | err e => rw [hd] at h5; cases h5
    | panic => rw [hd] at h5; cases h5
  rw [hl, hc, h3, Nat.one_mul]
  exact ⟨Nat.mod_lt _ (by decide), rfl⟩

theorem hasIndices_length {name : String} {xs : List (BitVec 64)} (h : HasIndices M py a name xs) : xs.length < 2 ^ 64 := by
  rcases h with ⟨d, o, n, ys, h1, rfl⟩ | ⟨d, o, n, h1⟩
  · rw [List.length_map]
    exact (holds_length h1).1
  · exact (holds_length h1).1

theorem asUsize_lt (hM : M.Wf) {xs : List (BitVec 64)} {k : Nat} (h : k ∈ asUsize M xs) : k < M.usizeLim := by
  obtain ⟨x, -, rfl⟩ := List.mem_map.mp h
  exact Nat.mod_lt _ (by rcases hM with h | h <;> simp [Machine.usizeLim, h])

/-- What was read fits. -/
theorem read_fits (hM : M.Wf) {m : Sparse t} (h : Sparse.fromNpz M py t a = .ok m) :
    ((dataOf m).length < 2 ^ 64 ∧ ∀ a ∈ indexArrays m, a.2.length < 2 ^ 64) ∧ ∀ k ∈ usizes m, k < M.usizeLim := by
  obtain ⟨e1, e2, e3, e4, e5⟩ := C55_dispatch M py t a
  cases m with
  | coo m =>
    obtain ⟨-, -, h1, h2, d, o, n, h3⟩ := (C62_coo hM).mp ((e1 m).mp h)
    refine ⟨⟨(holds_length h3).1, ?_⟩, by intro k hk; cases hk⟩
    simp only [indexArrays, List.forall_mem_cons, List.not_mem_nil, false_implies, implies_true, and_true]
    exact ⟨hasIndices_length h1, hasIndices_length h2⟩
  | csr m =>
    obtain ⟨-, -, h1, ⟨xs, h2, hx⟩, d, o, n, h3⟩ := (C62_csr hM).mp ((e2 m).mp h)
    refine ⟨⟨(holds_length h3).1, ?_⟩, fun k hk => asUsize_lt hM (xs := xs) (hx ▸ hk)⟩
    simp only [indexArrays, List.forall_mem_cons, List.not_mem_nil, false_implies, implies_true, and_true]
    exact ⟨hasIndices_length h1, by rw [hx, List.length_map, asUsize, List.length_map]; exact hasIndices_length h2⟩
  | csc m =>
    obtain ⟨-, -, h1, ⟨xs, h2, hx⟩, d, o, n, h3⟩ := (C62_csc hM).mp ((e3 m).mp h)
    refine ⟨⟨(holds_length h3).1, ?_⟩, fun k hk => asUsize_lt hM (xs := xs) (hx ▸ hk)⟩
    simp only [indexArrays, List.forall_mem_cons, List.not_mem_nil, false_implies, implies_true, and_true]
    exact ⟨hasIndices_length h1, by rw [hx, List.length_map, asUsize, List.length_map]; exact hasIndices_length h2⟩
  | dia m =>
    obtain ⟨-, -, h1, d, n, k, h3⟩ := (C62_dia hM).mp ((e4 m).mp h)
    refine ⟨⟨(holds_length h3).1, ?_⟩, by intro k hk; cases hk⟩
    simp only [indexArrays, List.forall_mem_cons, List.not_mem_nil, false_implies, implies_true, and_true]
    exact hasIndices_length h1
  | bsr m =>
    obtain ⟨-, -, h1, ⟨xs, h2, hx⟩, d, n, b0, b1, h3, h4⟩ := (C62_bsr hM).mp ((e5 m).mp h)
    have hpos : 0 < M.usizeLim := by rcases hM with h | h <;> simp [Machine.usizeLim, h]
    refine ⟨⟨(holds_length h3).1, ?_⟩, ?_⟩
    · simp only [indexArrays, List.forall_mem_cons, List.not_mem_nil, false_implies, implies_true, and_true]
      exact ⟨hasIndices_length h1, by rw [hx, List.length_map, asUsize, List.length_map]; exact hasIndices_length h2⟩
    · simp only [usizes, List.forall_mem_cons, h4]
      exact ⟨Nat.mod_lt _ hpos, Nat.mod_lt _ hpos, fun k hk => asUsize_lt hM (xs := xs) (hx ▸ hk)⟩

/-- C99, what holds: a matrix that was read from any archive, and that passes the checks of the writer, can be written again, and what
was written is read as the same matrix. -/
theorem C99_copy_partial (hM : M.Wf) (hM' : M'.Wf) (hlim : M.usizeLim ≤ M'.usizeLim) (hpy : py'.ExtendsRef) (ht : Exact t) {m : Sparse t}
    (h : Sparse.fromNpz M py t a = .ok m) (hc : Consistent m) (hdef : t.defaultDType M = some (.ok d)) (hna : d.NotArray)
    (hcs : ConstsFit M.usizeLim t) {n : Nat} (hn : exactBytes d = some n) (hm : n ≤ M.isizeMax) (hm' : n ≤ M'.isizeMax) (hfit : AllFit M'.usizeLim d)
    (hlen : dictBytes d .c (.nd (dataDims m)) ≤ 65525) (hmem : dictBytes d .c (.nd (dataDims m)) + 76 ≤ M'.isizeMax)
    (hprod : nonzeroProd (dataDims m) < M.usizeLim) (z : NpzWriter) :
    ∃ z', m.writeNpz M hdef z = (.ok (), z') ∧ Sparse.fromNpz M' py' t z'.archive = .ok m := by
  obtain ⟨h1, h2⟩ := read_fits hM h
  have hf : SparseFits M M' d m := ⟨hcs, ⟨n, hn, hm, hm'⟩, hfit, hmem, h1, fun k hk => ⟨h2 k hk, Nat.lt_of_lt_of_le (h2 k hk) hlim⟩, hprod⟩
  obtain ⟨z', hz⟩ := C53_succeeds_exact hM ht hdef hf hc hna hlen z
  exact ⟨z', hz, C53_exact hM hM' hpy ht hdef hf hz⟩

/-- C99: matrices from archives that are laid out as scipy does pass the checks. -/
theorem C99_scipy (hM : M.Wf) {m : Sparse t} (h : Sparse.fromNpz M py t a = .ok m) (hl : LaidOut M py a m) : Consistent m := by
  obtain ⟨e1, e2, e3, e4, e5⟩ := C55_dispatch M py t a
  cases m with
  | coo m => trivial
  | csr m => trivial
  | csc m => trivial
  | dia m =>
    obtain ⟨-, -, h1, d, n, k, h3⟩ := (C62_dia hM).mp ((e4 m).mp h)
    obtain ⟨h4, f, k', h5, h6, h7⟩ := hl
    have h8 := (holds_length h3).2
    obtain ⟨f', a1, a2, a3, -⟩ := h3
    rw [h5] at a1
    cases a1
    rw [h6] at a3
    cases a3
    refine ⟨h4, k, ?_⟩
    rw [h8]
    simp only [List.prod_cons, List.prod_nil, Nat.mul_one]
    rw [Nat.mod_eq_of_lt h7, Nat.mul_comm]
  | bsr m =>
    obtain ⟨-, -, h1, -, d, n, b0, b1, h3, h4⟩ := (C62_bsr hM).mp ((e5 m).mp h)
    obtain ⟨f, c0, c1, h5, h6, h7, h8, h9⟩ := hl
    have h10 := (holds_length h3).2
    obtain ⟨f', a1, a2, a3, -⟩ := h3
    rw [h5] at a1
    cases a1
    rw [h6] at a3
    cases a3
    show m.data.length = _
    rw [h4, h10, Nat.mod_eq_of_lt h7, Nat.mod_eq_of_lt h8]
    simp only [List.prod_cons, List.prod_nil, Nat.mul_one]
    rw [Nat.mod_eq_of_lt h9, Nat.mul_assoc]

/-- The archive that scipy makes of an empty matrix in DIA format, with 2 rows and 3 columns: there are no diagonals. -/
@[irreducible] def emptyDiaFile : NpzArchive :=
  (Sparse.andThen (Sparse.writeFormatArray pc "dia" .new) fun z => Sparse.andThen (Sparse.writeShape pc (2#64, 3#64) z) fun z =>
    Sparse.andThen (Sparse.writeIndices pc "offsets" [] z) fun z =>
      Sparse.writeArray pc f64 (.ok (.plain ⟨.little, .float, 8, none⟩)) "data" [0, 0] [] z).2.archive

def emptyDia : Dia f64 := ⟨(2#64, 3#64), [], []⟩

def isEmptyDia : Res (Dia f64) → Bool
  | .ok m => decide (m.shape = (2#64, 3#64)) && m.data.isEmpty && m.offsets.isEmpty
  | _ => false

theorem emptyDia_read : Sparse.fromNpz pc Py.parse f64 emptyDiaFile = .ok (.dia emptyDia) := by
  have h : isEmptyDia (Dia.fromNpz pc Py.parse f64 emptyDiaFile) = true := by unfold emptyDiaFile; decide +kernel
  rw [(C55_dispatch pc Py.parse f64 emptyDiaFile).2.2.2.1]
  cases hx : Dia.fromNpz pc Py.parse f64 emptyDiaFile with
  | ok m =>
    rw [hx] at h
    obtain ⟨shape, data, offsets⟩ := m
    simp only [isEmptyDia, Bool.and_eq_true, decide_eq_true_eq, List.isEmpty_iff] at h
    obtain ⟨⟨rfl, rfl⟩, rfl⟩ := h
    rfl
  | err e => rw [hx] at h; cases h
  | panic => rw [hx] at h; cases h

/-- C99 is violated: an empty matrix in DIA format can be read, but writing it again panics. -/
theorem C99_violated : ∃ (a : NpzArchive) (m : Sparse f64), Sparse.fromNpz pc Py.parse f64 a = .ok m ∧
    ∀ z, (m.writeNpz pc f64_default z).1 = .panic := by
  refine ⟨emptyDiaFile, .dia emptyDia, emptyDia_read, fun z => ?_⟩
  refine C56_no_offsets (M' := pc) (m := emptyDia) pc_wf f64_default ?_ rfl z
  exact pc_fits (by decide +kernel) (by decide +kernel) (by decide +kernel) (by decide +kernel) (by decide +kernel)

/-- A BSR matrix that is read from an archive satisfies the hypotheses of `C99_copy_partial`, here an archive written by the
library. -/
example : ∃ a m z', Sparse.fromNpz pc Py.parse f64 a = .ok m ∧ formatName m = "bsr" ∧ m.writeNpz pc f64_default .new = (.ok (), z') ∧
    Sparse.fromNpz pc Py.parse f64 z'.archive = .ok m := by
  have hf : SparseFits pc pc (.plain ⟨.little, .float, 8, none⟩) bsrMatrix :=
    pc_fits (by decide +kernel) (by decide +kernel) (by decide +kernel) (by decide +kernel) (by decide +kernel)
  obtain ⟨z, hz⟩ := C53_succeeds_exact pc_wf (t := f64) trivial f64_default hf rfl (by simp [DType.NotArray]) (by decide +kernel) .new
  have hr := C53_exact (py := Py.parse) pc_wf pc_wf (fun _ _ h => h) (t := f64) trivial f64_default hf hz
  obtain ⟨z', h1, h2⟩ := C99_copy_partial (M' := pc) (py' := Py.parse) pc_wf pc_wf (Nat.le_refl _) (fun _ _ h => h) (t := f64) trivial hr rfl
    f64_default (by simp [DType.NotArray]) trivial (n := 8) rfl (by decide +kernel) (by decide +kernel) hf.fits (by decide +kernel) hf.mem hf.prod .new
  exact ⟨_, _, z', hr, rfl, h1, h2⟩

/-- C99_scipy: the same archive. -/
def bsrArchive : NpzArchive := (bsrMatrix.writeNpz pc f64_default .new).2.archive

def bsrShape : Option (List Nat) :=
  match bsrArchive.byName pc Py.parse (txt "data") with
  | .ok (some f) => some f.header.shape
  | _ => none

example : ∃ a m, Sparse.fromNpz pc Py.parse f64 a = .ok m ∧ LaidOut pc Py.parse a m ∧ formatName m = "bsr" ∧ Consistent m := by
  have hf : SparseFits pc pc (.plain ⟨.little, .float, 8, none⟩) bsrMatrix :=
    pc_fits (by decide +kernel) (by decide +kernel) (by decide +kernel) (by decide +kernel) (by decide +kernel)
  obtain ⟨z, hz⟩ := C53_succeeds_exact pc_wf (t := f64) trivial f64_default hf rfl (by simp [DType.NotArray]) (by decide +kernel) .new
  have hr := C53_exact (py := Py.parse) pc_wf pc_wf (fun _ _ h => h) (t := f64) trivial f64_default hf hz
  have h : bsrShape = some [1, 2, 1] := by decide +kernel
  have hl : LaidOut pc Py.parse z.archive bsrMatrix := by
    unfold bsrShape bsrArchive at h
    rw [hz] at h
    split at h
    · rename_i f hn
      exact ⟨f, 2, 1, hn, Option.some.inj h, by decide, by decide, by decide⟩
    · cases h
  exact ⟨_, _, hr, hl, rfl, C99_scipy pc_wf hr hl⟩

end Npyz.Props
