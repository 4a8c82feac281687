import Verif.Spec.Transpose
import Verif.Props.Index
import Verif.Props.Resave
/-!
C98: shape and order are labels on the data.
-/
namespace Npyz.Props
set_option autoImplicit false
open Npyz.Spec

theorem inShape_append {a b a' b' : List Nat} (h : InShape a b) (h' : InShape a' b') : InShape (a ++ a') (b ++ b') := by
  induction h with
  | nil => exact h'
  | cons hi _ ih => exact .cons hi ih

theorem inShape_reverse {a b : List Nat} (h : InShape a b) : InShape a.reverse b.reverse := by
  induction h with
  | nil => exact .nil
  | cons hi _ ih => rw [List.reverse_cons, List.reverse_cons]; exact inShape_append ih (.cons hi .nil)

theorem storage_flip (o : Order) (dims : List Nat) : storage (otherOrder o) dims.reverse = (storage o dims).map List.reverse := by
  cases o with
  | c => simp [otherOrder, storage]
  | fortran => simp [otherOrder, storage, Function.comp_def]

theorem length_prefixProducts {M : Machine} (dims : List Nat) {acc : Nat} {x : List Nat} (h : prefixProducts M acc dims = .ok x) :
    x.length = dims.length := by
  induction dims generalizing acc x with
  | nil => cases h; rfl
  | cons n ns ih =>
    simp only [prefixProducts, Out.bind_eq_ok] at h
    obtain ⟨a, -, r, h2, h3⟩ := h
    cases h3
    rw [List.length_cons, ih h2, List.length_cons]

theorem length_strides {M : Machine} {f : NpyHeader} (hf : Opened M f) : f.strides.length = f.shape.length := by
  have h := opened_strides hf
  cases ho : f.order with
  | c =>
    rw [ho] at h
    simp only [computeStrides, Out.bind_eq_ok] at h
    obtain ⟨x, h1, h2⟩ := h
    have := length_prefixProducts _ h1
    rw [← Out.ok.inj h2]
    simpa using this
  | fortran =>
    rw [ho] at h
    exact length_prefixProducts _ h

/-- C98: the header of the transpose has the same number of elements of the same size, and the strides in reverse: the position of an
index is the position of the reversed index. This also holds where the dimensions overflow. -/
theorem C98_strides {M : Machine} {f g : NpyHeader} (hf : Opened M f) (hg : Opened M g) (h : Transposed f g) :
    g.nRecords = f.nRecords ∧ g.itemSize = f.itemSize ∧ g.usesPickled = f.usesPickled ∧ g.strides = f.strides.reverse ∧
    ∀ idx, idx.length = f.shape.length → flatIndex idx.reverse g.strides = flatIndex idx f.strides := by
  have h1 := shapeProduct_ok (by decide) (opened_count hf)
  have h2 := shapeProduct_ok (by decide) (opened_count hg)
  obtain ⟨-, -, a1, a2⟩ := opened hf
  obtain ⟨-, -, b1, b2⟩ := opened hg
  have h3 := opened_strides hf
  have h4 := opened_strides hg
  rw [h.shape, h.order] at h4
  rw [h.shape, List.prod_reverse] at h2
  rw [h.dtype] at b1 b2
  have hs : g.strides = f.strides.reverse := by
    cases ho : f.order with
    | c =>
      rw [ho] at h3 h4
      simp only [computeStrides, Out.bind_eq_ok, otherOrder] at h3 h4
      obtain ⟨x, h5, h6⟩ := h3
      rw [h4] at h5
      cases h5
      rw [← Out.ok.inj h6, List.reverse_reverse]
    | fortran =>
      rw [ho] at h3 h4
      simp only [computeStrides, Out.bind_eq_ok, otherOrder, List.reverse_reverse] at h3 h4
      obtain ⟨x, h5, h6⟩ := h4
      rw [h3] at h5
      cases h5
      exact (Out.ok.inj h6).symm
  refine ⟨h2.trans h1.symm, ?_, b1.trans a1.symm, hs, fun idx hi => ?_⟩
  · rcases a2 with ⟨x1, x2⟩ | ⟨x1, -, n, x2, x3⟩ <;> rcases b2 with ⟨y1, y2⟩ | ⟨y1, -, m, y2, y3⟩
    · rw [x2, y2]
    · exact absurd x1 y1
    · exact absurd y1 x1
    · rw [x2] at y2
      cases y2
      rw [x3, y3]
  · rw [hs, flatIndex_reverse (by simp [hi, length_strides hf]), List.reverse_reverse]

/-- C98: files of any origin, one of which is labelled as the transpose of the other, and in which the same elements are found one after
the other: at each index of the first there is what is at the reversed index of the second, after any history of calls. -/
theorem C98_index {M : Machine} {py : PyParser} {t : Ty} {src src' : Src} (hlen : src.data.length < 2 ^ 63) (hlen' : src'.data.length < 2 ^ 63)
    {f g : NpyFile Src} (hf : (NpyFile.new M py disk src).1 = .ok f) (hg : (NpyFile.new M py disk src').1 = .ok g)
    (ht : Transposed f.header g.header) (hprod : f.header.shape.prod < 2 ^ 63) {size : Nat} (hs : f.header.itemSize = some size)
    (hm : size ≤ M.isizeMax) {vs : List t.Val} (hv : (f.intoVec M disk t).1 = .ok vs) (hv' : (g.intoVec M disk t).1 = .ok vs) :
    ∃ r r', f.data M t = .ok r ∧ g.data M t = .ok r' ∧ ∀ idx, InShape idx f.header.shape → ∀ ops ops', InRange f.header.nRecords ops →
      InRange g.header.nRecords ops' → ∃ v,
      (r.steps M disk (ops ++ [.readAt (flatIndex idx f.header.strides)])).1.getLast?.map seen = some (some (.value v)) ∧
      (r'.steps M disk (ops' ++ [.readAt (flatIndex idx.reverse g.header.strides)])).1.getLast?.map seen = some (some (.value v)) := by
  obtain ⟨hof, -, -⟩ := new_at hf
  obtain ⟨hog, -, -⟩ := new_at hg
  obtain ⟨h1, h2, h3, h4, h5⟩ := C98_strides hof hog ht
  obtain ⟨a1, r, a2, a3⟩ := C82_sequential_order hlen hf hprod hs hm hv
  obtain ⟨b1, r', b2, b3⟩ := C82_sequential_order hlen' hg (by rw [ht.shape, List.prod_reverse]; exact hprod) (h2.trans hs) hm hv'
  refine ⟨r, r', a2, b2, fun idx hi ops ops' hop hop' => ?_⟩
  have hx := storage_at (o := f.header.order) hi
  obtain ⟨hk, hx⟩ := List.getElem?_eq_some_iff.mp hx
  generalize flatIndex idx (exactStrides f.header.order f.header.shape) = k at hk hx
  have hb := b3 k (by omega) (by omega) ops' hop'
  have ha := a3 k (by omega) (by omega) ops hop
  simp only [ht.shape, ht.order, storage_flip, List.getElem_map] at hb
  rw [hx] at ha hb
  exact ⟨vs[k], ha, hb⟩

/-- C98: the number of elements and the arguments of `begin_1d` and `begin_2d` being the same, the other order gives the transpose. -/
theorem C98_hints (o : Order) (n : Nat) :
    finalShape (otherOrder o) n .oneD = (finalShape o n .oneD).reverse ∧
    ∀ r, finalShape (otherOrder o) n (.twoD r) = (finalShape o n (.twoD r)).reverse := by
  cases o <;> exact ⟨rfl, fun _ => rfl⟩

/-- C98: the elements of any file can be saved again with any other shape with as many elements, and in any order: the bytes of the
data are the same and the same elements are read one after the other. -/
theorem C98_relabel {M₁ M₂ M₃ : Machine} (hM₁ : M₁.Wf) (hM₃ : M₃.Wf) {py py' : PyParser} (hpy : py'.ExtendsRef) {t : Ty} {src : Src}
    {f : NpyFile Src} {vs : List t.Val} (hf : (NpyFile.new M₁ py disk src).1 = .ok f) (hv : (f.intoVec M₁ disk t).1 = .ok vs)
    (hroom : Roomy t f.header.dtype) {size : Nat} (hn : exactBytes f.header.dtype = some size)
    (hm₁ : size ≤ M₁.isizeMax) (hm₂ : size ≤ M₂.isizeMax) (hm₃ : size ≤ M₃.isizeMax) (hfit₃ : AllFit M₃.usizeLim f.header.dtype)
    (hp₃ : ∃ p, t.reader M₃ f.header.dtype = .ok p) (hw : ∃ w, t.writer M₂ f.header.dtype = .ok w)
    {o : Order} {hint : ShapeHint} (hcount : CountFits vs.length hint)
    (hz : hint ≠ .twoD 0) (hdims : ∀ k ∈ finalShape o vs.length hint, k < 2 ^ 64) (hprod : nonzeroProd (finalShape o vs.length hint) < 2 ^ 64)
    (hlen : dictBytes f.header.dtype o hint ≤ 65525)
    (hmem : dictBytes f.header.dtype o hint + 76 ≤ M₃.isizeMax) {s : Sink}
    (hk : hint.seeks = true → s.seekable = true ∧ s.pos + dictBytes f.header.dtype o hint + 76 ≤ 2 ^ 64) :
    ∃ s' f', NpyWriter.save M₂ solid t f.header.dtype o hint vs s = (.ok (), s') ∧
      (NpyFile.new M₃ py' disk ⟨s'.data, s.pos⟩).1 = .ok f' ∧ f'.header.dtype = f.header.dtype ∧ f'.header.order = o ∧
      f'.header.shape = finalShape o vs.length hint ∧ f'.header.nRecords = f.header.nRecords ∧ dataBytes f' size = dataBytes f size ∧
      (f'.intoVec M₃ disk t).1 = .ok vs := by
  obtain ⟨ho, hb⟩ := opened_of_new hf
  obtain ⟨hd, hlt, -, -⟩ := opened ho
  obtain ⟨h1, h2, h3, h4⟩ := intoVec_bytes hM₁ ho hroom hn hm₁ hb hv
  have hna : f.header.dtype.NotArray := by
    obtain ⟨py, bs, rest, hr⟩ := ho
    obtain ⟨v, r, k1, k2⟩ := RProg.run_bind_ok.mp hr
    cases v with
    | dict kvs =>
      simp only [RProg.run_lift, Prod.mk.injEq] at k2
      obtain ⟨_, b, vs, vd, shape, d, _, _, _, _, h5, h6⟩ := interpretHeader_ok_iff.mp k2.1
      rw [(fromParts_ok h6).1]
      exact (fromDescr_wf _ _ h5).2
    | _ => simp [interpretHeader] at k2
  have hc : vs.length < 2 ^ 64 := by rw [h1]; exact hlt
  have hnd : ∀ dims, hint = .nd dims → (∀ k ∈ dims, k < 2 ^ 64) ∧ nonzeroProd dims < 2 ^ 64 := by
    rintro dims rfl
    exact ⟨hdims, hprod⟩
  have hrows : ∀ r, hint = .twoD r → r < 2 ^ 64 := by
    rintro r rfl
    apply hdims
    cases o <;> simp [finalShape]
  have hh : hint.Fits := by
    cases hint with
    | nd dims => exact (hnd dims rfl).2
    | oneD => trivial
    | twoD r => trivial
  obtain ⟨s', hs'⟩ := C39_succeeds hd hn hm₂ hna hw hh hlen hz hc hcount
    (fun v hv he => by have := (encodeAll_none vs).mpr ⟨v, hv, he⟩; rw [h2] at this; cases this) hk
  obtain ⟨items, e1, e2, e3, e4, -⟩ := save_ok hd hn hm₂ hc (fun h => (hk h).2) hs'
  obtain ⟨p, hp⟩ := hp₃
  obtain ⟨f', a1, a2, a3, a4, a5⟩ := final_reads hM₃ hpy hd hp hn hm₃ hfit₃ hc hcount hnd hrows hmem e3 e4 e1 s
  rw [← e2] at a1
  rw [h3] at a5
  obtain ⟨ho', hb'⟩ := opened_of_new a1
  obtain ⟨b1, b2, -, -⟩ := intoVec_bytes hM₃ ho' (a2 ▸ hroom) (by rw [a2]; exact hn) hm₃ hb' a5
  rw [a2, h2] at b2
  exact ⟨s', f', hs', a1, a2, a4, a3, b1.symm.trans h1, (Option.some.inj b2).symm, a5⟩

/-- C98: transposing a file: saving its elements, in the order in which they are read, with the shape reversed and in the other
order makes a file in which each element is found at the reversed index. -/
theorem C98_transpose {M : Machine} (hM : M.Wf) {py : PyParser} (hpy : py.ExtendsRef) {t : Ty} {src : Src}
    {f : NpyFile Src} {vs : List t.Val} (hf : (NpyFile.new M py disk src).1 = .ok f) (hv : (f.intoVec M disk t).1 = .ok vs)
    (hroom : Roomy t f.header.dtype) {size : Nat} (hn : exactBytes f.header.dtype = some size) (hm : size ≤ M.isizeMax)
    (hw : ∃ w, t.writer M f.header.dtype = .ok w) (hdims : ∀ k ∈ f.header.shape, k < 2 ^ 64) (hprod : nonzeroProd f.header.shape < 2 ^ 63)
    (hlen : dictBytes f.header.dtype (otherOrder f.header.order) (.nd f.header.shape.reverse) ≤ 65525)
    (hmem : dictBytes f.header.dtype (otherOrder f.header.order) (.nd f.header.shape.reverse) + 76 ≤ M.isizeMax) {s : Sink}
    (hl : src.data.length < 2 ^ 63) :
    ∃ s' f' r r', NpyWriter.save M solid t f.header.dtype (otherOrder f.header.order) (.nd f.header.shape.reverse) vs s = (.ok (), s') ∧
      (NpyFile.new M py disk ⟨s'.data, s.pos⟩).1 = .ok f' ∧ Transposed f.header f'.header ∧ dataBytes f' size = dataBytes f size ∧
      f.data M t = .ok r ∧ f'.data M t = .ok r' ∧
      (s'.data.length < 2 ^ 63 → ∀ idx, InShape idx f.header.shape → ∀ ops ops', InRange f.header.nRecords ops → InRange f'.header.nRecords ops' →
        ∃ v, (r.steps M disk (ops ++ [.readAt (flatIndex idx f.header.strides)])).1.getLast?.map seen = some (some (.value v)) ∧
          (r'.steps M disk (ops' ++ [.readAt (flatIndex idx.reverse f'.header.strides)])).1.getLast?.map seen = some (some (.value v))) := by
  obtain ⟨ho, hb⟩ := opened_of_new hf
  obtain ⟨-, -, -, hx⟩ := opened ho
  obtain ⟨h1, -, -, -⟩ := intoVec_bytes hM ho hroom hn hm hb hv
  have hp : f.header.shape.prod < 2 ^ 63 := Nat.lt_of_le_of_lt (prod_le_nonzeroProd _) hprod
  have hcount : CountFits vs.length (.nd f.header.shape.reverse) := by
    show vs.length = f.header.shape.reverse.prod
    rw [List.prod_reverse, h1, shapeProduct_ok (by decide) (opened_count ho), Nat.one_mul, Nat.mod_eq_of_lt (by omega)]
  rcases hx with ⟨hx, -⟩ | ⟨-, hfit, n, hn', hs⟩
  · have := (exactBytes_none_iff _).mpr hx
    rw [hn] at this
    cases this
  rw [hn] at hn'
  cases hn'
  obtain ⟨r, hr⟩ : ∃ r, f.data M t = .ok r := by
    cases hd : f.data M t with
    | ok r => exact ⟨r, rfl⟩
    | err e => unfold NpyFile.intoVec at hv; rw [hd] at hv; cases hv
    | panic => unfold NpyFile.intoVec at hv; rw [hd] at hv; cases hv
  obtain ⟨hpk, p, hp1, rfl⟩ := data_ok_iff.mp hr
  obtain ⟨s', f', a1, a2, a3, a4, a5, a6, a7, a8⟩ := C98_relabel (M₂ := M) (M₃ := M) hM hM (py' := py) hpy hf hv hroom hn hm hm hm hfit ⟨p, hp1⟩ hw
    (o := otherOrder f.header.order) hcount (by simp) (by simpa [finalShape] using hdims)
    (by show nonzeroProd f.header.shape.reverse < _; rw [nonzeroProd_reverse]; omega) hlen hmem (s := s) (fun h => by cases h)
  have ht : Transposed f.header f'.header := ⟨a3, a5, a4⟩
  obtain ⟨r', hr'⟩ : ∃ r, f'.data M t = .ok r := by
    cases hd : f'.data M t with
    | ok r => exact ⟨r, rfl⟩
    | err e => unfold NpyFile.intoVec at a8; rw [hd] at a8; cases a8
    | panic => unfold NpyFile.intoVec at a8; rw [hd] at a8; cases a8
  refine ⟨s', f', _, r', a1, a2, ht, a7, hr, hr', fun hl' => ?_⟩
  obtain ⟨q, q', b1, b2, b3⟩ := C98_index (src' := ⟨s'.data, s.pos⟩) hl hl' hf a2 ht hp hs hm hv a8
  rw [hr] at b1
  rw [hr'] at b2
  cases b1
  cases b2
  exact b3

/-! A matrix of two rows and three columns. -/

def matrixType : DType := .plain ⟨.big, .uint, 2, none⟩
def matrix23 : List (Ty.num .u16).Val := ([1#16, 2#16, 3#16, 4#16, 5#16, 6#16] : List (BitVec 16))
@[irreducible] def matrixFile : Sink := (NpyWriter.save ⟨true, 32, true⟩ solid (.num .u16) matrixType .c (.nd [2, 3]) matrix23 ⟨[9, 9], 2, false⟩).2

theorem matrix_saved : NpyWriter.save ⟨true, 32, true⟩ solid (.num .u16) matrixType .c (.nd [2, 3]) matrix23 ⟨[9, 9], 2, false⟩ = (.ok (), matrixFile) := by
  unfold matrixFile
  exact of_succeeded (x := NpyWriter.save ⟨true, 32, true⟩ solid (.num .u16) matrixType .c (.nd [2, 3]) matrix23 ⟨[9, 9], 2, false⟩) (by decide +kernel)

theorem matrix_can : CanRead (.num .u16) matrixType := ⟨rfl, rfl⟩

/-- C98_relabel, C98_index, C98_strides: the file of the transpose, in Fortran order, can be made from that of the matrix. -/
example : ∃ f s' f' r r', (NpyFile.new ⟨false, 64, true⟩ Py.parse disk ⟨matrixFile.data, 2⟩).1 = .ok f ∧ f.header.shape = [2, 3] ∧
    NpyWriter.save ⟨false, 64, true⟩ solid (.num .u16) f.header.dtype .fortran (.nd [3, 2]) matrix23 ⟨[], 0, false⟩ = (.ok (), s') ∧
    (NpyFile.new ⟨false, 64, true⟩ Py.parse disk ⟨s'.data, 0⟩).1 = .ok f' ∧ dataBytes f' 2 = dataBytes f 2 ∧
    f.data ⟨false, 64, true⟩ (.num .u16) = .ok r ∧ f'.data ⟨false, 64, true⟩ (.num .u16) = .ok r' ∧
    (s'.data.length < 2 ^ 63 → ∃ v,
      (r.steps ⟨false, 64, true⟩ disk [.next, .readAt (flatIndex [1, 2] f.header.strides)]).1.getLast?.map seen = some (some (.value v)) ∧
      (r'.steps ⟨false, 64, true⟩ disk [.readAt (flatIndex [2, 1] f'.header.strides)]).1.getLast?.map seen = some (some (.value v))) := by
  have hwf : matrixType.Wf := wf_of_parse (s := ">u2".toList) (by decide)
  have hfit : SizesFit (2 ^ 64) matrixType := fits (s := ⟨.big, .uint, 2, none⟩) (by decide)
  obtain ⟨f, h1, h2, h3, h4, h5⟩ := C39_exact (M' := ⟨false, 64, true⟩) (.inr rfl) (py := Py.parse) (fun _ _ h => h) (t := .num .u16) trivial hwf (size := 2) rfl
    (by decide) (by decide) (by intro n hn; cases hn; decide) ((reader_ok_iff (.inr rfl) _ _).mpr ⟨matrix_can, hfit⟩) (by decide) (by decide)
    (by decide +kernel) (by decide) matrix_saved
  obtain ⟨s', f', r, r', k1, k2, k3, k4, k5, k6, k7⟩ := C98_transpose (.inr rfl) (fun _ _ h => h) h1 h5 (by rw [h2]; simp [Roomy, matrixType])
    (size := 2) (by rw [h2]; rfl) (by decide) (by rw [h2]; exact (writer_ok_iff (.inr rfl) _ _).mpr ⟨canWrite_of_canRead _ _ matrix_can, hfit⟩)
    (by rw [h3]; decide) (by rw [h3]; decide) (by rw [h2, h3, h4]; decide +kernel) (by rw [h2, h3, h4]; decide +kernel) (s := ⟨[], 0, false⟩)
    (by unfold matrixFile; decide +kernel)
  rw [h4, h3] at k1
  refine ⟨f, s', f', r, r', h1, h3, k1, k2, k4, k5, k6, fun hl => ?_⟩
  have hi : InShape [1, 2] f.header.shape := by rw [h3]; exact .cons (by decide) (.cons (by decide) .nil)
  exact k7 hl [1, 2] hi [.next] [] (by intro op h; rw [List.mem_singleton] at h; subst h; exact ⟨by simp, fun j hj => by cases hj⟩) (by intro op h; cases h)

end Npyz.Props
