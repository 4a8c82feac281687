import Verif.Spec.Slice
import Verif.Props.Iter
import Verif.Props.Index
/-!
C129: a part of an array along its slowest axis can be read alone, and arrays written one after the other are stacked.
-/
set_option autoImplicit false
namespace Npyz.Props
open Npyz Spec Py

theorem indices_add (a b : Nat) (dims : List Nat) :
    indices ((a + b) :: dims) = indices (a :: dims) ++ (indices (b :: dims)).map (addFirst a) := by
  simp only [indices, List.range_add, List.flatMap_append, List.map_flatMap, List.flatMap_map, List.map_map]
  rfl

/-- The order of storage goes through one part after the other. -/
theorem storage_add (o : Order) (a b : Nat) (dims : List Nat) :
    storage o (stack o (a + b) dims) = storage o (stack o a dims) ++ (storage o (stack o b dims)).map (advance o a) := by
  cases o with
  | c => exact indices_add a b dims
  | fortran =>
    simp only [storage, stack, List.reverse_append, List.reverse_cons, List.reverse_nil, List.nil_append, List.singleton_append,
      indices_add, List.map_append, List.map_map]
    congr 1
    refine List.map_congr_left fun x _ => ?_
    simp [advance]

theorem prod_stack (o : Order) (n : Nat) (dims : List Nat) : (stack o n dims).prod = n * dims.prod := by
  cases o with
  | c => simp [stack, List.prod_cons]
  | fortran => simp [stack, List.prod_append, List.prod_cons, Nat.mul_comm]

theorem storage_part {o : Order} {i j n : Nat} {dims : List Nat} (hij : i ≤ j) (hj : j ≤ n) {k : Nat}
    (hk : k < (storage o (stack o (j - i) dims)).length) :
    (storage o (stack o n dims))[i * dims.prod + k]? = some (advance o i (storage o (stack o (j - i) dims))[k]) := by
  have e : n = i + ((j - i) + (n - j)) := by omega
  rw [e, storage_add, List.getElem?_append_right (by rw [length_storage, prod_stack]; omega), length_storage, prod_stack,
    Nat.add_sub_cancel_left, List.getElem?_map, storage_add, List.getElem?_append_left hk, List.getElem?_eq_getElem hk]
  rfl

/-- C129: the elements of `a[i:j]` (of `a[..., i:j]` in Fortran order) stand together.  After any history of calls, `seek_to` the index
of the first of them, which is `i` times the product of the other dimensions, and then as many calls of `next` as there are elements
in the part, return exactly the elements of the part, in the order of storage of an array of its shape. -/
theorem C129_slice {M : Machine} {t : Ty} {size : Nat} {f : NpyFile Src} {r : NpyReader t.Val Src} (ho : Opened M f.header)
    (h : f.data M t = .ok r) (hf : Fits f.src.pos size f.header) (hm : size ≤ M.isizeMax) (hb : f.src.pos ≤ f.src.data.length)
    (hprod : f.header.shape.prod < 2 ^ 64) {n : Nat} {dims : List Nat} (hs : f.header.shape = stack f.header.order n dims)
    (A : List Nat → t.Val) (hA : ∀ idx, InShape idx f.header.shape →
      elementAt t f.header.dtype f.src.data f.src.pos size (flatIndex idx f.header.strides) = some (A idx))
    {i j : Nat} (hij : i ≤ j) (hj : j ≤ n) (ops : List ROp) (hop : InRange f.header.nRecords ops) :
    ∃ r', (r.steps M disk (ops ++ [.seekTo (i * dims.prod)])).2.takeCollect disk ((j - i) * dims.prod) =
      (.ok ((storage f.header.order (stack f.header.order (j - i) dims)).map fun idx => A (advance f.header.order i idx)), r') := by
  have hnr : f.header.nRecords = n * dims.prod := by
    have := shapeProduct_ok (by decide) (opened_count ho)
    rw [this, Nat.one_mul, Nat.mod_eq_of_lt hprod, hs, prod_stack]
  have hat : ∀ p (hp : p < (storage f.header.order f.header.shape).length),
      elementAt t f.header.dtype f.src.data f.src.pos size p = some (A (storage f.header.order f.header.shape)[p]) := by
    intro p hp
    obtain ⟨h1, h2⟩ := storage_position hp
    have h3 := hA _ h1
    rwa [opened_exactStrides ho h1.pos hprod, h2] at h3
  have hlen : (storage f.header.order f.header.shape).length = n * dims.prod := by rw [length_storage, hs, prod_stack]
  have hin : i * dims.prod ≤ n * dims.prod := Nat.mul_le_mul_right _ (by omega)
  have hjn : (j - i) * dims.prod + i * dims.prod ≤ n * dims.prod := by
    rw [← Nat.add_mul]; exact Nat.mul_le_mul_right _ (by omega)
  obtain ⟨vs, r', h1, h2, h3, -⟩ := C117_window ho h hf hm hb (fun p hp => by rw [hat p (by rw [hlen]; omega)]; nofun) ops
    (i * dims.prod) ((j - i) * dims.prod) hop (by rw [hnr]; exact hin)
  refine ⟨r', h1.trans ?_⟩
  have hvl : vs.length = (j - i) * dims.prod := by rw [h2, hnr]; omega
  have : vs = (storage f.header.order (stack f.header.order (j - i) dims)).map fun idx => A (advance f.header.order i idx) := by
    refine List.ext_getElem (by rw [hvl, List.length_map, length_storage, prod_stack]) fun k hk hk' => ?_
    have hks : k < (storage f.header.order (stack f.header.order (j - i) dims)).length := by simpa using hk'
    have h4 := h3 k hk
    have h5 := storage_part (n := n) hij hj hks
    rw [← hs] at h5
    obtain ⟨h6, h7⟩ := List.getElem?_eq_some_iff.mp h5
    rw [hat _ h6, h7] at h4
    rw [List.getElem_map]
    exact (Option.some.inj h4).symm
  rw [this]

theorem inShape_addFirst {a b : Nat} {idx dims : List Nat} (h : InShape idx (b :: dims)) : InShape (addFirst a idx) ((a + b) :: dims) := by
  cases h with
  | cons hi hs => exact .cons (by omega) hs

theorem inShape_advance {o : Order} {a b : Nat} {idx dims : List Nat} (h : InShape idx (stack o b dims)) :
    InShape (advance o a idx) (stack o (a + b) dims) := by
  cases o with
  | c => exact inShape_addFirst h
  | fortran =>
    have h1 := h.reverse
    simp only [stack, List.reverse_append, List.reverse_cons, List.reverse_nil, List.nil_append, List.singleton_append] at h1
    have h2 := (inShape_addFirst (a := a) h1).reverse
    simpa [stack, advance] using h2

theorem inShape_wider {o : Order} {a b : Nat} {idx dims : List Nat} (h : InShape idx (stack o a dims)) : InShape idx (stack o (a + b) dims) := by
  cases o with
  | c => cases h with | cons hi hs => exact .cons (by omega) hs
  | fortran =>
    have h1 := h.reverse
    simp only [stack, List.reverse_append, List.reverse_cons, List.reverse_nil, List.nil_append, List.singleton_append] at h1
    have h2 : InShape idx.reverse ((a + b) :: dims.reverse) := by
      generalize idx.reverse = y at h1
      cases h1 with | cons hi hs => exact .cons (by omega) hs
    simpa [stack] using h2.reverse

/-- The first number of an index, with `a` taken off. -/
def takeOff (o : Order) (a : Nat) (idx : List Nat) : List Nat :=
  match o with
  | .c => match idx with | [] => [] | x :: r => (x - a) :: r
  | .fortran => (match idx.reverse with | [] => [] | x :: r => (x - a) :: r : List Nat).reverse

def slowest (o : Order) (idx : List Nat) : Nat :=
  match o with
  | .c => idx.headD 0
  | .fortran => idx.reverse.headD 0

/-- One array behind the other. -/
def stacked {V : Type} (o : Order) (a : Nat) (A B : List Nat → V) (idx : List Nat) : V :=
  if slowest o idx < a then A idx else B (takeOff o a idx)

theorem stacked_first {V : Type} {o : Order} {a : Nat} (A B : List Nat → V) {idx dims : List Nat} (h : InShape idx (stack o a dims)) :
    stacked o a A B idx = A idx := by
  unfold stacked
  rw [if_pos]
  cases o with
  | c => cases h with | cons hi hs => exact hi
  | fortran =>
    have h1 := h.reverse
    simp only [stack, List.reverse_append, List.reverse_cons, List.reverse_nil, List.nil_append, List.singleton_append] at h1
    unfold slowest
    generalize idx.reverse = y at h1
    cases h1 with | cons hi hs => exact hi

theorem stacked_second {V : Type} {o : Order} {a b : Nat} (A B : List Nat → V) {idx dims : List Nat} (h : InShape idx (stack o b dims)) :
    stacked o a A B (advance o a idx) = B idx := by
  unfold stacked
  cases o with
  | c =>
    cases h with
    | cons hi hs => simp [slowest, advance, addFirst, takeOff]; omega
  | fortran =>
    have h1 := h.reverse
    simp only [stack, List.reverse_append, List.reverse_cons, List.reverse_nil, List.nil_append, List.singleton_append] at h1
    simp only [slowest, advance, takeOff, List.reverse_reverse]
    obtain ⟨y, hy⟩ : ∃ y, y = idx.reverse := ⟨_, rfl⟩
    rw [← hy] at h1 ⊢
    have hi : idx = y.reverse := by rw [hy, List.reverse_reverse]
    cases h1 with
    | cons hi' hs => rw [hi]; simp [addFirst]; omega

theorem stacked_list {V : Type} (o : Order) (a b : Nat) (dims : List Nat) (A B : List Nat → V) :
    (storage o (stack o a dims)).map A ++ (storage o (stack o b dims)).map B = (storage o (stack o (a + b) dims)).map (stacked o a A B) := by
  rw [storage_add, List.map_append, List.map_map]
  congr 1
  · exact List.map_congr_left fun x hx => (stacked_first A B (mem_storage hx)).symm
  · exact List.map_congr_left fun x hx => (stacked_second A B (mem_storage hx)).symm

/-- C129: the elements of an array `A` of shape `(a, ...)` and then those of an array `B` of shape `(b, ...)`, each in the order of
storage, pushed to a writer with the shape `(a + b, ...)`, make a file where `A` is found at the indices below `a` and `B` at those from
`a` on, on the slowest axis; at every index, on any machine whose limits the file respects, after every history of calls. -/
theorem C129_stacked {M M' : Machine} (hM' : M'.Wf) {py : PyParser} (hpy : py.ExtendsRef) {t : Ty} {d : DType} {size : Nat}
    (hd : d.Wf) (hn : exactBytes d = some size) (hm : size ≤ M.isizeMax) (hm' : size ≤ M'.isizeMax) (hf : AllFit M'.usizeLim d)
    (hp : ∃ p, t.reader M' d = .ok p) {o : Order} {a b : Nat} {dims : List Nat} (hdims : ∀ k ∈ stack o (a + b) dims, k < 2 ^ 64)
    (hnz : nonzeroProd (stack o (a + b) dims) < 2 ^ 63) (hmem : dictBytes d o (.nd (stack o (a + b) dims)) + 76 ≤ M'.isizeMax)
    (A B : List Nat → t.Val) {s s' : Sink} (hlen : s'.data.length < 2 ^ 63)
    (h : NpyWriter.save M solid t d o (.nd (stack o (a + b) dims))
      ((storage o (stack o a dims)).map A ++ (storage o (stack o b dims)).map B) s = (.ok (), s')) :
    ∃ f r, (NpyFile.new M' py disk ⟨s'.data, s.pos⟩).1 = .ok f ∧ f.data M' t = .ok r ∧ f.header.shape = stack o (a + b) dims ∧
      f.header.order = o ∧ ∀ ops, InRange ((a + b) * dims.prod) ops →
        (∀ idx, InShape idx (stack o a dims) →
          (r.steps M' disk (ops ++ [.readAt (flatIndex idx f.header.strides)])).1.getLast?.map seen =
            some (some (.value (readBack t d (A idx))))) ∧
        ∀ idx, InShape idx (stack o b dims) →
          (r.steps M' disk (ops ++ [.readAt (flatIndex (advance o a idx) f.header.strides)])).1.getLast?.map seen =
            some (some (.value (readBack t d (B idx)))) := by
  rw [stacked_list] at h
  obtain ⟨f, r, h1, h2, h3, h4, h5⟩ := C82_by_index hM' hpy hd hn hm hm' hf hp hdims hnz hmem _ hlen h
  rw [prod_stack] at h5
  refine ⟨f, r, h1, h2, h3, h4, fun ops hop => ⟨fun idx hi => ?_, fun idx hi => ?_⟩⟩
  · rw [h5 idx (inShape_wider hi) ops hop, stacked_first A B hi]
  · rw [h5 _ (inShape_advance hi) ops hop, stacked_second A B hi]

/-- C129: the same with `begin_2d`, where the number of rows is not known in advance. -/
theorem C129_appended {M M' : Machine} (hM' : M'.Wf) {py : PyParser} (hpy : py.ExtendsRef) {t : Ty} {d : DType} {size : Nat}
    (hd : d.Wf) (hn : exactBytes d = some size) (hm : size ≤ M.isizeMax) (hm' : size ≤ M'.isizeMax) (hf : AllFit M'.usizeLim d)
    (hp : ∃ p, t.reader M' d = .ok p) {o : Order} {a b w : Nat} (hw : 0 < w) (hw' : w < 2 ^ 64) (hc : (a + b) * w < 2 ^ 63)
    (hmem : dictBytes d o (.twoD w) + 76 ≤ M'.isizeMax) (A B : List Nat → t.Val) {s s' : Sink}
    (hp0 : s.pos + dictBytes d o (.twoD w) + 76 ≤ 2 ^ 64) (hlen : s'.data.length < 2 ^ 63)
    (h : NpyWriter.save M solid t d o (.twoD w) ((storage o (stack o a [w])).map A ++ (storage o (stack o b [w])).map B) s = (.ok (), s')) :
    ∃ f r, (NpyFile.new M' py disk ⟨s'.data, s.pos⟩).1 = .ok f ∧ f.data M' t = .ok r ∧ f.header.shape = stack o (a + b) [w] ∧
      f.header.order = o ∧ ∀ ops, InRange ((a + b) * w) ops →
        (∀ idx, InShape idx (stack o a [w]) →
          (r.steps M' disk (ops ++ [.readAt (flatIndex idx f.header.strides)])).1.getLast?.map seen =
            some (some (.value (readBack t d (A idx))))) ∧
        ∀ idx, InShape idx (stack o b [w]) →
          (r.steps M' disk (ops ++ [.readAt (flatIndex (advance o a idx) f.header.strides)])).1.getLast?.map seen =
            some (some (.value (readBack t d (B idx)))) := by
  have e : finalShape o ((a + b) * w) (.twoD w) = stack o (a + b) [w] := by
    cases o <;> simp [finalShape, stack, Nat.mul_div_cancel _ hw]
  rw [stacked_list, ← e] at h
  obtain ⟨f, r, h1, h2, h3, h4, h5⟩ := C82_by_index_auto hM' hpy hd hn hm hm' hf hp (.inr ⟨w, rfl, hw'⟩) hmem hc (Nat.dvd_mul_left _ _) _ hp0 hlen h
  rw [e] at h3 h5
  refine ⟨f, r, h1, h2, h3, h4, fun ops hop => ⟨fun idx hi => ?_, fun idx hi => ?_⟩⟩
  · rw [h5 idx (inShape_wider hi) ops hop, stacked_first A B hi]
  · rw [h5 _ (inShape_advance hi) ops hop, stacked_second A B hi]

/-! ### Concrete cases -/

example : stack .c 2 [3, 4] = [2, 3, 4] ∧ stack .fortran 2 [3, 4] = [3, 4, 2] ∧ advance .c 5 [1, 2] = [6, 2] ∧ advance .fortran 5 [1, 2] = [1, 7] ∧
    (storage .fortran (stack .fortran 1 [2])).map (advance .fortran 3) = [[0, 3], [1, 3]] := by decide

/-- C129_slice: the second of two floats, after a call of `read_at`. -/
example : ∃ (f : NpyFile Src) (r r' : NpyReader f64.Val Src) (v : f64.Val),
    NpyFile.new ⟨false, 64, true⟩ Py.parse disk ⟨twoFloats, 0⟩ = (.ok f, f.src) ∧
    (r.steps ⟨false, 64, true⟩ disk ([.readAt 0] ++ [.seekTo (1 * ([] : List Nat).prod)])).2.takeCollect disk ((2 - 1) * ([] : List Nat).prod) = (.ok [v], r') := by
  obtain ⟨f, r, h1, h0, h2, h3, h4, h5, h6⟩ := twoFloats_reader
  have hop : InRange f.header.nRecords [.readAt 0] := by rw [h4]; intro op ho; simp at ho; rcases ho with rfl; simp
  have hq : (match (NpyFile.new ⟨false, 64, true⟩ Py.parse disk ⟨twoFloats, 0⟩).1 with
      | .ok f => decide (f.header.shape = [2] ∧ f.header.strides = [1] ∧ f.header.order = .c) | _ => false) = true := by decide +kernel
  rw [h0] at hq
  obtain ⟨k1, k2, k3⟩ := of_decide_eq_true hq
  obtain ⟨r', k⟩ := C129_slice h1 h2 h3 (by decide) (by omega) (by rw [k1]; decide) (n := 2) (dims := []) (by rw [k1, k3]; rfl)
    (fun idx => (elementAt f64 f.header.dtype f.src.data f.src.pos 8 (flatIndex idx f.header.strides)).getD (0#64 : BitVec 64))
    (by
      intro idx hi
      rw [k1] at hi
      cases hi with
      | cons ha hb =>
        cases hb
        rename_i i
        have e : flatIndex [i] f.header.strides = i := by rw [k2]; simp [flatIndex]
        obtain ⟨v, hv⟩ := Option.ne_none_iff_exists'.mp (twoFloats_elements h4 h5 h6 _ (by rw [h4]; exact ha))
        rw [e]
        exact hv.trans (congrArg some (congrArg (Option.getD · _) hv).symm))
    (i := 1) (j := 2) (by omega) (by omega) [.readAt 0] hop
  rw [k3] at k
  exact ⟨f, r, r', _, h0, k⟩

def stackSave (hint : ShapeHint) : Res Unit × Sink :=
  NpyWriter.save ⟨false, 64, true⟩ solid f64 (.plain ⟨.little, .float, 8, none⟩) .c hint
    ((storage .c (stack .c 1 [2])).map grid ++ (storage .c (stack .c 2 [2])).map grid) ⟨[], 0, true⟩

/-- C129_stacked, C129_appended: one row and two more. -/
example : ∃ s' f r, stackSave (.nd [3, 2]) = (.ok (), s') ∧ (NpyFile.new ⟨true, 64, false⟩ Py.parse disk ⟨s'.data, 0⟩).1 = .ok f ∧
    f.data ⟨true, 64, false⟩ f64 = .ok r ∧ f.header.shape = [3, 2] := by
  have h : (stackSave (.nd [3, 2])).1 = .ok () ∧ (stackSave (.nd [3, 2])).2.data.length = 176 := by decide +kernel
  rcases hx : stackSave (.nd [3, 2]) with ⟨x, s'⟩
  rw [hx] at h
  obtain ⟨h, hl⟩ := h
  cases h
  obtain ⟨f, r, h1, h2, h3, -⟩ := C129_stacked (M' := ⟨true, 64, false⟩) (py := Py.parse) (.inr rfl) (fun _ _ h => h) f8_wf rfl (by decide) (by decide)
    (f8_fits _ (by decide)) ⟨_, rfl⟩ (a := 1) (b := 2) (dims := [2]) (by decide) (by decide) (by decide +kernel) grid grid (by rw [hl]; decide) hx
  exact ⟨s', f, r, rfl, h1, h2, h3⟩
example : ∃ s' f r, stackSave (.twoD 2) = (.ok (), s') ∧ (NpyFile.new ⟨true, 64, false⟩ Py.parse disk ⟨s'.data, 0⟩).1 = .ok f ∧
    f.data ⟨true, 64, false⟩ f64 = .ok r ∧ f.header.shape = [3, 2] := by
  have h : (stackSave (.twoD 2)).1 = .ok () ∧ (stackSave (.twoD 2)).2.data.length = 176 := by decide +kernel
  rcases hx : stackSave (.twoD 2) with ⟨x, s'⟩
  rw [hx] at h
  obtain ⟨h, hl⟩ := h
  cases h
  obtain ⟨f, r, h1, h2, h3, -⟩ := C129_appended (M' := ⟨true, 64, false⟩) (py := Py.parse) (.inr rfl) (fun _ _ h => h) f8_wf rfl (by decide) (by decide)
    (f8_fits _ (by decide)) ⟨_, rfl⟩ (a := 1) (b := 2) (w := 2) (by decide) (by decide) (by decide) (by decide +kernel) grid grid
    (by decide +kernel) (by rw [hl]; decide) hx
  exact ⟨s', f, r, rfl, h1, h2, h3⟩

end Npyz.Props
