import Verif.Spec.Ndarray
import Verif.Proofs.Index
/-!
Lemmas about `ndarray` arrays.
-/
set_option autoImplicit false
namespace Npyz
open Spec

theorem prefixes_eq (dims : List Nat) (acc : Nat) : prefixes acc dims = (List.range dims.length).map fun k => acc * (dims.take k).prod := by
  induction dims generalizing acc with
  | nil => rfl
  | cons x xs ih =>
    rw [prefixes, ih, List.length_cons, List.range_succ_eq_map, List.map_cons, List.map_map]
    simp only [List.take_zero, List.prod_nil, Nat.mul_one, List.cons.injEq, true_and]
    refine List.map_congr_left fun k _ => ?_
    simp only [Function.comp_apply, Nat.succ_eq_add_one, List.take_succ_cons, List.prod_cons, Nat.mul_assoc]

theorem ndStrides_exact {dims : List Nat} (h : 0 ∉ dims) : ndStrides dims = (prefixes 1 dims).map Int.ofNat := by
  rw [ndStrides, if_neg h, prefixes_eq, List.map_map]
  refine List.map_congr_left fun k _ => ?_
  simp

theorem inShape_no_zero {idx dims : List Nat} (h : InShape idx dims) : 0 ∉ dims := by
  intro h0
  have := h.pos 0 h0
  omega

theorem place_flat {V : Type} {dims : List Nat} {strides : List Nat} {data : List V} (idx : List Nat) :
    (⟨dims, 0, strides.map Int.ofNat, data⟩ : NdView V).place idx = (flatIndex idx strides : Int) := by
  simp only [NdView.place, flatIndex, Int.zero_add]
  induction idx generalizing strides with
  | nil => simp
  | cons i is ih =>
    cases strides with
    | nil => simp
    | cons s ss =>
      simp only [List.map_cons, List.zipWith_cons_cons, List.sum_cons, ih]
      simp

/-- Where `ndarray` finds the elements. -/
theorem ndFromShapeVec_get {V : Type} {M : Machine} {dims : List Nat} {o : Order} {data : List V} {a : NdView V}
    (h : ndFromShapeVec M dims (decide (o = .fortran)) data = some a) {idx : List Nat} (hi : InShape idx dims) :
    a.get idx = data[flatIndex idx (exactStrides o dims)]? := by
  unfold ndFromShapeVec at h
  split at h
  · cases h
  split at h
  · cases h
  have h := Option.some.inj h
  have e : a = ⟨dims, 0, (exactStrides o dims).map Int.ofNat, data⟩ := by
    rw [← h]
    have h0 := inShape_no_zero hi
    cases o with
    | c =>
      simp only [reduceCtorEq, decide_false, Bool.false_eq_true, if_false]
      rw [ndStrides_exact (by simpa using h0), exactStrides, List.map_reverse]
    | fortran =>
      simp only [decide_true, if_true]
      rw [ndStrides_exact h0, exactStrides]
  rw [e, NdView.get, place_flat]
  simp

/-- `from_shape_vec` makes an array with these values. -/
theorem ndFromShapeVec_is {V : Type} {M : Machine} {dims : List Nat} {o : Order} {data : List V} (hl : data.length = dims.prod)
    (hp : nonzeroProd dims ≤ M.isizeMax) : ∃ a, ndFromShapeVec M dims (decide (o = .fortran)) data = some a ∧ ArrayIs a o dims data := by
  have h : ndFromShapeVec M dims (decide (o = .fortran)) data =
      some ⟨dims, 0, if decide (o = .fortran) then ndStrides dims else (ndStrides dims.reverse).reverse, data⟩ := by
    unfold ndFromShapeVec
    rw [if_neg (by omega), if_neg (by simp [hl])]
  refine ⟨_, h, rfl, ?_⟩
  apply List.ext_getElem
  · rw [List.length_map, List.length_map, length_storage, hl]
  · intro k h1 h2
    rw [List.length_map] at h1 h2
    obtain ⟨g1, g2⟩ := storage_position h1
    rw [List.getElem_map, List.getElem_map, ndFromShapeVec_get h g1, g2, List.getElem?_eq_getElem h2]

theorem map_mod_eq {dims : List Nat} {lim : Nat} (h : ∀ n ∈ dims, n < lim) : dims.map (· % lim) = dims := by
  conv => rhs; rw [← List.map_id dims]
  exact List.map_congr_left fun n hn => Nat.mod_eq_of_lt (h n hn)

/-- The elements of a sound view, in logical order. -/
theorem Spec.Sound.iter {V : Type} {a : NdView V} (h : Sound a) : a.iter.map some = (indices a.dims).map a.get := by
  have key : ∀ l : List (List Nat), (∀ idx ∈ l, (a.get idx).isSome) → (l.filterMap a.get).map some = l.map a.get := by
    intro l hl
    induction l with
    | nil => rfl
    | cons x xs ih =>
      obtain ⟨v, hv⟩ := Option.isSome_iff_exists.mp (hl x (by simp))
      rw [List.filterMap_cons_some hv, List.map_cons, List.map_cons, hv, ih fun y hy => hl y (by simp [hy])]
  exact key _ fun idx hi => h idx (mem_indices hi)

theorem mem_storage_of {o : Order} {idx dims : List Nat} (h : InShape idx dims) : idx ∈ storage o dims :=
  List.mem_of_getElem? (storage_at (o := o) h)

/-- Two arrays with the same values have the same elements. -/
theorem arrayIs_same {V : Type} {a b : NdView V} {o : Order} {dims : List Nat} {vs : List V} (ha : ArrayIs a o dims vs) (hb : ArrayIs b o dims vs) :
    SameElements a b := by
  refine ⟨ha.1.trans hb.1.symm, fun idx hi => ?_⟩
  rw [ha.1] at hi
  have := ha.2.trans hb.2.symm
  exact List.map_inj_left.mp this idx (mem_storage_of hi)

end Npyz
