import Verif.Props.Header
/-!
Properties C15 and C16: number of elements and strides.
-/
namespace Npyz.Props
open Spec

/-- C15: the number of elements of a header that was read is the product of its dimensions. -/
theorem C15_len_is_product (M : Machine) (py : PyParser) (bs rest : Bytes) (h : NpyHeader)
    (hr : (NpyHeader.fromReader M py).run bs = (.ok h, rest)) (hlt : h.shape.prod < 2 ^ 64) :
    h.nRecords = h.shape.prod := by
  obtain ⟨d, o, hp⟩ : ∃ d o, NpyHeader.fromParts M d h.shape o = .ok h := by
    obtain ⟨v, r, h1, h2⟩ := RProg.run_bind_ok.mp hr
    cases v with
    | dict kvs =>
      simp only [RProg.run_lift, Prod.mk.injEq] at h2
      obtain ⟨_, b, vs, vd, shape, d, _, _, _, _, _, h6⟩ := interpretHeader_ok_iff.mp h2.1
      rw [(fromParts_ok h6).2.1]
      exact ⟨d, _, h6⟩
    | _ => simp [interpretHeader] at h2
  have := shapeProduct_ok (by decide) (fromParts_ok hp).2.2.2.1
  rw [this, Nat.one_mul, Nat.mod_eq_of_lt hlt]

/-- C15: in every build, a shape whose nonzero dimensions multiply to less than `2^64` gets its exact
length, which is the product of all dimensions. -/
theorem C15_len_total (M : Machine) (d : DType) (dims : List Nat) (o : Order) (sz : Option Nat)
    (hlt : nonzeroProd dims < 2 ^ 64) (hd : itemSizeOf M d = .ok sz) :
    ∃ h, NpyHeader.fromParts M d dims o = .ok h ∧ h.nRecords = dims.prod ∧ h.shape = dims ∧ h.order = o :=
  ⟨_, fromParts_eq hlt hd, rfl, rfl, rfl⟩

/-- C15: an array with a zero dimension has no elements. -/
theorem C15_len_zero (M : Machine) (d : DType) (pre post : List Nat) (o : Order) (h : NpyHeader)
    (hp : NpyHeader.fromParts M d (pre ++ 0 :: post) o = .ok h) : h.nRecords = 0 := by
  have := shapeProduct_ok (by decide) (fromParts_ok hp).2.2.2.1
  rw [this]
  simp [List.prod_append, List.prod_cons]

/-- C15_len_is_product: `exampleFile` has shape (2, 3). -/
example : ∃ h, (NpyHeader.fromReader ⟨false, 64, true⟩ Py.parse).run (exampleFile [7, 8, 9]) = (.ok h, [7, 8, 9]) ∧ h.nRecords = 6 := by
  obtain ⟨h, hr, hs⟩ := exampleFile_reads
  exact ⟨h, hr, by have := C15_len_is_product _ _ _ _ h hr (by rw [hs]; decide); rwa [hs] at this⟩

/-- C15_len_total, C15_len_zero: an array without elements. -/
example : ∃ h, NpyHeader.fromParts ⟨false, 64, true⟩ (.plain ⟨.little, .float, 8, none⟩) [2 ^ 40, 0, 3] .c = .ok h ∧ h.nRecords = 0 := by
  obtain ⟨h, hp, -⟩ := C15_len_total ⟨false, 64, true⟩ (.plain ⟨.little, .float, 8, none⟩) [2 ^ 40, 0, 3] .c (some 8) (by decide) rfl
  exact ⟨h, hp, C15_len_zero _ _ [2 ^ 40] [3] _ h hp⟩

example : itemSizeOf ⟨false, 64, true⟩ (.plain ⟨.little, .float, 8, none⟩) = .ok (some 8) ∧
    ([] : List Nat).prod = 1 ∧ [2, 3, 7].prod = 42 ∧ nonzeroProd [2 ^ 40, 0, 3] = 3 * 2 ^ 40 := by decide

theorem strides_of_fromParts {M : Machine} {d : DType} {o : Order} {h : NpyHeader} {dims : List Nat}
    (hp : NpyHeader.fromParts M d dims o = .ok h) (hpos : ∀ n ∈ dims, 0 < n) (hlt : dims.prod < 2 ^ 64) :
    h.strides = exactStrides o dims := by
  have := (fromParts_ok hp).2.2.2.2.1
  rw [computeStrides_exact (by rwa [nonzeroProd_of_pos hpos])] at this
  exact (Out.ok.inj this).symm

/-- C16: the strides map the indices of the shape into `0 .. len - 1`, different indices to different
positions, and every position is hit. -/
theorem C16_strides_bijective (M : Machine) (d : DType) (dims : List Nat) (o : Order) (h : NpyHeader)
    (hp : NpyHeader.fromParts M d dims o = .ok h) (hlt : dims.prod < 2 ^ 64) :
    (∀ idx, InShape idx dims → flatIndex idx h.strides < h.nRecords) ∧
    (∀ idx idx', InShape idx dims → InShape idx' dims → flatIndex idx h.strides = flatIndex idx' h.strides → idx = idx') ∧
    (∀ k, k < h.nRecords → ∃ idx, InShape idx dims ∧ flatIndex idx h.strides = k) := by
  have hn : h.nRecords = dims.prod := by
    rw [shapeProduct_ok (by decide) (fromParts_ok hp).2.2.2.1, Nat.one_mul, Nat.mod_eq_of_lt hlt]
  rw [hn]
  refine ⟨fun idx hi => ?_, fun idx idx' hi hi' he => ?_, fun k hk => ?_⟩
  · rw [strides_of_fromParts hp hi.pos hlt]
    cases o with
    | c => rw [flat_c hi, ← List.prod_reverse]; exact mixed_lt hi.reverse
    | fortran => rw [flat_fortran hi]; exact mixed_lt hi
  · rw [strides_of_fromParts hp hi.pos hlt] at he
    cases o with
    | c =>
      rw [flat_c hi, flat_c hi'] at he
      have := mixed_inj hi.reverse hi'.reverse he
      simpa using congrArg List.reverse this
    | fortran =>
      rw [flat_fortran hi, flat_fortran hi'] at he
      exact mixed_inj hi hi' he
  · cases o with
    | c =>
      obtain ⟨idx, h1, h2⟩ := mixed_surj (shape := dims.reverse) (k := k) (by rwa [List.prod_reverse])
      have h3 : InShape idx.reverse dims := by simpa using h1.reverse
      refine ⟨idx.reverse, h3, ?_⟩
      rw [strides_of_fromParts hp h3.pos hlt, flat_c h3, List.reverse_reverse]
      exact h2
    | fortran =>
      obtain ⟨idx, h1, h2⟩ := mixed_surj hk
      refine ⟨idx, h1, ?_⟩
      rw [strides_of_fromParts hp h1.pos hlt, flat_fortran h1]
      exact h2

/-- C16: in C order the position grows with the index in lexicographic order (last index fastest), in
Fortran order with the reversed index (first index fastest).  With the bijection above, the position
is the rank of the index. -/
theorem C16_strides_order (M : Machine) (d : DType) (dims : List Nat) (o : Order) (h : NpyHeader)
    (hp : NpyHeader.fromParts M d dims o = .ok h) (hlt : dims.prod < 2 ^ 64) (idx idx' : List Nat)
    (hi : InShape idx dims) (hi' : InShape idx' dims) :
    match o with
    | .c => idx < idx' → flatIndex idx h.strides < flatIndex idx' h.strides
    | .fortran => idx.reverse < idx'.reverse → flatIndex idx h.strides < flatIndex idx' h.strides := by
  rw [strides_of_fromParts hp hi.pos hlt]
  cases o with
  | c =>
    intro hl
    rw [flat_c hi, flat_c hi']
    exact mixed_reverse_lt hi hi' hl
  | fortran =>
    intro hl
    rw [flat_fortran hi, flat_fortran hi']
    have := mixed_reverse_lt hi.reverse hi'.reverse hl
    simpa using this

/-- C16: there is one stride per dimension. -/
theorem C16_strides_length (M : Machine) (d : DType) (dims : List Nat) (o : Order) (h : NpyHeader)
    (hp : NpyHeader.fromParts M d dims o = .ok h) : h.strides.length = dims.length := by
  have hs := (fromParts_ok hp).2.2.2.2.1
  have hl : ∀ (l : List Nat) (acc : Nat) (r : List Nat), prefixProducts M acc l = .ok r → r.length = l.length := by
    intro l
    induction l with
    | nil => intro acc r h; simp only [prefixProducts, Out.ok.injEq] at h; subst h; rfl
    | cons x xs ih =>
      intro acc r h
      simp only [prefixProducts, Out.bind_eq_ok, Out.ok.injEq] at h
      obtain ⟨a, _, r', hr', rfl⟩ := h
      simp [ih a r' hr']
  cases o with
  | c =>
    simp only [computeStrides, Out.bind_eq_ok, Out.ok.injEq] at hs
    obtain ⟨s, hs, he⟩ := hs
    rw [← he]; simpa using hl _ _ _ hs
  | fortran => exact hl _ _ _ hs

/-- C16_strides_bijective, C16_strides_order, C16_strides_length: a 2×3×4 array in Fortran order. -/
example : ∃ h, NpyHeader.fromParts ⟨false, 64, true⟩ (.plain ⟨.little, .float, 8, none⟩) [2, 3, 4] .fortran = .ok h ∧
    flatIndex [0, 1, 2] h.strides < h.nRecords ∧ (∃ idx, InShape idx [2, 3, 4] ∧ flatIndex idx h.strides = 14 % h.nRecords) ∧
    flatIndex [1, 0, 1] h.strides < flatIndex [0, 1, 2] h.strides ∧ h.strides.length = 3 := by
  obtain ⟨h, hp, hn, -⟩ := C15_len_total ⟨false, 64, true⟩ (.plain ⟨.little, .float, 8, none⟩) [2, 3, 4] .fortran (some 8) (by decide) rfl
  have h1 : InShape [0, 1, 2] [2, 3, 4] := .cons (by decide) (.cons (by decide) (.cons (by decide) .nil))
  have h2 : InShape [1, 0, 1] [2, 3, 4] := .cons (by decide) (.cons (by decide) (.cons (by decide) .nil))
  have hb := C16_strides_bijective _ _ _ _ h hp (by decide)
  exact ⟨h, hp, hb.1 _ h1, hb.2.2 _ (by rw [hn]; decide), C16_strides_order _ _ _ .fortran h hp (by decide) _ _ h2 h1 (by decide),
    C16_strides_length _ _ _ _ h hp⟩

/-- A 2×3×4 array: index (1, 2, 3) is the last element in both orders, (0, 1, 2) differs. -/
example : computeStrides ⟨false, 64, true⟩ .c [2, 3, 4] = .ok [12, 4, 1] ∧
    computeStrides ⟨false, 64, true⟩ .fortran [2, 3, 4] = .ok [1, 2, 6] ∧
    flatIndex [0, 1, 2] [12, 4, 1] = 6 ∧ flatIndex [0, 1, 2] [1, 2, 6] = 14 := by decide
example : InShape [0, 1, 2] [2, 3, 4] ∧ InShape [1, 2, 3] [2, 3, 4] :=
  ⟨.cons (by decide) (.cons (by decide) (.cons (by decide) .nil)),
   .cons (by decide) (.cons (by decide) (.cons (by decide) .nil))⟩

end Npyz.Props
