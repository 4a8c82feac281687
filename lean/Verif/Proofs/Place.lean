import Verif.Spec.Place
import Verif.Proofs.CodecRound
import Verif.Proofs.CodecAccept
import Verif.Proofs.Save
import Verif.Proofs.WriterRead
/-!
Parts of values are found at their places.
-/
set_option autoImplicit false
namespace Npyz
open Spec

theorem slice_get (bs : Bytes) (a n q : Nat) : (slice bs a n)[q]? = if q < n then bs[a + q]? else none := by
  unfold slice
  rw [List.getElem?_take, List.getElem?_drop]

theorem length_slice {bs : Bytes} {a n : Nat} (h : a + n ≤ bs.length) : (slice bs a n).length = n := by
  simp [slice]; omega

theorem slice_slice (bs : Bytes) (a b n m : Nat) (h : b + m ≤ n) : slice (slice bs a n) b m = slice bs (a + b) m := by
  apply List.ext_getElem?
  intro q
  rw [slice_get, slice_get, slice_get]
  by_cases hq : q < m
  · rw [if_pos hq, if_pos hq, if_pos (by omega), Nat.add_assoc]
  · rw [if_neg hq, if_neg hq]

theorem slice_all {bs : Bytes} {n : Nat} (h : bs.length = n) : slice bs 0 n = bs := by
  simp [slice, ← h]

theorem patch_get {bs new : Bytes} {a : Nat} (h : a + new.length ≤ bs.length) (q : Nat) :
    (patch bs a new)[q]? = if a ≤ q ∧ q < a + new.length then new[q - a]? else bs[q]? := by
  unfold patch
  by_cases h1 : q < a
  · rw [List.getElem?_append_left (by simp; omega), List.getElem?_append_left (by simp; omega), if_neg (by omega), List.getElem?_take, if_pos h1]
  · by_cases h2 : q < a + new.length
    · rw [List.getElem?_append_left (by simp; omega), List.getElem?_append_right (by simp; omega), if_pos ⟨by omega, h2⟩]
      congr 1
      simp
      omega
    · rw [List.getElem?_append_right (by simp; omega), if_neg (by omega), List.getElem?_drop]
      congr 1
      simp
      omega

theorem length_patch {bs new : Bytes} {a : Nat} (h : a + new.length ≤ bs.length) : (patch bs a new).length = bs.length := by
  simp [patch]; omega

theorem patch_all {bs new : Bytes} (h : new.length = bs.length) : patch bs 0 new = new := by
  simp [patch, h]

theorem slice_patch_same {bs new : Bytes} {a b n : Nat} (h : a + b + new.length ≤ bs.length) (hn : b + new.length ≤ n) (hl : a + n ≤ bs.length) :
    slice (patch bs (a + b) new) a n = patch (slice bs a n) b new := by
  apply List.ext_getElem?
  intro q
  rw [slice_get, patch_get h, patch_get (by rw [length_slice hl]; exact hn), slice_get]
  by_cases hq : q < n
  · rw [if_pos hq, if_pos hq]
    by_cases hx : a + b ≤ a + q ∧ a + q < a + b + new.length
    · rw [if_pos hx, if_pos (by omega)]
      congr 1
      omega
    · rw [if_neg hx, if_neg (by omega)]
  · rw [if_neg hq, if_neg (by omega), if_neg hq]

theorem slice_patch_other {bs new : Bytes} {a b n : Nat} (h : a + new.length ≤ bs.length) (hd : b + n ≤ a ∨ a + new.length ≤ b) :
    slice (patch bs a new) b n = slice bs b n := by
  apply List.ext_getElem?
  intro q
  rw [slice_get, slice_get, patch_get h]
  by_cases hq : q < n
  · rw [if_pos hq, if_pos hq, if_neg (by omega)]
  · rw [if_neg hq, if_neg hq]

theorem decodeMany_get {α : Type} {f : Bytes → Option α} {k : Nat} : ∀ (n : Nat) (bs : Bytes) (l : { l : List α // l.length = n }),
    decodeMany f k n bs = some l ↔ ∀ i (hi : i < l.1.length), f (slice bs (i * k) k) = some l.1[i]
  | 0, bs, ⟨l, hl⟩ => by
    cases List.eq_nil_of_length_eq_zero hl
    simp [decodeMany]
  | n + 1, bs, ⟨l, hl⟩ => by
    cases l with
    | nil => simp at hl
    | cons x xs =>
      have hl' : xs.length = n := by simpa using hl
      have ih := decodeMany_get (f := f) (k := k) n (bs.drop k) ⟨xs, hl'⟩
      have hs : ∀ i, slice (bs.drop k) (i * k) k = slice bs ((i + 1) * k) k := by
        intro i
        unfold slice
        rw [List.drop_drop, Nat.add_mul, Nat.one_mul, Nat.add_comm]
      constructor
      · intro h i hi
        simp only [decodeMany] at h
        split at h
        · rename_i y ys h1 h2
          simp only [Option.some.injEq, Subtype.mk.injEq, List.cons.injEq] at h
          obtain ⟨rfl, rfl⟩ := h
          cases i with
          | zero => simpa [slice] using h1
          | succ i =>
            have := ih.mp (by rw [h2]) i (by simpa using hi)
            rw [← hs i]
            exact this
        · cases h
      · intro h
        have h0 := h 0 (by simp)
        have h1 := ih.mpr (fun i hi => by rw [hs i]; exact h (i + 1) (by simpa using hi))
        simp only [decodeMany]
        rw [h1]
        have : f (bs.take k) = some x := by simpa [slice] using h0
        rw [this]

theorem array_bytes {n k m : Nat} {d : DType} (hk : exactBytes d = some k) (hn : exactBytes (.array n d) = some m) : m = n * k := by
  have : (exactBytes d).map (n * ·) = some m := hn
  rw [hk] at this
  exact (Option.some.inj this).symm

theorem fields_bytes {name : Text} {d : DType} {dfs : Fields} {m : Nat} (hn : exactFieldBytes (.cons name d dfs) = some m) :
    ∃ a b, exactBytes d = some a ∧ exactFieldBytes dfs = some b ∧ m = a + b := by
  simp only [exactFieldBytes] at hn
  split at hn
  · rename_i a b h1 h2
    exact ⟨a, b, h1, h2, (Option.some.inj hn).symm⟩
  · cases hn

theorem row_le {i n k : Nat} (h : i < n) : i * k + k ≤ n * k := by
  have : (i + 1) * k ≤ n * k := Nat.mul_le_mul_right k h
  rwa [Nat.add_mul, Nat.one_mul] at this

mutual
/-- A part lies within the item. -/
theorem part_bound {t t' : Ty} {d d' : DType} {v : t.Val} {v' : t'.Val} {off n : Nat} (h : Part d v off d' v')
    (hn : exactBytes d = some n) : ∃ n', exactBytes d' = some n' ∧ off + n' ≤ n := by
  cases h with
  | self => exact ⟨n, hn, by omega⟩
  | @elem t t' m k off i d d' v v' hi hk hp =>
    obtain ⟨n', h1, h2⟩ := part_bound hp hk
    have := array_bytes hk hn
    have := row_le (k := k) (v.2 ▸ hi : i < m)
    exact ⟨n', h1, by omega⟩
  | field hp => exact fieldPart_bound hp hn
termination_by sizeOf t
theorem fieldPart_bound {fs : TFields} {t' : Ty} {dfs : Fields} {d' : DType} {v : fs.Val} {v' : t'.Val} {off n : Nat} (h : FieldPart dfs v off d' v')
    (hn : exactFieldBytes dfs = some n) : ∃ n', exactBytes d' = some n' ∧ off + n' ≤ n := by
  cases h with
  | first hp =>
    obtain ⟨a, b, h1, h2, h3⟩ := fields_bytes hn
    obtain ⟨n', h4, h5⟩ := part_bound hp h1
    exact ⟨n', h4, by omega⟩
  | later hk hp =>
    obtain ⟨a, b, h1, h2, h3⟩ := fields_bytes hn
    rw [hk] at h1
    cases h1
    obtain ⟨n', h4, h5⟩ := fieldPart_bound hp h2
    exact ⟨n', h4, by omega⟩
termination_by sizeOf fs
end

mutual
/-- Where something can be put there is a part. -/
theorem put_bound {t t' : Ty} {d d' : DType} {v w : t.Val} {x : t'.Val} {off n : Nat} (h : Put d v off d' x w)
    (hn : exactBytes d = some n) : ∃ n', exactBytes d' = some n' ∧ off + n' ≤ n := by
  cases h with
  | self => exact ⟨n, hn, by omega⟩
  | @elem t t' m k off i d d' v x w hi hk hp =>
    obtain ⟨n', h1, h2⟩ := put_bound hp hk
    have := array_bytes hk hn
    have := row_le (k := k) (v.2 ▸ hi : i < m)
    exact ⟨n', h1, by omega⟩
  | field hp => exact fieldPut_bound hp hn
termination_by sizeOf t
theorem fieldPut_bound {fs : TFields} {t' : Ty} {dfs : Fields} {d' : DType} {v w : fs.Val} {x : t'.Val} {off n : Nat} (h : FieldPut dfs v off d' x w)
    (hn : exactFieldBytes dfs = some n) : ∃ n', exactBytes d' = some n' ∧ off + n' ≤ n := by
  cases h with
  | first hp =>
    obtain ⟨a, b, h1, h2, h3⟩ := fields_bytes hn
    obtain ⟨n', h4, h5⟩ := put_bound hp h1
    exact ⟨n', h4, by omega⟩
  | later hk hp =>
    obtain ⟨a, b, h1, h2, h3⟩ := fields_bytes hn
    rw [hk] at h1
    cases h1
    obtain ⟨n', h4, h5⟩ := fieldPut_bound hp h2
    exact ⟨n', h4, by omega⟩
termination_by sizeOf fs
end

theorem decode_array_iff {n k : Nat} {t : Ty} {d : DType} (hk : exactBytes d = some k) (bs : Bytes) (v : { l : List t.Val // l.length = n }) :
    decode (.array n t) (.array n d) bs = some v ↔ ∀ i (hi : i < v.1.length), decode t d (slice bs (i * k) k) = some v.1[i] := by
  rw [← decodeMany_get n bs v]
  have : decode (.array n t) (.array n d) bs = decodeMany (decode t d) k n bs := by
    show (exactBytes d).bind (fun k => decodeMany (decode t d) k n bs) = _
    rw [hk]
    rfl
  exact iff_of_eq (congrArg (· = some v) this)

theorem decode_fields_iff {name name' : Text} {t : Ty} {fs : TFields} {d : DType} {dfs : Fields} {k : Nat} (hk : exactBytes d = some k) (bs : Bytes)
    (v : t.Val) (vs : fs.Val) : decodeFields (.cons name t fs) (.cons name' d dfs) bs = some (v, vs) ↔
      decode t d (bs.take k) = some v ∧ decodeFields fs dfs (bs.drop k) = some vs := by
  have : decodeFields (.cons name t fs) (.cons name' d dfs) bs = decodePair k (decode t d) (decodeFields fs dfs) bs := by
    show (exactBytes d).bind (fun k => decodePair k (decode t d) (decodeFields fs dfs) bs) = _
    rw [hk]
    rfl
  refine (iff_of_eq (congrArg (· = some (v, vs)) this)).trans ?_
  unfold decodePair
  cases decode t d (bs.take k) with
  | none => simp
  | some a =>
    cases decodeFields fs dfs (bs.drop k) with
    | none => simp
    | some b => simp

mutual
/-- The bytes at the place of a part are its bytes. -/
theorem part_decode {t t' : Ty} {d d' : DType} {v : t.Val} {v' : t'.Val} {off n n' : Nat} (h : Part d v off d' v')
    (hn : exactBytes d = some n) (hn' : exactBytes d' = some n') {bs : Bytes} (hl : bs.length = n) (hb : decode t d bs = some v) :
    decode t' d' (slice bs off n') = some v' := by
  cases h with
  | self =>
    rw [hn] at hn'
    cases hn'
    rw [slice_all hl]
    exact hb
  | @elem t t' m k off i d d' v v' hi hk hp =>
    have e := array_bytes hk hn
    have hr := row_le (k := k) (v.2 ▸ hi : i < m)
    have h1 := (decode_array_iff hk bs v).mp hb i hi
    have h2 := part_decode hp hk hn' (length_slice (by omega)) h1
    obtain ⟨n'', h3, h4⟩ := part_bound hp hk
    rw [hn'] at h3
    cases h3
    rwa [slice_slice _ _ _ _ _ h4] at h2
  | field hp => exact fieldPart_decode hp hn hn' hl hb
termination_by sizeOf t
theorem fieldPart_decode {fs : TFields} {t' : Ty} {dfs : Fields} {d' : DType} {v : fs.Val} {v' : t'.Val} {off n n' : Nat} (h : FieldPart dfs v off d' v')
    (hn : exactFieldBytes dfs = some n) (hn' : exactBytes d' = some n') {bs : Bytes} (hl : bs.length = n) (hb : decodeFields fs dfs bs = some v) :
    decode t' d' (slice bs off n') = some v' := by
  cases h with
  | first hp =>
    obtain ⟨a, b, h1, h2, h3⟩ := fields_bytes hn
    obtain ⟨h4, -⟩ := (decode_fields_iff h1 bs _ _).mp hb
    have h5 := part_decode hp h1 hn' (by simp; omega) h4
    obtain ⟨n'', h6, h7⟩ := part_bound hp h1
    rw [hn'] at h6
    cases h6
    have := slice_slice bs 0 off a n' h7
    rw [Nat.zero_add, show slice bs 0 a = bs.take a from rfl] at this
    rwa [this] at h5
  | later hk hp =>
    obtain ⟨a, b, h1, h2, h3⟩ := fields_bytes hn
    rw [hk] at h1
    cases h1
    obtain ⟨-, h4⟩ := (decode_fields_iff hk bs _ _).mp hb
    have h5 := fieldPart_decode hp h2 hn' (by simp; omega) h4
    rw [slice, List.drop_drop] at h5
    exact h5
termination_by sizeOf fs
end

mutual
/-- Overwriting the bytes of a part replaces the part. -/
theorem put_decode {t t' : Ty} {d d' : DType} {v w : t.Val} {x : t'.Val} {off n n' : Nat} (h : Put d v off d' x w)
    (hn : exactBytes d = some n) (hn' : exactBytes d' = some n') {bs xs : Bytes} (hl : bs.length = n) (hb : decode t d bs = some v)
    (hl' : xs.length = n') (hx : decode t' d' xs = some x) : decode t d (patch bs off xs) = some w := by
  cases h with
  | self =>
    rw [hn] at hn'
    cases hn'
    rw [patch_all (by omega)]
    exact hx
  | @elem t t' m k off i d d' v x w hi hk hp =>
    have e := array_bytes hk hn
    have hr := row_le (k := k) (v.2 ▸ hi : i < m)
    obtain ⟨n'', h3, h4⟩ := put_bound hp hk
    rw [hn'] at h3
    cases h3
    have h1 := (decode_array_iff hk bs v).mp hb
    have h2 := put_decode hp hk hn' (length_slice (by omega)) (h1 i hi) hl' hx
    refine (decode_array_iff hk _ _).mpr fun j hj => ?_
    have hj' : j < v.1.length := by simpa using hj
    by_cases hij : i = j
    · subst hij
      rw [slice_patch_same (by omega) (by omega) (by omega)]
      simpa using h2
    · have hrj := row_le (k := k) (v.2 ▸ hj' : j < m)
      have : j * k + k ≤ i * k ∨ i * k + k ≤ j * k := by
        rcases Nat.lt_or_gt_of_ne hij with hlt | hlt
        · exact .inr (row_le hlt)
        · exact .inl (row_le hlt)
      rw [slice_patch_other (by omega) (by omega)]
      simpa [List.getElem_set, hij] using h1 j hj'
  | field hp => exact fieldPut_decode hp hn hn' hl hb hl' hx
termination_by sizeOf t
theorem fieldPut_decode {fs : TFields} {t' : Ty} {dfs : Fields} {d' : DType} {v w : fs.Val} {x : t'.Val} {off n n' : Nat} (h : FieldPut dfs v off d' x w)
    (hn : exactFieldBytes dfs = some n) (hn' : exactBytes d' = some n') {bs xs : Bytes} (hl : bs.length = n) (hb : decodeFields fs dfs bs = some v)
    (hl' : xs.length = n') (hx : decode t' d' xs = some x) : decodeFields fs dfs (patch bs off xs) = some w := by
  cases h with
  | first hp =>
    obtain ⟨a, b, h1, h2, h3⟩ := fields_bytes hn
    obtain ⟨n'', h6, h7⟩ := put_bound hp h1
    rw [hn'] at h6
    cases h6
    obtain ⟨h4, h5⟩ := (decode_fields_iff h1 bs _ _).mp hb
    have h8 := put_decode hp h1 hn' (by simp; omega) h4 hl' hx
    refine (decode_fields_iff h1 _ _ _).mpr ⟨?_, ?_⟩
    · have := slice_patch_same (bs := bs) (new := xs) (a := 0) (b := off) (n := a) (by omega) (by omega) (by omega)
      rw [Nat.zero_add] at this
      have e : ∀ l : Bytes, slice l 0 a = l.take a := fun _ => rfl
      rw [e, e] at this
      rw [this]
      exact h8
    · have := slice_patch_other (bs := bs) (new := xs) (a := off) (b := a) (n := b) (by omega) (.inr (by omega))
      have e : ∀ l : Bytes, l.length = n → slice l a b = l.drop a := by
        intro l hl
        unfold slice
        rw [List.take_of_length_le (by simp; omega)]
      rw [e _ (by rw [length_patch (by omega)]; exact hl), e _ hl] at this
      rw [this]
      exact h5
  | @later name name' t t' fs d d' dfs a off' v vs ws x hk hp =>
    obtain ⟨a', b, h1, h2, h3⟩ := fields_bytes hn
    rw [hk] at h1
    cases h1
    obtain ⟨n'', h6, h7⟩ := fieldPut_bound hp h2
    rw [hn'] at h6
    cases h6
    obtain ⟨h4, h5⟩ := (decode_fields_iff hk bs _ _).mp hb
    have h8 := fieldPut_decode hp h2 hn' (by simp; omega) h5 hl' hx
    refine (decode_fields_iff hk _ _ _).mpr ⟨?_, ?_⟩
    · have := slice_patch_other (bs := bs) (new := xs) (a := a + off') (b := 0) (n := a) (by omega) (.inl (by omega))
      have e : ∀ l : Bytes, slice l 0 a = l.take a := fun _ => rfl
      rw [e, e] at this
      rw [this]
      exact h4
    · have := slice_patch_same (bs := bs) (new := xs) (a := a) (b := off') (n := b) (by omega) (by omega) (by omega)
      have e : ∀ l : Bytes, l.length = n → slice l a b = l.drop a := by
        intro l hl
        unfold slice
        rw [List.take_of_length_le (by simp; omega)]
      rw [e _ (by rw [length_patch (by omega)]; exact hl), e _ hl] at this
      rw [this]
      exact h8
termination_by sizeOf fs
end

/-- Every encoded value has the size of its dtype. -/
theorem encode_size {M : Machine} (hM : M.Wf) {t : Ty} {d : DType} {n : Nat} (hc : CanWrite t d) (hd : d.Wf) (hs : SizesFit M.usizeLim d) (hn : exactBytes d = some n)
    (hm : n ≤ M.isizeMax) (v : t.Val) (b : Bytes) (h : encode t d v = some b) : b.length = n := by
  obtain ⟨w, hw⟩ := (writer_ok_iff hM t d).mpr ⟨hc, hs⟩
  exact encode_length hd hn hm hw v b h

set_option maxRecDepth 20000 in
mutual
/-- The bytes of an item contain the bytes of each part at its place. -/
theorem part_encode {M : Machine} (hM : M.Wf) {t t' : Ty} {d d' : DType} {v : t.Val} {v' : t'.Val} {off n n' : Nat} (h : Part d v off d' v') (hc : CanWrite t d)
    (hd : d.Wf) (hs : SizesFit M.usizeLim d) (hn : exactBytes d = some n) (hm : n ≤ M.isizeMax) (hn' : exactBytes d' = some n') {bs : Bytes}
    (hb : encode t d v = some bs) : encode t' d' v' = some (slice bs off n') := by
  cases h with
  | self =>
    rw [hn] at hn'
    cases hn'
    rw [slice_all (encode_size hM hc hd hs hn hm v bs hb)]
    exact hb
  | @elem t t' m k off i d d' v v' hi hk hp =>
    have e := array_bytes hk hn
    have hr := row_le (k := k) (v.2 ▸ hi : i < m)
    obtain ⟨_, hx, hc⟩ := hc
    cases hx
    have h0 : encodeAll (encode t d) v.1 = some bs := hb
    obtain ⟨h1, h2⟩ := encodeAll_item (encode_size hM hc hd.2 hs hk (by omega)) v.1 h0
    have h3 := part_encode hM hp hc hd.2 hs hk (by omega) hn' (h2 i hi)
    obtain ⟨n'', h4, h5⟩ := part_bound hp hk
    rw [hn'] at h4
    cases h4
    have := slice_slice bs (i * k) off k n' h5
    rw [← this]
    exact h3
  | @field fs t' dfs off d' v v' hp =>
    obtain ⟨_, hx, hc⟩ := hc
    cases hx
    exact fieldPart_encode hM hp hc hd hs hn hm hn' hb
termination_by sizeOf t
theorem fieldPart_encode {M : Machine} (hM : M.Wf) {fs : TFields} {t' : Ty} {dfs : Fields} {d' : DType} {v : fs.Val} {v' : t'.Val} {off n n' : Nat} (h : FieldPart dfs v off d' v')
    (hc : CanWriteFields fs dfs) (hd : dfs.Wf) (hs : FieldSizesFit M.usizeLim dfs) (hn : exactFieldBytes dfs = some n) (hm : n ≤ M.isizeMax)
    (hn' : exactBytes d' = some n') {bs : Bytes} (hb : encodeFields fs dfs v = some bs) : encode t' d' v' = some (slice bs off n') := by
  cases h with
  | @first name name' t t' fs d d' dfs off v vs v' hp =>
    obtain ⟨_, _, hx, hc, -⟩ := hc
    cases hx
    obtain ⟨a, b, h1, h2, h3⟩ := fields_bytes hn
    obtain ⟨x, y, h4, h5, rfl⟩ := both_eq_some.mp (show both (encode t d v) (encodeFields fs dfs vs) = some bs from hb)
    have hx := encode_size hM hc hd.1 hs.1 h1 (by omega) v x h4
    have h6 := part_encode hM hp hc hd.1 hs.1 h1 (by omega) hn' h4
    obtain ⟨n'', h7, h8⟩ := part_bound hp h1
    rw [hn'] at h7
    cases h7
    rw [h6]
    unfold slice
    rw [List.drop_append_of_le_length (by omega), List.take_append_of_le_length (by simp; omega)]
  | @later name name' t t' fs d d' dfs k off v vs v' hk hp =>
    obtain ⟨_, _, hx, hc, hcs⟩ := hc
    cases hx
    obtain ⟨a, b, h1, h2, h3⟩ := fields_bytes hn
    rw [hk] at h1
    cases h1
    obtain ⟨x, y, h4, h5, rfl⟩ := both_eq_some.mp (show both (encode t d v) (encodeFields fs dfs vs) = some bs from hb)
    have hx := encode_size hM hc hd.1 hs.1 hk (by omega) v x h4
    have h6 := fieldPart_encode hM hp hcs hd.2 hs.2 h2 (by omega) hn' h5
    rw [h6]
    unfold slice
    rw [← List.drop_drop, List.drop_left' hx]
termination_by sizeOf fs
end

mutual
theorem part_wf {t t' : Ty} {d d' : DType} {v : t.Val} {v' : t'.Val} {off : Nat} (h : Part d v off d' v') (hd : d.Wf) : d'.Wf := by
  cases h with
  | self => exact hd
  | elem hi hk hp => exact part_wf hp hd.2
  | field hp => exact fieldPart_wf hp hd
termination_by sizeOf t
theorem fieldPart_wf {fs : TFields} {t' : Ty} {dfs : Fields} {d' : DType} {v : fs.Val} {v' : t'.Val} {off : Nat} (h : FieldPart dfs v off d' v')
    (hd : dfs.Wf) : d'.Wf := by
  cases h with
  | first hp => exact part_wf hp hd.1
  | later hk hp => exact fieldPart_wf hp hd.2
termination_by sizeOf fs
end

mutual
theorem put_wf {t t' : Ty} {d d' : DType} {v w : t.Val} {x : t'.Val} {off : Nat} (h : Put d v off d' x w) (hd : d.Wf) : d'.Wf := by
  cases h with
  | self => exact hd
  | elem hi hk hp => exact put_wf hp hd.2
  | field hp => exact fieldPut_wf hp hd
termination_by sizeOf t
theorem fieldPut_wf {fs : TFields} {t' : Ty} {dfs : Fields} {d' : DType} {v w : fs.Val} {x : t'.Val} {off : Nat} (h : FieldPut dfs v off d' x w)
    (hd : dfs.Wf) : d'.Wf := by
  cases h with
  | first hp => exact put_wf hp hd.1
  | later hk hp => exact fieldPut_wf hp hd.2
termination_by sizeOf fs
end

end Npyz
