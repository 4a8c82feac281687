import Verif.Spec.View
import Verif.Props.Resave
import Verif.Props.Pickle
import Verif.Props.Index
import Verif.Props.User
/-!
C133: the same bytes as items of different types.
-/
namespace Npyz.Props
set_option autoImplicit false
open Npyz.Spec

/-- The first `n` items of `s` bytes, if all of them are there and can be decoded. -/
def pieces {V : Type} (f : Bytes → Option V) (s : Nat) : Nat → Bytes → Option (List V)
  | 0, _ => some []
  | n + 1, bs =>
    if s ≤ bs.length then
      (match f (bs.take s), pieces f s n (bs.drop s) with
      | some x, some xs => some (x :: xs)
      | _, _ => none)
    else none

theorem pieces_succ {V : Type} {f : Bytes → Option V} {s n : Nat} {bs : Bytes} {l : List V} : pieces f s (n + 1) bs = some l ↔
    s ≤ bs.length ∧ ∃ x xs, f (bs.take s) = some x ∧ pieces f s n (bs.drop s) = some xs ∧ l = x :: xs := by
  rw [pieces]
  constructor
  · intro h
    split at h
    · rename_i hle
      cases h1 : f (bs.take s) with
      | none => rw [h1] at h; cases h
      | some x =>
        cases h2 : pieces f s n (bs.drop s) with
        | none => rw [h1, h2] at h; cases h
        | some xs => rw [h1, h2] at h; cases h; exact ⟨hle, x, xs, rfl, rfl, rfl⟩
    · cases h
  · rintro ⟨h0, x, xs, h1, h2, rfl⟩
    rw [if_pos h0, h1, h2]

theorem pieces_length {V : Type} {f : Bytes → Option V} {s n : Nat} {bs : Bytes} {l : List V} (h : pieces f s n bs = some l) :
    l.length = n ∧ n * s ≤ bs.length := by
  induction n generalizing bs l with
  | zero => cases h; simp
  | succ n ih =>
    obtain ⟨h0, x, xs, -, h2, rfl⟩ := pieces_succ.mp h
    obtain ⟨h3, h4⟩ := ih h2
    rw [List.length_drop] at h4
    rw [List.length_cons, Nat.add_mul, Nat.one_mul]
    exact ⟨by omega, by omega⟩

theorem pieces_add {V : Type} {f : Bytes → Option V} {s : Nat} (a b : Nat) (bs : Bytes) (l : List V) : pieces f s (a + b) bs = some l ↔
    ∃ l1 l2, pieces f s a bs = some l1 ∧ pieces f s b (bs.drop (a * s)) = some l2 ∧ l = l1 ++ l2 := by
  induction a generalizing bs l with
  | zero =>
    rw [Nat.zero_add, Nat.zero_mul]
    constructor
    · intro h; exact ⟨[], l, rfl, h, rfl⟩
    · rintro ⟨l1, l2, h1, h2, rfl⟩; cases h1; exact h2
  | succ a ih =>
    rw [show a + 1 + b = (a + b) + 1 by omega, pieces_succ]
    have e : (bs.drop s).drop (a * s) = bs.drop ((a + 1) * s) := by
      rw [List.drop_drop, Nat.add_mul, Nat.one_mul, Nat.add_comm]
    constructor
    · rintro ⟨h0, x, xs, h1, h2, rfl⟩
      obtain ⟨l1, l2, h3, h4, rfl⟩ := (ih _ _).mp h2
      rw [e] at h4
      exact ⟨x :: l1, l2, pieces_succ.mpr ⟨h0, x, l1, h1, h3, rfl⟩, h4, rfl⟩
    · rintro ⟨l1, l2, h1, h2, rfl⟩
      obtain ⟨h0, x, xs, h3, h4, rfl⟩ := pieces_succ.mp h1
      rw [← e] at h2
      exact ⟨h0, x, xs ++ l2, h3, (ih _ _).mpr ⟨xs, l2, h4, h2, rfl⟩, rfl⟩

/-- Only the bytes of the items matter. -/
theorem pieces_take {V : Type} {f : Bytes → Option V} {s n m : Nat} (bs : Bytes) (hm : n * s ≤ m) : pieces f s n (bs.take m) = pieces f s n bs := by
  induction n generalizing bs m with
  | zero => rfl
  | succ n ih =>
    rw [Nat.add_mul, Nat.one_mul] at hm
    rw [pieces, pieces, List.take_take, Nat.min_eq_left (by omega), List.drop_take, ih _ (by omega), List.length_take]
    by_cases h : s ≤ bs.length
    · rw [if_pos h, if_pos (by omega)]
    · rw [if_neg h, if_neg (by omega)]

theorem pieces_iff {V : Type} {f : Bytes → Option V} {s n : Nat} {bs : Bytes} {l : List V} : pieces f s n bs = some l ↔
    l.length = n ∧ n * s ≤ bs.length ∧ ∀ i (h : i < l.length), f ((bs.drop (i * s)).take s) = some l[i] := by
  induction n generalizing bs l with
  | zero =>
    constructor
    · intro h; cases h; simp
    · rintro ⟨h, -⟩; rw [List.length_eq_zero_iff.mp h]; rfl
  | succ n ih =>
    rw [pieces_succ]
    have e : ∀ i, (bs.drop s).drop (i * s) = bs.drop ((i + 1) * s) := fun i => by
      rw [List.drop_drop, Nat.add_mul, Nat.one_mul, Nat.add_comm]
    constructor
    · rintro ⟨h0, x, xs, h1, h2, rfl⟩
      obtain ⟨h3, h4, h5⟩ := ih.mp h2
      rw [List.length_drop] at h4
      refine ⟨by simp [h3], by rw [Nat.add_mul]; omega, fun i hi => ?_⟩
      cases i with
      | zero => simpa using h1
      | succ i => rw [← e]; simpa using h5 i (by simpa using hi)
    · rintro ⟨h3, h4, h5⟩
      cases l with
      | nil => cases h3
      | cons x xs =>
        rw [Nat.add_mul] at h4
        have hx := h5 0 (Nat.succ_pos _)
        rw [Nat.zero_mul, List.drop_zero] at hx
        refine ⟨by omega, x, xs, hx, ih.mpr ⟨by simpa using h3, by rw [List.length_drop]; omega, fun i hi => ?_⟩, rfl⟩
        rw [e]
        exact h5 (i + 1) (Nat.succ_lt_succ hi)

/-- Groups of `k` items. -/
theorem pieces_groups {A B : Type} {fa : Bytes → Option A} {fb : Bytes → Option B} {k s : Nat} {split : A → List B}
    (h : ∀ bs, bs.length = k * s → ∀ l, pieces fb s k bs = some l ↔ ∃ v, fa bs = some v ∧ split v = l) (n : Nat) (bs : Bytes) (l : List B) :
    pieces fb s (n * k) bs = some l ↔ ∃ vs, pieces fa (k * s) n bs = some vs ∧ vs.flatMap split = l := by
  induction n generalizing bs l with
  | zero =>
    rw [Nat.zero_mul]
    constructor
    · intro hl; cases hl; exact ⟨[], rfl, rfl⟩
    · rintro ⟨vs, h1, rfl⟩; cases h1; rfl
  | succ n ih =>
    rw [Nat.add_mul, Nat.one_mul, Nat.add_comm, pieces_add]
    constructor
    · rintro ⟨l1, l2, h1, h2, rfl⟩
      have hl := (pieces_length h1).2
      rw [← pieces_take bs (Nat.le_refl _)] at h1
      obtain ⟨v, h3, rfl⟩ := (h _ (by rw [List.length_take]; omega) _).mp h1
      obtain ⟨vs, h4, rfl⟩ := (ih _ _).mp h2
      exact ⟨v :: vs, pieces_succ.mpr ⟨hl, v, vs, h3, h4, rfl⟩, rfl⟩
    · rintro ⟨vs, h1, rfl⟩
      obtain ⟨h0, v, vs, h2, h3, rfl⟩ := pieces_succ.mp h1
      refine ⟨split v, vs.flatMap split, ?_, (ih _ _).mpr ⟨vs, h3, rfl⟩, rfl⟩
      rw [← pieces_take bs (Nat.le_refl _)]
      exact (h _ (by rw [List.length_take]; omega) _).mpr ⟨v, h2, rfl⟩

/-- What `into_vec` returns. -/
theorem intoVec_pieces {M : Machine} {t : Ty} {f : NpyFile Src} {size : Nat} (ho : Opened M f.header)
    (hs : f.header.itemSize = some size) (hm : size ≤ M.isizeMax) (hb : f.src.pos ≤ f.src.data.length) (vs : List t.Val) :
    (f.intoVec M disk t).1 = .ok vs ↔ (∃ r, f.data M t = .ok r) ∧ pieces (decode t f.header.dtype) size f.header.nRecords f.src.rest = some vs := by
  have hd : ∀ i, (f.src.data.drop (f.src.pos + i * size)) = f.src.rest.drop (i * size) := fun i => by rw [Src.rest, List.drop_drop]
  have hl : f.src.rest.length = f.src.data.length - f.src.pos := by rw [Src.rest, List.length_drop]
  rcases C21_into_vec (t := t) ho hs hm hb with ⟨vs', h1, h2, h3, h4⟩ | ⟨e, h1, h2⟩
  · have hp : pieces (decode t f.header.dtype) size f.header.nRecords f.src.rest = some vs' := by
      refine pieces_iff.mpr ⟨h2, by omega, fun i hi => ?_⟩
      have hx := h4 i hi
      unfold elementAt itemAt at hx
      split at hx
      · rw [← hd]; exact hx
      · cases hx
    rw [h1, hp]
    constructor
    · intro h
      cases h
      refine ⟨?_, rfl⟩
      unfold NpyFile.intoVec at h1
      cases hdt : f.data M t with
      | ok r => exact ⟨r, rfl⟩
      | err e => rw [hdt] at h1; cases h1
      | panic => rw [hdt] at h1; cases h1
    · rintro ⟨-, h⟩; cases h; rfl
  · rw [h1]
    constructor
    · intro h; cases h
    · rintro ⟨⟨r, hr⟩, hp⟩
      exfalso
      rcases h2 with ⟨why, h2⟩ | ⟨i, hi, h2⟩
      · rw [hr] at h2; cases h2
      · obtain ⟨p1, p2, p3⟩ := pieces_iff.mp hp
        have hx := p3 i (by omega)
        have hle : (i + 1) * size ≤ f.header.nRecords * size := Nat.mul_le_mul_right _ hi
        unfold elementAt itemAt at h2
        rw [if_pos (by omega), hd, hx] at h2
        cases h2

theorem decodeMany_pieces {V : Type} {f : Bytes → Option V} {s n : Nat} (bs : Bytes) (hl : n * s ≤ bs.length) (l : List V) :
    pieces f s n bs = some l ↔ ∃ v, decodeMany f s n bs = some v ∧ v.1 = l := by
  induction n generalizing bs l with
  | zero =>
    constructor
    · intro h; cases h; exact ⟨⟨[], rfl⟩, rfl, rfl⟩
    · rintro ⟨v, h1, rfl⟩; cases h1; rfl
  | succ n ih =>
    rw [Nat.add_mul, Nat.one_mul] at hl
    have ih := ih (bs.drop s) (by rw [List.length_drop]; omega)
    rw [pieces_succ]
    constructor
    · rintro ⟨-, x, xs, h1, h2, rfl⟩
      obtain ⟨v, h3, rfl⟩ := (ih _).mp h2
      exact ⟨⟨x :: v.1, by simp [v.2]⟩, by rw [decodeMany, h1, h3], rfl⟩
    · rintro ⟨v, h1, rfl⟩
      rw [decodeMany] at h1
      cases h2 : f (bs.take s) with
      | none => rw [h2] at h1; cases h1
      | some x =>
        cases h3 : decodeMany f s n (bs.drop s) with
        | none => rw [h2, h3] at h1; cases h1
        | some xs =>
          rw [h2, h3] at h1
          cases h1
          exact ⟨by omega, x, xs.1, rfl, (ih _).mpr ⟨xs, h3, rfl⟩, rfl⟩

theorem data_can {M : Machine} (hM : M.Wf) {t : Ty} {f : NpyFile Src} (ho : Opened M f.header) (hno : ¬ HasObject f.header.dtype) :
    (∃ r, f.data M t = .ok r) ↔ CanRead t f.header.dtype ∧ SizesFit M.usizeLim f.header.dtype := by
  rw [C24_others ho hno, reader_ok_iff hM]

theorem no_object {d : DType} {n : Nat} (h : exactBytes d = some n) : ¬ HasObject d :=
  fun ho => by have := (exactBytes_none_iff d).mpr ho; rw [h] at this; cases this

theorem itemSize_eq {M : Machine} {h : NpyHeader} (ho : Opened M h) {n : Nat} (he : exactBytes h.dtype = some n) : h.itemSize = some n := by
  obtain ⟨-, -, -, hi⟩ := opened ho
  rcases hi with ⟨h1, -⟩ | ⟨-, -, k, h1, h2⟩
  · exact absurd h1 (no_object he)
  · rw [he] at h1; cases h1; exact h2

/-- Two open files with the same data: what is read from the one is what is read from the other, taken apart. -/
theorem views {M : Machine} (hM : M.Wf) {ta tb : Ty} {f g : NpyFile Src} (hf : Opened M f.header) (hg : Opened M g.header)
    (bf : f.src.pos ≤ f.src.data.length) (bg : g.src.pos ≤ g.src.data.length) {k s : Nat}
    (sf : exactBytes f.header.dtype = some (k * s)) (sg : exactBytes g.header.dtype = some s) (mf : k * s ≤ M.isizeMax) (mg : s ≤ M.isizeMax)
    (hn : g.header.nRecords = f.header.nRecords * k) (hd : dataBytes f (k * s) = dataBytes g s) {split : ta.Val → List tb.Val}
    (hcan : CanRead tb g.header.dtype ∧ SizesFit M.usizeLim g.header.dtype ↔ CanRead ta f.header.dtype ∧ SizesFit M.usizeLim f.header.dtype)
    (h : ∀ bs, bs.length = k * s → ∀ l, pieces (decode tb g.header.dtype) s k bs = some l ↔
      ∃ v, decode ta f.header.dtype bs = some v ∧ split v = l) (l : List tb.Val) :
    (g.intoVec M disk tb).1 = .ok l ↔ ∃ vs, (f.intoVec M disk ta).1 = .ok vs ∧ vs.flatMap split = l := by
  rw [intoVec_pieces hg (itemSize_eq hg sg) mg bg, data_can hM hg (no_object sg), hcan]
  have e1 : g.src.rest.take (g.header.nRecords * s) = dataBytes g s := rfl
  have e2 : f.src.rest.take (f.header.nRecords * (k * s)) = dataBytes f (k * s) := rfl
  rw [← pieces_take g.src.rest (Nat.le_refl _), e1, hn, ← hd, pieces_groups h]
  constructor
  · rintro ⟨h1, vs, h2, h3⟩
    refine ⟨vs, (intoVec_pieces hf (itemSize_eq hf sf) mf bf vs).mpr ⟨(data_can hM hf (no_object sf)).mpr h1, ?_⟩, h3⟩
    rw [← pieces_take _ (Nat.le_refl _), e2]
    exact h2
  · rintro ⟨vs, h1, h2⟩
    obtain ⟨h3, h4⟩ := (intoVec_pieces hf (itemSize_eq hf sf) mf bf vs).mp h1
    refine ⟨(data_can hM hf (no_object sf)).mp h3, vs, ?_, h2⟩
    rw [← pieces_take _ (Nat.le_refl _), e2] at h4
    exact h4

/-- C133: `n` structs with an array of `k` elements as their only member and `n * k` elements are the same data: with one header in front of
the data `into_vec` returns the structs, with the other it returns their elements one after the other, and it fails with the one exactly if it
fails with the other. -/
theorem C133_arrays {M : Machine} (hM : M.Wf) {t : Ty} {f g : NpyFile Src} (hf : Opened M f.header) (hg : Opened M g.header)
    (bf : f.src.pos ≤ f.src.data.length) (bg : g.src.pos ≤ g.src.data.length) {name : Text} {k s : Nat}
    (df : f.header.dtype = oneFieldDType name (.array k g.header.dtype)) (sg : exactBytes g.header.dtype = some s)
    (mf : k * s ≤ M.isizeMax) (mg : s ≤ M.isizeMax) (hn : g.header.nRecords = f.header.nRecords * k)
    (hd : dataBytes f (k * s) = dataBytes g s) (l : List t.Val) :
    (g.intoVec M disk t).1 = .ok l ↔
      ∃ vs, (f.intoVec M disk (oneField name (.array k t))).1 = .ok vs ∧ vs.flatMap elements = l := by
  have sf : exactBytes f.header.dtype = some (k * s) := by
    rw [df]
    simp only [oneFieldDType, exactBytes, exactFieldBytes, sg, Option.map_some, Nat.add_zero]
  refine views hM hf hg bf bg sf sg mf mg hn hd ?_ ?_ l
  · rw [df]
    simp only [oneFieldDType, oneField, CanRead, CanReadFields, SizesFit, FieldSizesFit]
    constructor
    · rintro ⟨h1, h2⟩
      exact ⟨⟨_, rfl, _, _, rfl, ⟨t, rfl, h1⟩, rfl⟩, h2, trivial⟩
    · rintro ⟨⟨fs, h1, t1, rest, h2, ⟨t2, h3, h4⟩, h5⟩, h6, -⟩
      cases h1
      cases h2
      cases h3
      exact ⟨h4, h6⟩
  · intro bs hl l
    rw [decodeMany_pieces bs (by omega), df]
    have e : decode (oneField name (.array k t)) (oneFieldDType name (.array k g.header.dtype)) bs =
        decodePair (k * s) (fun bs => decodeMany (decode t g.header.dtype) s k bs) (fun _ => some ()) bs := by
      simp only [oneField, oneFieldDType, decode, decodeFields, onRecord, onArray, exactBytes, sg, Option.map_some, Option.bind_some]
      rfl
    rw [e]
    unfold decodePair
    rw [List.take_of_length_le (by omega)]
    constructor
    · rintro ⟨v, h1, rfl⟩
      exact ⟨(v, ()), by simp only [h1]; rfl, rfl⟩
    · rintro ⟨v, h1, rfl⟩
      simp only at h1
      cases h2 : decodeMany (decode t g.header.dtype) s k bs with
      | none => rw [h2] at h1; cases h1
      | some w =>
        rw [h2] at h1
        cases h1
        exact ⟨w, rfl, rfl⟩

/-- C133: `n` complex numbers and `2 * n` floats of the same byte order are the same data, real part first. -/
theorem C133_complex {M : Machine} (hM : M.Wf) {c : FloatTy} {e : Endianness} {f g : NpyFile Src} (hf : Opened M f.header)
    (hg : Opened M g.header) (bf : f.src.pos ≤ f.src.data.length) (bg : g.src.pos ≤ g.src.data.length)
    (df : f.header.dtype = .plain ⟨e, .complex, 2 * c.size, none⟩) (dg : g.header.dtype = .plain ⟨e, .float, c.size, none⟩)
    (hn : g.header.nRecords = f.header.nRecords * 2) (hd : dataBytes f (2 * c.size) = dataBytes g c.size) (l : List (floatOf c).Val) :
    (g.intoVec M disk (floatOf c)).1 = .ok l ↔ ∃ vs, (f.intoVec M disk (.complex c)).1 = .ok vs ∧ vs.flatMap (parts c) = l := by
  have hbig : 16 ≤ M.isizeMax ∧ 16 < M.usizeLim := by
    rcases hM with h | h <;> simp [Machine.isizeMax, Machine.usizeLim, h]
  have key : ∀ (c : FloatTy) (bs : Bytes), bs.length = 2 * c.size → ∀ l, pieces (decode (floatOf c) (.plain ⟨e, .float, c.size, none⟩)) c.size 2 bs = some l ↔
      ∃ v, decode (.complex c) (.plain ⟨e, .complex, 2 * c.size, none⟩) bs = some v ∧ parts c v = l := by
    intro c bs hl l
    have h2 : (bs.drop c.size).take c.size = bs.drop c.size := List.take_of_length_le (by rw [List.length_drop]; omega)
    have h3 : c.size ≤ (bs.drop c.size).length := by rw [List.length_drop]; omega
    have h4 : c.size ≤ bs.length := by omega
    cases c
    all_goals
      simp only [pieces, h2, if_pos h3, if_pos h4]
      exact ⟨fun h => ⟨_, rfl, Option.some.inj h⟩, fun ⟨v, h, h'⟩ => by cases h; exact congrArg some h'⟩
  refine views hM hf hg bf bg (k := 2) (s := c.size) ?_ ?_ ?_ ?_ hn hd ?_ ?_ l
  · rw [df]; cases c <;> rfl
  · rw [dg]; cases c <;> rfl
  · cases c <;> simp only [FloatTy.size] <;> omega
  · cases c <;> simp only [FloatTy.size] <;> omega
  · rw [df, dg]
    cases c <;> simp only [CanRead, SizesFit, floatOf, scalarAccepts, numAccepts, FloatTy.size] <;>
      exact ⟨fun _ => ⟨⟨trivial, trivial⟩, by omega⟩, fun _ => ⟨⟨trivial, trivial⟩, by omega⟩⟩
  · rw [df, dg]; exact key c

theorem both_assoc (a b c : Option Bytes) : both (both a b) c = both a (both b c) := by
  cases a <;> cases b <;> cases c <;> simp [both]

theorem encodeAll_append {α : Type} (f : α → Option Bytes) (l l' : List α) : encodeAll f (l ++ l') = both (encodeAll f l) (encodeAll f l') := by
  induction l with
  | nil => cases h : encodeAll f l' <;> simp [encodeAll, both, h]
  | cons x xs ih => rw [List.cons_append, encodeAll, encodeAll, ih, both_assoc]

theorem encodeAll_groups {α β : Type} {f : α → Option Bytes} {g : β → Option Bytes} {split : α → List β}
    (h : ∀ v, f v = encodeAll g (split v)) (vs : List α) : encodeAll f vs = encodeAll g (vs.flatMap split) := by
  induction vs with
  | nil => rfl
  | cons v vs ih => rw [encodeAll, List.flatMap_cons, encodeAll_append, ih, h]

theorem encode_elements {t : Ty} {name : Text} {k : Nat} {d : DType} (v : (oneField name (.array k t)).Val) :
    encode (oneField name (.array k t)) (oneFieldDType name (.array k d)) v = encodeAll (encode t d) (elements v) := by
  have : encode (oneField name (.array k t)) (oneFieldDType name (.array k d)) v = both (encodeAll (encode t d) (elements v)) (some []) := by
    simp only [oneField, oneFieldDType, encode, encodeFields]; rfl
  rw [this]
  cases encodeAll (encode t d) (elements v) <;> simp [both]

/-- C133 for writing: saving structs whose only member is an array, and saving the elements, with any shapes and orders and to any
streams, writes the same data behind the two headers. -/
theorem C133_written {M : Machine} {t : Ty} {name : Text} {k size : Nat} {d : DType} (hd : d.Wf) (hk : k < 2 ^ 64)
    (hs : exactBytes d = some size) (hm : size ≤ M.isizeMax) (hm' : k * size ≤ M.isizeMax) {vs : List (oneField name (.array k t)).Val}
    (hc : vs.length < 2 ^ 64) (hc' : (vs.flatMap elements).length < 2 ^ 64) {o o' : Order} {dims dims' : List Nat} {s s1 s' s1' : Sink}
    (h : NpyWriter.save M solid (oneField name (.array k t)) (oneFieldDType name (.array k d)) o (.nd dims) vs s = (.ok (), s1))
    (h' : NpyWriter.save M solid t d o' (.nd dims') (vs.flatMap elements) s' = (.ok (), s1')) :
    ∃ hdr hdr' items, s1 = s.put (hdr ++ items) ∧ s1' = s'.put (hdr' ++ items) ∧ items.length = vs.length * (k * size) ∧
      headerEnd (hdr ++ items) = hdr.length ∧ headerEnd (hdr' ++ items) = hdr'.length := by
  have sf : exactBytes (oneFieldDType name (.array k d)) = some (k * size) := by
    simp only [oneFieldDType, exactBytes, exactFieldBytes, hs, Option.map_some, Nat.add_zero]
  have wf : (oneFieldDType name (.array k d)).Wf := And.intro (And.intro hk hd) trivial
  obtain ⟨items, h1, e1, -, h2, -, -, prog, hw⟩ := save_ok wf sf hm' hc (by simp [ShapeHint.seeks]) h
  obtain ⟨items', h1', e1', -, h2', -⟩ := save_ok hd hs hm hc' (by simp [ShapeHint.seeks]) h'
  have hl := (encodeAll_item (encode_length wf sf hm' hw) vs h1).1
  rw [encodeAll_groups encode_elements, h1'] at h1
  obtain rfl : items' = items := Option.some.inj h1
  exact ⟨_, _, items', e1, e1', hl, headerEnd_headerBytes h2 _, headerEnd_headerBytes h2' _⟩

/-- A header that can be opened, with a given dtype and shape. -/
theorem some_header {d : DType} (hw : d.Wf) {dims : List Nat} (hdims : ∀ n ∈ dims, n < 2 ^ 64) (hprod : nonzeroProd dims < 2 ^ 64)
    (hsize : AllFit (Machine.usizeLim ⟨false, 64, true⟩) d)
    (hok : ∃ r s, (writeHeader ⟨false, 64, true⟩ d .c (.nd dims)).exec ⟨[], 0, true⟩ = (.ok r, s))
    (hlen : ((writeHeader ⟨false, 64, true⟩ d .c (.nd dims)).exec ⟨[], 0, true⟩).2.pos = 128) :
    ∃ h, Opened ⟨false, 64, true⟩ h ∧ h.dtype = d ∧ h.nRecords = dims.prod := by
  obtain ⟨r, s1, h⟩ := hok
  obtain ⟨hdr, rfl, h1⟩ := C07_round_trip ⟨false, 64, true⟩ ⟨false, 64, true⟩ Py.parse (fun _ _ h => h) d hw dims hdims hprod (.inr hsize) .c _ _ _ h
  rw [h, Sink.put_pos] at hlen
  have hlen : 0 + hdr.length = 128 := hlen
  obtain ⟨hd, h2, h3, -, -, h4⟩ := h1 (by rw [show hdr.length = 128 by omega]; decide) []
  exact ⟨hd, ⟨_, _, _, h2⟩, h3, h4⟩

def shortDType : DType := .plain ⟨.big, .int, 2, none⟩

theorem shortDType_wf : shortDType.Wf := wf_of_parse (s := ">i2".toList) (t := ⟨.big, .int, 2, none⟩) (by decide)

/-- C133_arrays: two structs of two numbers; the four numbers. -/
example : ∃ f g : NpyFile Src, f.src.data = [0, 1, 0, 2, 0, 3, 0, 4] ∧ g.src = f.src ∧
    ∀ l, (g.intoVec ⟨false, 64, true⟩ disk (.num .i16)).1 = .ok l ↔
      ∃ vs, (f.intoVec ⟨false, 64, true⟩ disk (oneField "xy".toList (.array 2 (.num .i16)))).1 = .ok vs ∧ vs.flatMap elements = l := by
  obtain ⟨a, a1, a2, a3⟩ := some_header (d := oneFieldDType "xy".toList (.array 2 shortDType)) ⟨⟨by decide, shortDType_wf⟩, trivial⟩
    (dims := [2]) (by decide) (by decide) ⟨⟨⟨by intro n hn; cases hn; decide, by decide, by intro n hn; cases hn; decide⟩, trivial⟩, by intro n hn; cases hn; decide⟩
    (header_ok (by decide +kernel)) (by decide +kernel)
  obtain ⟨b, b1, b2, b3⟩ := some_header (d := shortDType) shortDType_wf (dims := [4]) (by decide) (by decide) (by intro n hn; cases hn; decide) (header_ok (by decide +kernel)) (by decide +kernel)
  refine ⟨⟨a, ⟨[0, 1, 0, 2, 0, 3, 0, 4], 0⟩⟩, ⟨b, ⟨[0, 1, 0, 2, 0, 3, 0, 4], 0⟩⟩, rfl, rfl, fun l => ?_⟩
  exact C133_arrays (.inr rfl) (s := 2) (k := 2) a1 b1 (by simp) (by simp) (by rw [b2]; exact a2) (by rw [b2]; rfl) (by decide) (by decide)
    (by rw [a3, b3]; rfl) (by unfold dataBytes; rw [a3, b3]; rfl) l

/-- C133_complex: one complex number; its two parts. -/
example : ∃ f g : NpyFile Src, f.src.data = [1, 2, 3, 4, 5, 6, 7, 8] ∧ g.src = f.src ∧
    ∀ l, (g.intoVec ⟨false, 64, true⟩ disk (.num .f32)).1 = .ok l ↔
      ∃ vs, (f.intoVec ⟨false, 64, true⟩ disk (.complex .f32)).1 = .ok vs ∧ vs.flatMap (parts .f32) = l := by
  obtain ⟨a, a1, a2, a3⟩ := some_header (d := .plain ⟨.little, .complex, 8, none⟩) (wf_of_parse (s := "<c8".toList) (by decide))
    (dims := [1]) (by decide) (by decide) (by intro n hn; cases hn; decide) (header_ok (by decide +kernel)) (by decide +kernel)
  obtain ⟨b, b1, b2, b3⟩ := some_header (d := .plain ⟨.little, .float, 4, none⟩) (wf_of_parse (s := "<f4".toList) (by decide))
    (dims := [2]) (by decide) (by decide) (by intro n hn; cases hn; decide) (header_ok (by decide +kernel)) (by decide +kernel)
  refine ⟨⟨a, ⟨[1, 2, 3, 4, 5, 6, 7, 8], 0⟩⟩, ⟨b, ⟨[1, 2, 3, 4, 5, 6, 7, 8], 0⟩⟩, rfl, rfl, fun l => ?_⟩
  exact C133_complex (.inr rfl) (c := .f32) a1 b1 (by simp) (by simp) a2 b2 (by rw [a3, b3]; rfl) (by unfold dataBytes; rw [a3, b3]; rfl) l

/-- C133_written: two pairs of numbers, saved as two structs and as four numbers. -/
example : ∃ s1 s1' hdr hdr' items,
    NpyWriter.save ⟨false, 64, true⟩ solid (oneField "xy".toList (.array 2 (.num .i16))) (oneFieldDType "xy".toList (.array 2 shortDType)) .c (.nd [2])
      [(⟨[1#16, 2#16], rfl⟩, ()), (⟨[3#16, 4#16], rfl⟩, ())] ⟨[9], 1, false⟩ = (.ok (), s1) ∧
    NpyWriter.save ⟨false, 64, true⟩ solid (.num .i16) shortDType .fortran (.nd [2, 2]) [1#16, 2#16, 3#16, 4#16] ⟨[], 0, true⟩ = (.ok (), s1') ∧
    s1 = (⟨[9], 1, false⟩ : Sink).put (hdr ++ items) ∧ s1' = (⟨[], 0, true⟩ : Sink).put (hdr' ++ items) ∧ items.length = 8 := by
  have h := of_succeeded (x := NpyWriter.save ⟨false, 64, true⟩ solid (oneField "xy".toList (.array 2 (.num .i16))) (oneFieldDType "xy".toList (.array 2 shortDType)) .c (.nd [2])
      [(⟨[1#16, 2#16], rfl⟩, ()), (⟨[3#16, 4#16], rfl⟩, ())] ⟨[9], 1, false⟩) (by decide +kernel)
  have h' := of_succeeded (x := NpyWriter.save ⟨false, 64, true⟩ solid (.num .i16) shortDType .fortran (.nd [2, 2]) [1#16, 2#16, 3#16, 4#16] ⟨[], 0, true⟩) (by decide +kernel)
  obtain ⟨hdr, hdr', items, a, b, c, -⟩ := C133_written (t := .num .i16) (size := 2) shortDType_wf (by decide) rfl (by decide) (by decide) (by decide) (by decide) h h'
  exact ⟨_, _, hdr, hdr', items, h, h', a, b, c⟩

end Npyz.Props
