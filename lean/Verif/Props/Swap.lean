import Verif.Proofs.Swap
import Verif.Proofs.SparseBase
import Verif.Proofs.SparsePanic
import Verif.Props.Codec
import Verif.Props.Resave
/-!
C102: the byte order of a dtype is a matter of representation only.
-/
namespace Npyz.Props
set_option autoImplicit false
open Npyz.Spec

variable {M M' : Machine} {t : Ty} {d : DType} {size : Nat}

/-- C102: the same element types can be read and written in both byte orders. -/
theorem C102_accepts (hM : M.Wf) (t : Ty) (d : DType) : ((∃ p, t.reader M (otherDType d) = .ok p) ↔ ∃ p, t.reader M d = .ok p) ∧
    ((∃ w, t.writer M (otherDType d) = .ok w) ↔ ∃ w, t.writer M d = .ok w) := by
  have h1 : ∀ d, (∃ p, t.reader M d = .ok p) → ∃ p, t.reader M (otherDType d) = .ok p := fun d h => by
    obtain ⟨a, b⟩ := (reader_ok_iff hM t d).mp h
    exact (reader_ok_iff hM t _).mpr ⟨other_canRead t d a, other_sizesFit _ d b⟩
  have h2 : ∀ d, (∃ p, t.writer M d = .ok p) → ∃ p, t.writer M (otherDType d) = .ok p := fun d h => by
    obtain ⟨a, b⟩ := (writer_ok_iff hM t d).mp h
    exact (writer_ok_iff hM t _).mpr ⟨other_canWrite t d a, other_sizesFit _ d b⟩
  refine ⟨⟨fun h => ?_, h1 d⟩, ⟨fun h => ?_, h2 d⟩⟩
  · have := h1 _ h
    rwa [other_other] at this
  · have := h2 _ h
    rwa [other_other] at this

/-- C102: the other dtype is a dtype of the same size, and reversing the words twice changes nothing. -/
theorem C102_involution (hd : d.Wf) (hn : exactBytes d = some size) : (otherDType d).Wf ∧ exactBytes (otherDType d) = some size ∧
    otherDType (otherDType d) = d ∧ ∀ bs, bs.length = size → (reverseItem d bs).length = size ∧ reverseItem (otherDType d) (reverseItem d bs) = bs :=
  ⟨other_wf d hd, by rw [other_bytes, hn], other_other d, fun _ hl => ⟨reverseItem_length d hd hn hl, reverseItem_back d hd hn hl⟩⟩

/-- C102: an item is read as a value exactly when the item with reversed words is read as that value in the other byte order, and
rejected exactly when that is rejected. -/
theorem C102_read (hM : M.Wf) {p : RProg t.Val} {p' : RProg t.Val} (hp : t.reader M d = .ok p) (hp' : t.reader M' (otherDType d) = .ok p') (hd : d.Wf)
    (hn : exactBytes d = some size) (hm : size ≤ M.isizeMax) (hm' : size ≤ M'.isizeMax) {bs : Bytes} (hl : bs.length = size) :
    (∀ v, ReadsItem p' (reverseItem d bs) v ↔ ReadsItem p bs v) ∧ (RejectsItem p' (reverseItem d bs) ↔ RejectsItem p bs) := by
  have hc := ((reader_ok_iff hM t d).mp ⟨p, hp⟩).1
  have h := reader_reads t hp hd hn hm
  have h' := reader_reads t hp' (other_wf d hd) (by rw [other_bytes, hn]) hm'
  have hl' := reverseItem_length d hd hn hl
  have e := decode_other d t hd hc hn hl
  cases hx : decode t d bs with
  | none =>
    rw [hx] at e
    obtain ⟨w1, _, -, b1⟩ := h.bad bs [] hl hx
    obtain ⟨w2, _, -, b2⟩ := h'.bad _ [] hl' e
    refine ⟨fun v => ⟨fun a => ?_, fun a => ?_⟩, ⟨fun _ rest => ?_, fun _ rest => ?_⟩⟩
    · have := a []; rw [b2] at this; cases this
    · have := a []; rw [b1] at this; cases this
    · obtain ⟨w, _, -, b⟩ := h.bad bs rest hl hx; exact ⟨w, by rw [b]⟩
    · obtain ⟨w, _, -, b⟩ := h'.bad _ rest hl' e; exact ⟨w, by rw [b]⟩
  | some x =>
    rw [hx] at e
    have b1 := h.ok bs [] x hl hx
    have b2 := h'.ok _ [] x hl' e
    refine ⟨fun v => ⟨fun a => ?_, fun a => ?_⟩, ⟨fun a => ?_, fun a => ?_⟩⟩
    · have := a []; rw [b2] at this; cases this; exact fun rest => h.ok bs rest x hl hx
    · have := a []; rw [b1] at this; cases this; exact fun rest => h'.ok _ rest x hl' e
    · obtain ⟨w, hw⟩ := a []; rw [b2] at hw; cases hw
    · obtain ⟨w, hw⟩ := a []; rw [b1] at hw; cases hw

/-- C102: a value is written in the other byte order as the same bytes with reversed words, and refused exactly when it is refused. -/
theorem C102_write (hM : M.Wf) {w w' : t.Val → WProg Unit} (hw : t.writer M d = .ok w) (hw' : t.writer M' (otherDType d) = .ok w') (hd : d.Wf)
    (hn : exactBytes d = some size) (hm : size ≤ M.isizeMax) (hm' : size ≤ M'.isizeMax) (v : t.Val) :
    (∃ bs, WritesItem (w v) bs ∧ WritesItem (w' v) (reverseItem d bs)) ∨ (RefusesItem (w v) ∧ RefusesItem (w' v)) := by
  have hc := ((writer_ok_iff hM t d).mp ⟨w, hw⟩).1
  have h := writer_writes t hw hd hn hm v
  have h' := writer_writes t hw' (other_wf d hd) (by rw [other_bytes, hn]) hm' v
  have e := encode_other d t v hd hc hn
  cases hx : encode t d v with
  | none =>
    rw [hx] at h
    rw [e.2 hx] at h'
    exact .inr ⟨h.refuses, h'.refuses⟩
  | some bs =>
    rw [hx] at h
    rw [(e.1 bs hx).2] at h'
    exact .inl ⟨bs, h.item.2, h'.item.2⟩

/-- C102_accepts, C102_involution, C102_read, C102_write: numbers of two bytes, on machines of different kinds. -/
example : ∃ (p p' : RProg (Ty.num .u16).Val) (w w' : (Ty.num .u16).Val → WProg Unit), Ty.reader ⟨false, 64, true⟩ (.num .u16) (.plain ⟨.little, .uint, 2, none⟩) = .ok p ∧
    Ty.reader ⟨true, 32, false⟩ (.num .u16) (.plain ⟨.big, .uint, 2, none⟩) = .ok p' ∧
    (∀ v, ReadsItem p' [2, 1] v ↔ ReadsItem p [1, 2] v) ∧
    ∀ v, (∃ bs, WritesItem (w v) bs ∧ WritesItem (w' v) (reverseItem (.plain ⟨.little, .uint, 2, none⟩) bs)) ∨ (RefusesItem (w v) ∧ RefusesItem (w' v)) :=
  have hd : (DType.plain ⟨.little, .uint, 2, none⟩).Wf := wf_of_parse (s := "<u2".toList) (by decide)
  ⟨_, _, _, _, rfl, rfl,
    (C102_read (M := ⟨false, 64, true⟩) (M' := ⟨true, 32, false⟩) (t := .num .u16) (d := .plain ⟨.little, .uint, 2, none⟩) (.inr rfl) rfl rfl hd rfl (by decide) (by decide)
      (bs := [1, 2]) rfl).1,
    C102_write (M := ⟨false, 64, true⟩) (M' := ⟨true, 32, false⟩) (t := .num .u16) (d := .plain ⟨.little, .uint, 2, none⟩) (.inr rfl) rfl rfl hd rfl (by decide) (by decide)⟩

theorem mapPieces_piece {f : Bytes → Bytes} {k : Nat} (hf : ∀ b, b.length = k → (f b).length = k) :
    ∀ (n : Nat) (bs : Bytes), bs.length = n * k → ∀ i, i < n → ((mapPieces f k n bs).drop (i * k)).take k = f ((bs.drop (i * k)).take k)
  | 0, bs, h, i, hi => absurd hi (Nat.not_lt_zero i)
  | n + 1, bs, h, i, hi => by
    rw [Nat.add_mul, Nat.one_mul] at h
    have h1 := hf (bs.take k) (by rw [List.length_take]; omega)
    cases i with
    | zero => rw [mapPieces, Nat.zero_mul, List.drop_zero, List.drop_zero, List.take_left' h1]
    | succ i =>
      rw [mapPieces, Nat.add_mul, Nat.one_mul, Nat.add_comm (i * k) k, ← List.drop_drop, List.drop_left' h1,
        mapPieces_piece hf n _ (by rw [List.length_drop]; omega) i (by omega), List.drop_drop]

/-- The part of an item in the data of a file. -/
theorem item_in_data {f : NpyFile Src} {i : Nat} (hi : i < f.header.nRecords) :
    ((dataBytes f size).drop (i * size)).take size = (f.src.data.drop (f.src.pos + i * size)).take size := by
  unfold dataBytes
  rw [List.drop_take, List.take_take, List.drop_drop]
  have : size ≤ f.header.nRecords * size - i * size := by
    have := Nat.mul_le_mul_right size hi
    rw [Nat.succ_mul] at this
    omega
  rw [Nat.min_eq_left this]

/-- C102: a file with the other byte order in its header, and the words of all its items reversed, holds the same elements; on any
machine. -/
theorem C102_file (hM : M.Wf) (hM' : M'.Wf) {py py' : PyParser} {src src' : Src} {f f' : NpyFile Src} (h : (NpyFile.new M py disk src).1 = .ok f)
    (h' : (NpyFile.new M' py' disk src').1 = .ok f') (hd : f'.header.dtype = otherDType f.header.dtype) (hshape : f'.header.shape = f.header.shape)
    (hn : exactBytes f.header.dtype = some size) (hm : size ≤ M.isizeMax) (hm' : size ≤ M'.isizeMax)
    (hdata : dataBytes f' size = mapPieces (reverseItem f.header.dtype) size f.header.nRecords (dataBytes f size)) {vs : List t.Val}
    (hr : (f.intoVec M disk t).1 = .ok vs) : (f'.intoVec M' disk t).1 = .ok vs := by
  obtain ⟨ho, hb⟩ := opened_of_new h
  obtain ⟨ho', hb'⟩ := opened_of_new h'
  have hrec : f'.header.nRecords = f.header.nRecords := by
    rw [shapeProduct_ok (by decide) (opened_count ho), shapeProduct_ok (by decide) (opened_count ho'), hshape]
  have hn' : exactBytes f'.header.dtype = some size := by rw [hd, other_bytes, hn]
  obtain ⟨hw, -, -, hi⟩ := opened ho
  obtain ⟨hw', -, hpk', hi'⟩ := opened ho'
  have hs : f.header.itemSize = some size := by
    rcases hi with ⟨h1, -⟩ | ⟨-, -, n, h1, h2⟩
    · have := (exactBytes_none_iff _).mpr h1; rw [hn] at this; cases this
    · rw [hn] at h1; cases h1; exact h2
  have hs' : f'.header.itemSize = some size ∧ AllFit M'.usizeLim f'.header.dtype := by
    rcases hi' with ⟨h1, -⟩ | ⟨-, hfit, n, h1, h2⟩
    · have := (exactBytes_none_iff _).mpr h1; rw [hn'] at this; cases this
    · rw [hn'] at h1; cases h1; exact ⟨h2, hfit⟩
  obtain ⟨p, hp⟩ : ∃ p, t.reader M f.header.dtype = .ok p := by
    cases hx : f.data M t with
    | ok r => obtain ⟨-, p, hp, -⟩ := data_ok_iff.mp hx; exact ⟨p, hp⟩
    | err e => unfold NpyFile.intoVec at hr; rw [hx] at hr; cases hr
    | panic => unfold NpyFile.intoVec at hr; rw [hx] at hr; cases hr
  have hc := ((reader_ok_iff hM t _).mp ⟨p, hp⟩).1
  obtain ⟨p', hp'⟩ : ∃ p', t.reader M' f'.header.dtype = .ok p' := by
    refine (reader_ok_iff hM' t _).mpr ⟨?_, sizesFit_of_allFit _ _ hn' hs'.2⟩
    rw [hd]
    exact other_canRead t _ hc
  rcases C21_into_vec (t := t) ho hs hm hb with ⟨ws, h1, h2, h3, h4⟩ | ⟨e, h1, -⟩
  · rw [h1] at hr
    cases hr
    have hlen : (dataBytes f size).length = f.header.nRecords * size := by
      unfold dataBytes
      rw [List.length_take, List.length_drop]
      omega
    have hlen' : (dataBytes f' size).length = f.header.nRecords * size := by
      rw [hdata]
      exact mapPieces_length (fun b hb => reverseItem_length _ hw hn hb) _ _ hlen
    have hend : f'.src.pos + f'.header.nRecords * size ≤ f'.src.data.length := by
      unfold dataBytes at hlen'
      rw [List.length_take, List.length_drop, hrec] at hlen'
      rw [hrec]
      omega
    have hel : ∀ i (hi : i < vs.length), elementAt t f'.header.dtype f'.src.data f'.src.pos size i = some vs[i] := by
      intro i hi
      have hle : (i + 1) * size ≤ f.header.nRecords * size := Nat.mul_le_mul_right size (by omega)
      have a := h4 i hi
      unfold elementAt itemAt at a ⊢
      rw [if_pos (by omega)] at a
      rw [hrec] at hend
      rw [if_pos (by omega), ← item_in_data (by omega), hdata, mapPieces_piece (fun b hb => reverseItem_length _ hw hn hb) _ _ hlen i (by omega), hd,
        item_in_data (by omega)]
      have hl : ((f.src.data.drop (f.src.pos + i * size)).take size).length = size := by
        rw [Nat.add_mul, Nat.one_mul] at hle
        rw [List.length_take, List.length_drop]
        omega
      rw [decode_other _ t hw hc hn hl]
      exact a
    rcases C21_into_vec (t := t) ho' hs'.1 hm' hb' with ⟨us, g1, g2, g3, g4⟩ | ⟨e, g1, ⟨why, g2⟩ | ⟨i, g2, g3⟩⟩
    · rw [g1]
      show Out.ok us = Out.ok vs
      congr 1
      apply List.ext_getElem (by omega)
      intro i i1 i2
      have a := g4 i i1
      rw [hel i i2] at a
      exact (Option.some.inj a).symm
    · exfalso
      have hpk : f'.header.usesPickled = false := by
        rw [hpk', ← Bool.not_eq_true, usesPickled_iff]
        intro h1
        have := (exactBytes_none_iff _).mpr h1
        rw [hn'] at this
        cases this
      rw [data_ok_iff.mpr ⟨hpk, p', hp', rfl⟩] at g2
      cases g2
    · rw [hel i (by omega)] at g3
      cases g3
  · rw [h1] at hr
    cases hr

-- a record of a `<u2`, a `|u1` and two characters in `<U2`
example : reverseItem (.record (.cons ['a'] (.plain ⟨.little, .uint, 2, none⟩) (.cons ['b'] (.plain ⟨.irrelevant, .uint, 1, none⟩)
    (.cons ['c'] (.plain ⟨.little, .unicodeStr, 2, none⟩) .nil)))) [1, 2, 3, 4, 5, 6, 7, 8, 9, 10, 11] = [2, 1, 3, 7, 6, 5, 4, 11, 10, 9, 8] := by
  decide

/-- `twoFloats` in the other byte order. -/
def twoFloatsBig : Bytes :=
  magicBytes ++ [1, 0, 56, 0] ++ encodeUtf8 "{'descr': '>f8', 'fortran_order': False, 'shape': (2, )}".toList ++
    [0, 0, 0, 0, 0, 0, 1, 2, 0, 0, 0, 0, 0, 0, 3, 4]

/-- The data bytes, and the numbers read on a machine of each byte order. -/
def dataAndNumbers (bytes : Bytes) : Option (Bytes × List Nat × List Nat) :=
  match (NpyFile.new ⟨false, 64, true⟩ Py.parse disk ⟨bytes, 0⟩).1, readFile ⟨false, 64, true⟩ Py.parse disk f64 ⟨bytes, 0⟩,
      readFile ⟨true, 32, true⟩ Py.parse disk f64 ⟨bytes, 0⟩ with
  | .ok f, .ok a, .ok b => some (dataBytes f 8, a.map fun x : Word 8 => x.toNat, b.map fun x : Word 8 => x.toNat)
  | _, _, _ => none

-- both files hold 258 and 772; the data of the second are those of the first with the words reversed
example : ∃ a b, dataAndNumbers twoFloats = some (a, [258, 772], [258, 772]) ∧ dataAndNumbers twoFloatsBig = some (b, [258, 772], [258, 772]) ∧
    b = mapPieces (reverseItem (.plain ⟨.little, .float, 8, none⟩)) 8 2 a :=
  ⟨[2, 1, 0, 0, 0, 0, 0, 0, 4, 3, 0, 0, 0, 0, 0, 0], [0, 0, 0, 0, 0, 0, 1, 2, 0, 0, 0, 0, 0, 0, 3, 4], by decide +kernel, by decide +kernel, by decide⟩

end Npyz.Props
