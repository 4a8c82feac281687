import Verif.Proofs.Place
import Verif.Props.Agree
import Verif.Props.Resave
/-!
C97: the places of the members of structs and arrays in a file, and overwriting them.
-/
namespace Npyz.Props
set_option autoImplicit false
open Npyz.Spec

/-- C97: in a file that was written, the encoding of each part of each element, to any depth of arrays and structs, is at its place:
behind the header, the elements before it and the parts before it. -/
theorem C97_written {M : Machine} (hM : M.Wf) {t t' : Ty} {d d' : DType} {size n' : Nat} (hd : d.Wf) (hn : exactBytes d = some size)
    (hm : size ≤ M.isizeMax) {o : Order} {hint : ShapeHint} {s s' : Sink} (hpos : s.pos + dictBytes d o hint + 76 ≤ 2 ^ 64)
    {vs : List t.Val} (hc : vs.length < 2 ^ 64) (h : NpyWriter.save M solid t d o hint vs s = (.ok (), s')) {i : Nat} (hi : i < vs.length)
    {off : Nat} {v' : t'.Val} (hp : Part d vs[i] off d' v') (hn' : exactBytes d' = some n') :
    encode t' d' v' = some (slice s'.data (s.pos + headerEnd (s'.data.drop s.pos) + i * size + off) n') := by
  have h1 := C50_element_offset hd hn hm hpos hc h i hi
  obtain ⟨-, -, -, -, -, -, -, hw⟩ := save_ok hd hn hm hc (fun _ => hpos) h
  obtain ⟨h2, h3⟩ := (writer_ok_iff hM t d).mp hw
  have h4 := part_encode hM hp h2 hd h3 hn hm hn' h1
  obtain ⟨n'', h5, h6⟩ := part_bound hp hn
  rw [hn'] at h5
  cases h5
  rw [h4]
  exact congrArg some (slice_slice _ _ _ _ _ h6)

/-- What a successful `into_vec` of an opened file says about the bytes. -/
theorem items_of {M : Machine} {py : PyParser} {t : Ty} {src : Src} {f : NpyFile Src} {size : Nat}
    (hf : (NpyFile.new M py disk src).1 = .ok f) (hs : exactBytes f.header.dtype = some size) (hm : size ≤ M.isizeMax) {vs : List t.Val}
    (hv : (f.intoVec M disk t).1 = .ok vs) :
    f.header.itemSize = some size ∧ f.src = { src with pos := src.pos + headerEnd src.rest } ∧ f.header.dtype.Wf ∧
      vs.length = f.header.nRecords ∧ src.pos + headerEnd src.rest + f.header.nRecords * size ≤ src.data.length ∧
      ∀ i (h : i < vs.length), decode t f.header.dtype (slice src.data (src.pos + headerEnd src.rest + i * size) size) = some vs[i] := by
  obtain ⟨ho, hb⟩ := opened_of_new hf
  obtain ⟨hw, -, -, hi⟩ := opened ho
  have hno : ¬ HasObject f.header.dtype := fun h => by have := (exactBytes_none_iff _).mpr h; rw [hs] at this; cases this
  have hi : f.header.itemSize = some size := by
    rcases hi with ⟨h1, -⟩ | ⟨-, -, n, h1, h2⟩
    · exact absurd h1 hno
    · rw [hs] at h1; cases h1; exact h2
  have e : f.src = { src with pos := src.pos + headerEnd src.rest } := (C89_position hf).1
  refine ⟨hi, e, hw, ?_⟩
  rcases C21_into_vec (t := t) ho hi hm hb with ⟨us, h1, h2, h3, h4⟩ | ⟨x, h1, -⟩
  · rw [h1] at hv
    cases hv
    rw [e] at h3 h4
    refine ⟨h2, h3, fun i h => ?_⟩
    have := h4 i h
    unfold elementAt itemAt at this
    split at this
    · exact this
    · cases this
  · rw [h1] at hv
    cases hv

/-- C97: in a file of any origin whose elements were read, each part of each element can be read, on its own, from its place. -/
theorem C97_read {M : Machine} {py : PyParser} {t t' : Ty} {src : Src} {f : NpyFile Src} {size n' : Nat}
    (hf : (NpyFile.new M py disk src).1 = .ok f) (hs : exactBytes f.header.dtype = some size) (hm : size ≤ M.isizeMax) {vs : List t.Val}
    (hv : (f.intoVec M disk t).1 = .ok vs) {i : Nat} (hi : i < vs.length) {off : Nat} {d' : DType} {v' : t'.Val}
    (hp : Part f.header.dtype vs[i] off d' v') (hn' : exactBytes d' = some n') {p' : RProg t'.Val} (hr : t'.reader M d' = .ok p') :
    ReadsItem p' (slice src.data (src.pos + headerEnd src.rest + i * size + off) n') v' := by
  obtain ⟨-, -, hw, hl, hb, hx⟩ := items_of hf hs hm hv
  obtain ⟨n'', h5, h6⟩ := part_bound hp hs
  rw [hn'] at h5
  cases h5
  have hr' := row_le (k := size) (hl ▸ hi)
  have h7 := part_decode hp hs hn' (length_slice (by omega)) (hx i hi)
  rw [slice_slice _ _ _ _ _ h6] at h7
  exact (reads_iff (reader_reads t' hr (part_wf hp hw) hn' (by omega)) (length_slice (by omega)) v').mpr h7

/-- C97: a part of an element can be overwritten in place, in a file of any origin, by bytes that read as its type: the file then
reads as before, with that part replaced and everything else unchanged. -/
theorem C97_replace {M : Machine} {py : PyParser} {t t' : Ty} {src : Src} {f : NpyFile Src} {size n' : Nat}
    (hf : (NpyFile.new M py disk src).1 = .ok f) (hs : exactBytes f.header.dtype = some size) (hm : size ≤ M.isizeMax) {vs : List t.Val}
    (hv : (f.intoVec M disk t).1 = .ok vs) {i : Nat} (hi : i < vs.length) {off : Nat} {d' : DType} {x : t'.Val} {w : t.Val}
    (hp : Put f.header.dtype vs[i] off d' x w) (hn' : exactBytes d' = some n') {p' : RProg t'.Val} (hr : t'.reader M d' = .ok p') {xs : Bytes}
    (hl : xs.length = n') (hx : ReadsItem p' xs x) :
    ∃ f', (NpyFile.new M py disk { src with data := patch src.data (src.pos + headerEnd src.rest + i * size + off) xs }).1 = .ok f' ∧
      f'.header = f.header ∧ (f'.intoVec M disk t).1 = .ok (vs.set i w) := by
  obtain ⟨hsz, he, hw, hl', hb, hd⟩ := items_of hf hs hm hv
  obtain ⟨n'', h5, h6⟩ := put_bound hp hs
  rw [hn'] at h5
  cases h5
  have hr' := row_le (k := size) (hl' ▸ hi)
  have hx' := (reads_iff (reader_reads t' hr (put_wf hp hw) hn' (by omega)) hl x).mp hx
  generalize ha : src.pos + headerEnd src.rest + i * size + off = a
  have hin : a + xs.length ≤ src.data.length := by omega
  have h1 := C89_new.2 f (NpyFile.new M py disk src).2 (Prod.ext hf rfl)
  have h2 : (NpyHeader.fromReader M py).run src.rest = (.ok f.header, ((NpyHeader.fromReader M py).run src.rest).2) :=
    Prod.ext (show (disk.exec _ src).1 = _ from congrArg Prod.fst h1.1) rfl
  have hrest : ({ src with data := patch src.data a xs } : Src).rest =
      src.rest.take (headerEnd src.rest) ++ (patch src.data a xs).drop (src.pos + headerEnd src.rest) := by
    apply List.ext_getElem?
    intro q
    show ((patch src.data a xs).drop src.pos)[q]? = _
    have hlen : (src.rest.take (headerEnd src.rest)).length = headerEnd src.rest := by
      rw [List.length_take, show src.rest.length = src.data.length - src.pos from List.length_drop]
      omega
    by_cases hq : q < headerEnd src.rest
    · rw [List.getElem?_append_left (by omega), List.getElem?_take, if_pos hq, List.getElem?_drop, patch_get hin, if_neg (by omega)]
      exact (List.getElem?_drop ..).symm
    · rw [List.getElem?_append_right (by omega), hlen, List.getElem?_drop, List.getElem?_drop]
      congr 1
      omega
  have h3 := C10_local M py _ _ _ h2 ((patch src.data a xs).drop (src.pos + headerEnd src.rest))
  rw [← hrest] at h3
  obtain ⟨-, hle, hcons⟩ := C10_consumes_header M py _ _ _ h3
  have hle' : headerEnd ({ src with data := patch src.data a xs } : Src).rest = headerEnd src.rest := by
    have e1 := congrArg List.length hcons
    rw [hrest] at e1 hle ⊢
    have hlen : (src.rest.take (headerEnd src.rest)).length = headerEnd src.rest := by
      rw [List.length_take, show src.rest.length = src.data.length - src.pos from List.length_drop]
      omega
    rw [List.length_drop (l := _ ++ _), List.length_append, hlen] at e1
    rw [List.length_append, hlen] at hle
    omega
  obtain ⟨f', hf'⟩ : ∃ f', (NpyFile.new M py disk { src with data := patch src.data a xs }).1 = .ok f' := by
    unfold NpyFile.new
    rcases he : disk.exec (NpyHeader.fromReader M py) { src with data := patch src.data a xs } with ⟨z, z'⟩
    have e1 := congrArg Prod.fst he
    rw [show (disk.exec (NpyHeader.fromReader M py) { src with data := patch src.data a xs }).1 = .ok f.header from congrArg Prod.fst h3] at e1
    obtain rfl : Out.ok f.header = z := e1
    exact ⟨_, rfl⟩
  have h4 := (C89_new.2 f' _ (Prod.ext hf' rfl)).1
  have hh : f'.header = f.header := by
    have := (show (disk.exec _ _).1 = _ from congrArg Prod.fst h4)
    have h3' := congrArg Prod.fst h3
    rw [show (disk.exec (NpyHeader.fromReader M py) { src with data := patch src.data a xs }).1 = _ from h3'] at this
    exact (Out.ok.inj this).symm
  refine ⟨f', hf', hh, ?_⟩
  have he' := (C89_position hf').1
  rw [hle'] at he'
  have he' : f'.src = { src with data := patch src.data a xs, pos := src.pos + headerEnd src.rest } := he'
  have hlp := length_patch hin
  have hitem : ∀ j, j < vs.length → elementAt t f.header.dtype (patch src.data a xs) (src.pos + headerEnd src.rest) size j = (vs.set i w)[j]? := by
    intro j hj
    have hjr := row_le (k := size) (hl' ▸ hj)
    have hj1 : (j + 1) * size = j * size + size := by rw [Nat.add_mul, Nat.one_mul]
    unfold elementAt itemAt
    rw [if_pos (by omega)]
    show decode t f.header.dtype (slice (patch src.data a xs) (src.pos + headerEnd src.rest + j * size) size) = _
    by_cases hji : j = i
    · subst hji
      rw [← ha, slice_patch_same (by omega) (by omega) (by omega), put_decode hp hs hn' (length_slice (by omega)) (hd j hj) hl hx']
      simp [hj]
    · rw [slice_patch_other hin, hd j hj, List.getElem?_set_ne (Ne.symm hji)]
      · simp [hj]
      · rcases Nat.lt_or_gt_of_ne hji with h | h
        · have := Nat.mul_le_mul_right size h
          left
          rw [Nat.succ_mul] at this
          omega
        · have := Nat.mul_le_mul_right size h
          right
          rw [Nat.succ_mul] at this
          omega
  obtain ⟨ho', hb'⟩ := opened_of_new hf'
  rcases C21_into_vec (t := t) ho' (by rw [hh]; exact hsz) hm hb' with ⟨us, k1, k2, k3, k4⟩ | ⟨x', k1, k2⟩
  · rw [k1]
    rw [hh] at k2
    refine congrArg Out.ok ?_
    apply List.ext_getElem (by simp; omega)
    intro j j1 j2
    have := k4 j j1
    rw [hh, he', hitem j (by omega)] at this
    rw [List.getElem?_eq_getElem (by simpa using j2)] at this
    exact (Option.some.inj this).symm
  · exfalso
    rcases k2 with ⟨why, k3⟩ | ⟨j, k3, k4⟩
    · obtain ⟨r, hr2⟩ : ∃ r, f.data M t = .ok r := by
        cases hd : f.data M t with
        | ok r => exact ⟨r, rfl⟩
        | err e => unfold NpyFile.intoVec at hv; rw [hd] at hv; cases hv
        | panic => unfold NpyFile.intoVec at hv; rw [hd] at hv; cases hv
      obtain ⟨hpk, p, hp1, -⟩ := data_ok_iff.mp hr2
      rw [data_ok_iff.mpr ⟨by rw [hh]; exact hpk, p, by rw [hh]; exact hp1, rfl⟩] at k3
      cases k3
    · rw [hh] at k3 k4
      rw [he', hitem j (by omega), List.getElem?_eq_getElem (by simp; omega)] at k4
      cases k4

/-! A struct of a number and an array of two numbers, in files with two elements. -/

def nodeTy : Ty := .record (.cons "id".toList (.num .u16) (.cons "edges".toList (.array 2 (.num .u16)) .nil))
def nodeDType : DType :=
  .record (.cons "id".toList (.plain ⟨.big, .uint, 2, none⟩) (.cons "edges".toList (.array 2 (.plain ⟨.little, .uint, 2, none⟩)) .nil))
def edges (a b : BitVec 16) : { l : List (Ty.num .u16).Val // l.length = 2 } := ⟨[a, b], rfl⟩
def nodes : List nodeTy.Val := [(1#16, edges 2#16 3#16, ()), (4#16, edges 5#16 6#16, ())]
@[irreducible] def nodeFile : Sink := (NpyWriter.save ⟨false, 64, true⟩ solid nodeTy nodeDType .c .oneD nodes ⟨[5], 1, true⟩).2

theorem nodes_saved : NpyWriter.save ⟨false, 64, true⟩ solid nodeTy nodeDType .c .oneD nodes ⟨[5], 1, true⟩ = (.ok (), nodeFile) := by
  unfold nodeFile
  exact of_succeeded (x := NpyWriter.save ⟨false, 64, true⟩ solid nodeTy nodeDType .c .oneD nodes ⟨[5], 1, true⟩) (by decide +kernel)

theorem nodeDType_wf : nodeDType.Wf :=
  ⟨wf_of_parse (s := ">u2".toList) (by decide), ⟨by decide, wf_of_parse (s := "<u2".toList) (by decide)⟩, trivial⟩

def half : DType := .plain ⟨.little, .uint, 2, none⟩
def six : (Ty.num .u16).Val := (6#16 : BitVec 16)
def seventy : (Ty.num .u16).Val := (70#16 : BitVec 16)
def node70 : nodeTy.Val := (4#16, edges 5#16 70#16, ())

def fourth : (Ty.num .u16).Val := (4#16 : BitVec 16)
def idDType : DType := .plain ⟨.big, .uint, 2, none⟩
def nodeAt : nodeTy.Val := nodes[1]'(by decide)

/-- The last edge of the second node is four bytes behind the start of the node. -/
theorem lastEdge : Part (t := nodeTy) nodeDType nodeAt 4 half six := by
  have h1 : Part (t := .num .u16) half six 0 half six := .self
  have h2 : Part (t := .array 2 (.num .u16)) (.array 2 half) (edges 5#16 6#16) (1 * 2 + 0) half six :=
    Part.elem (t := .num .u16) (n := 2) (k := 2) (i := 1) (d := half) (v := edges 5#16 6#16) (by decide) rfl h1
  have h3 := FieldPart.first (name := "edges".toList) (name' := "edges".toList) (fs := .nil) (dfs := .nil) (vs := ()) h2
  have h4 := FieldPart.later (name := "id".toList) (name' := "id".toList) (t := .num .u16) (d := idDType) (k := 2) (v := fourth) rfl h3
  exact .field h4

/-- Another last edge of the second node. -/
theorem newEdge : Put (t := nodeTy) nodeDType nodeAt 4 half seventy node70 := by
  have h1 : Put (t := .num .u16) half six 0 half seventy seventy := .self
  have h2 : Put (t := .array 2 (.num .u16)) (.array 2 half) (edges 5#16 6#16) (1 * 2 + 0) half seventy (edges 5#16 70#16) :=
    Put.elem (t := .num .u16) (n := 2) (k := 2) (i := 1) (d := half) (v := edges 5#16 6#16) (by decide) rfl h1
  have h3 := FieldPut.first (name := "edges".toList) (name' := "edges".toList) (fs := .nil) (dfs := .nil) (vs := ()) h2
  have h4 := FieldPut.later (name := "id".toList) (name' := "id".toList) (t := .num .u16) (d := idDType) (k := 2) (v := fourth) rfl h3
  exact .field h4

example : encode (.num .u16) half six =
    some (slice nodeFile.data (1 + headerEnd (nodeFile.data.drop 1) + 1 * 6 + 4) 2) := by
  have h := C97_written (size := 6) (.inr rfl) nodeDType_wf rfl (by decide) (by decide +kernel) (by decide) nodes_saved (i := 1) (by decide) lastEdge
    (n' := 2) rfl
  exact h

theorem node_reader : ∃ p, nodeTy.reader ⟨false, 64, true⟩ nodeDType = .ok p :=
  (reader_ok_iff (.inr rfl) _ _).mpr ⟨⟨_, rfl, _, _, rfl, ⟨rfl, rfl⟩, _, _, rfl, ⟨_, rfl, ⟨rfl, rfl⟩⟩, rfl⟩,
    fits (s := ⟨.big, .uint, 2, none⟩) (by decide), fits (s := ⟨.little, .uint, 2, none⟩) (by decide), trivial⟩

theorem half_reader : ∃ p, (Ty.num .u16).reader ⟨false, 64, true⟩ half = .ok p :=
  (reader_ok_iff (.inr rfl) _ _).mpr ⟨⟨rfl, rfl⟩, fits (s := ⟨.little, .uint, 2, none⟩) (by decide)⟩

theorem half_wf : half.Wf := wf_of_parse (s := "<u2".toList) (by decide)

theorem node_fit : AllFit (2 ^ 64) nodeDType :=
  ⟨⟨by intro n hn; cases hn; decide, ⟨by intro n hn; cases hn; decide, by decide, by intro n hn; cases hn; decide⟩, trivial⟩, by
    intro n hn; cases hn; decide⟩

/-- The hypotheses of `C97_read` and `C97_replace` hold for this file. -/
theorem nodes_read : ∃ f, (NpyFile.new ⟨false, 64, true⟩ Py.parse disk ⟨nodeFile.data, 1⟩).1 = .ok f ∧ f.header.dtype = nodeDType ∧
    (f.intoVec ⟨false, 64, true⟩ disk nodeTy).1 = .ok nodes := by
  obtain ⟨-, f, h1, h2, h3, h4, h5⟩ := C40_round_trip (M' := ⟨false, 64, true⟩) (.inr rfl) (py := Py.parse) (fun _ _ h => h) nodeDType_wf (size := 6)
    rfl (by decide) (by decide) node_fit node_reader (.inl rfl) (by decide +kernel) (by decide) (by decide +kernel) nodes_saved
  exact ⟨f, h1, h2, h5⟩

example : ∃ p, (Ty.num .u16).reader ⟨false, 64, true⟩ half = .ok p ∧
    ReadsItem p (slice nodeFile.data (1 + headerEnd (nodeFile.data.drop 1) + 1 * 6 + 4) 2) six := by
  obtain ⟨f, h1, h2, h3⟩ := nodes_read
  obtain ⟨p, hp⟩ := half_reader
  exact ⟨p, hp, C97_read (size := 6) h1 (by rw [h2]; rfl) (by decide) h3 (i := 1) (by decide) (by rw [h2]; exact lastEdge) (n' := 2) rfl hp⟩

example : ∃ f, (NpyFile.new ⟨false, 64, true⟩ Py.parse disk
      ⟨patch nodeFile.data (1 + headerEnd (nodeFile.data.drop 1) + 1 * 6 + 4) [70, 0], 1⟩).1 = .ok f ∧
    (f.intoVec ⟨false, 64, true⟩ disk nodeTy).1 = .ok (nodes.set 1 node70) := by
  obtain ⟨f, h1, h2, h3⟩ := nodes_read
  obtain ⟨p, hp⟩ := half_reader
  obtain ⟨f', k1, -, k2⟩ := C97_replace (size := 6) h1 (by rw [h2]; rfl) (by decide) h3 (i := 1) (by decide) (by rw [h2]; exact newEdge) (n' := 2) rfl hp
    (xs := [70, 0]) rfl ((reads_iff (reader_reads _ hp half_wf (n := 2) rfl (by decide)) rfl _).mpr (by rfl))
  exact ⟨f', k1, k2⟩

end Npyz.Props
