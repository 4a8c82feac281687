import Verif.Spec.Damage
import Verif.Props.Resave
import Verif.Props.Kinds
import Verif.Props.Count
/-!
C104: damage to one item stays in this item.  C105: data without booleans and text is always readable.
-/
namespace Npyz.Props
set_option autoImplicit false
open Npyz.Spec

variable {M : Machine} {py : PyParser} {t : Ty} {d : DType} {bs bs' : Bytes} {size i : Nat}

theorem src_of_new {f : NpyFile Src} (h : (NpyFile.new M py disk ⟨bs, 0⟩).1 = .ok f) : f.src = ⟨bs, headerEnd bs⟩ ∧ headerEnd bs ≤ bs.length := by
  obtain ⟨a1, a2⟩ := C89_position h
  refine ⟨?_, by simpa [Src.rest] using a2⟩
  have : f.src = { (⟨bs, 0⟩ : Src) with pos := 0 + headerEnd bs } := a1
  rw [this, Nat.zero_add]

/-- C104: the header is read as before. -/
theorem C104_header (hd : DiffersIn bs bs' size i) {f : NpyFile Src} (h : (NpyFile.new M py disk ⟨bs, 0⟩).1 = .ok f) :
    (NpyFile.new M py disk ⟨bs', 0⟩).1 = .ok ⟨f.header, ⟨bs', headerEnd bs⟩⟩ := by
  obtain ⟨pre, item, item', post, rfl, rfl, h1, h2, h3⟩ := hd
  have a3 := congrArg Prod.fst (C89_new.2 f _ (Prod.ext h rfl)).1
  have a4 : (NpyHeader.fromReader M py).run (pre ++ item ++ post) = (.ok f.header, ((NpyHeader.fromReader M py).run (pre ++ item ++ post)).2) :=
    Prod.ext a3 rfl
  generalize he : headerEnd (pre ++ item ++ post) = k at *
  have hk : k ≤ pre.length := by omega
  have key := C10_local M py _ _ _ a4 (pre.drop k ++ item' ++ post)
  rw [he, List.append_assoc pre, List.take_append_of_le_length hk] at key
  have e : pre.take k ++ (pre.drop k ++ item' ++ post) = pre ++ item' ++ post := by
    rw [← List.append_assoc, ← List.append_assoc, List.take_append_drop]
  rw [e] at key
  have hr : (⟨pre ++ item' ++ post, 0⟩ : Src).rest = pre ++ item' ++ post := rfl
  rw [new_run, hr, key]
  simp only [Out.map, Src.leave]
  congr 2
  simp [Src.rest]
  omega

theorem elementAt_other {a : Nat} {pre item item' post : Bytes} (h1 : item.length = size) (h2 : item'.length = size) (h3 : pre.length = a + i * size)
    {j : Nat} (hj : j ≠ i) :
    elementAt t d (pre ++ item' ++ post) a size j = elementAt t d (pre ++ item ++ post) a size j := by
  have hl : (pre ++ item' ++ post).length = (pre ++ item ++ post).length := by simp [h1, h2]
  unfold elementAt itemAt
  rw [hl]
  have e : ∀ x : Bytes, x.length = size → (((pre ++ x ++ post).drop (a + j * size)).take size) =
      if j < i then (pre.drop (a + j * size)).take size else (post.drop (a + j * size - (pre.length + size))).take size := by
    intro x hx
    by_cases hlt : j < i
    · have hm : (j + 1) * size ≤ i * size := Nat.mul_le_mul_right _ hlt
      rw [Nat.add_mul, Nat.one_mul] at hm
      rw [if_pos hlt, List.append_assoc, List.drop_append_of_le_length (by omega), List.take_append_of_le_length (by simp; omega)]
    · have hm : (i + 1) * size ≤ j * size := Nat.mul_le_mul_right _ (by omega)
      rw [Nat.add_mul, Nat.one_mul] at hm
      rw [if_neg hlt, List.drop_append, List.drop_eq_nil_of_le (by simp; omega), List.nil_append, List.length_append, hx]
  rw [e item h1, e item' h2]

theorem itemSize_exact {f : NpyFile Src} (ho : Opened M f.header) (hn : exactBytes f.header.dtype = some size) : f.header.itemSize = some size := by
  obtain ⟨-, -, -, hi⟩ := opened ho
  rcases hi with ⟨h1, -⟩ | ⟨-, -, n, h1, h2⟩
  · have := (exactBytes_none_iff _).mpr h1; rw [hn] at this; cases this
  · rw [hn] at h1; cases h1; exact h2

/-- Both files, opened. -/
theorem both_open (hd : DiffersIn bs bs' size i) {f f' : NpyFile Src} (h : (NpyFile.new M py disk ⟨bs, 0⟩).1 = .ok f)
    (h' : (NpyFile.new M py disk ⟨bs', 0⟩).1 = .ok f') :
    f.src = ⟨bs, headerEnd bs⟩ ∧ f' = ⟨f.header, ⟨bs', headerEnd bs⟩⟩ ∧
      ∀ j, j ≠ i → elementAt t f.header.dtype bs' (headerEnd bs) size j = elementAt t f.header.dtype bs (headerEnd bs) size j := by
  refine ⟨(src_of_new h).1, ?_, fun j hj => ?_⟩
  · rw [C104_header hd h] at h'
    exact (Out.ok.inj h').symm
  · obtain ⟨pre, item, item', post, e1, e2, h1, h2, h3⟩ := hd
    have := elementAt_other (t := t) (d := f.header.dtype) (post := post) h1 h2 h3 hj
    rw [e2, this, ← e1]

/-- C104: all other elements are read as before, if the damage is not noticed. -/
theorem C104_others (hd : DiffersIn bs bs' size i) {f f' : NpyFile Src} (h : (NpyFile.new M py disk ⟨bs, 0⟩).1 = .ok f)
    (h' : (NpyFile.new M py disk ⟨bs', 0⟩).1 = .ok f') (hn : exactBytes f.header.dtype = some size) (hm : size ≤ M.isizeMax)
    {vs vs' : List t.Val} (hv : (f.intoVec M disk t).1 = .ok vs) (hv' : (f'.intoVec M disk t).1 = .ok vs') :
    vs'.length = vs.length ∧ ∀ j, j ≠ i → vs'[j]? = vs[j]? := by
  obtain ⟨ho, hb⟩ := opened_of_new h
  obtain ⟨ho', hb'⟩ := opened_of_new h'
  obtain ⟨s, e, hel⟩ := both_open (t := t) hd h h'
  subst e
  have hs := itemSize_exact ho hn
  rcases C21_into_vec (t := t) ho hs hm hb with ⟨ws, h1, h2, -, h4⟩ | ⟨e, h1, -⟩
  · rw [h1] at hv; cases hv
    rcases C21_into_vec (t := t) ho' hs hm hb' with ⟨ws', h1', h2', -, h4'⟩ | ⟨e, h1', -⟩
    · rw [h1'] at hv'; cases hv'
      have hl : vs'.length = vs.length := h2'.trans h2.symm
      refine ⟨hl, fun j hj => ?_⟩
      by_cases hlt : j < vs.length
      · have a := h4 j hlt
        have b := h4' j (by omega)
        rw [s] at a
        rw [hel j hj, a] at b
        rw [List.getElem?_eq_getElem hlt, List.getElem?_eq_getElem (by omega)]
        exact b.symm
      · rw [List.getElem?_eq_none (by omega), List.getElem?_eq_none (by omega)]
    · rw [h1'] at hv'; cases hv'
  · rw [h1] at hv; cases hv

/-- C104: if the damage is noticed, then because the damaged item is not a value of the type. -/
theorem C104_noticed (hd : DiffersIn bs bs' size i) {f f' : NpyFile Src} (h : (NpyFile.new M py disk ⟨bs, 0⟩).1 = .ok f)
    (h' : (NpyFile.new M py disk ⟨bs', 0⟩).1 = .ok f') (hn : exactBytes f.header.dtype = some size) (hm : size ≤ M.isizeMax)
    {vs : List t.Val} (hv : (f.intoVec M disk t).1 = .ok vs) {e : Err} (hv' : (f'.intoVec M disk t).1 = .err e) :
    i < f.header.nRecords ∧ decode t f.header.dtype ((bs'.drop (headerEnd bs + i * size)).take size) = none := by
  obtain ⟨ho, hb⟩ := opened_of_new h
  obtain ⟨ho', hb'⟩ := opened_of_new h'
  obtain ⟨s, e, hel⟩ := both_open (t := t) hd h h'
  subst e
  have hs := itemSize_exact ho hn
  rcases C21_into_vec (t := t) ho hs hm hb with ⟨ws, h1, h2, h3, h4⟩ | ⟨e, h1, -⟩
  · rw [h1] at hv; cases hv
    rcases C21_into_vec (t := t) ho' hs hm hb' with ⟨ws', h1', -⟩ | ⟨e, h1', ⟨why, hw⟩ | ⟨j, hj, hno⟩⟩
    · rw [h1'] at hv'; cases hv'
    · exfalso
      unfold NpyFile.intoVec at h1
      cases hx : f.data M t with
      | ok r =>
        obtain ⟨a1, p, a2, -⟩ := data_ok_iff.mp hx
        rw [data_ok_iff (f := (⟨f.header, ⟨bs', headerEnd bs⟩⟩ : NpyFile Src)) |>.mpr ⟨a1, p, a2, rfl⟩] at hw
        cases hw
      | err e => rw [hx] at h1; cases h1
      | panic => rw [hx] at h1; cases h1
    · have hji : j = i := Decidable.byContradiction fun hne => by
        rw [show elementAt t f.header.dtype bs' (headerEnd bs) size j = _ from hel j hne] at hno
        have a := h4 j (by rw [h2]; exact hj)
        rw [s] at a
        rw [a] at hno
        cases hno
      subst hji
      refine ⟨hj, ?_⟩
      have hle : (j + 1) * size ≤ f.header.nRecords * size := Nat.mul_le_mul_right size hj
      have hlen : bs'.length = bs.length := by
        obtain ⟨pre, item, item', post, e1, e2, h1, h2, h3⟩ := hd
        rw [e1, e2]; simp [h1, h2]
      rw [s] at h3
      have h3 : headerEnd bs + f.header.nRecords * size ≤ bs.length := h3
      unfold elementAt itemAt at hno
      rw [if_pos (show headerEnd bs + (j + 1) * size ≤ bs'.length by omega)] at hno
      exact hno
  · rw [h1] at hv; cases hv

/-- C104: even then the other elements can be read with `read_at`, with the same result. -/
theorem C104_read_at (hd : DiffersIn bs bs' size i) {f f' : NpyFile Src} (h : (NpyFile.new M py disk ⟨bs, 0⟩).1 = .ok f)
    (h' : (NpyFile.new M py disk ⟨bs', 0⟩).1 = .ok f') (hm : size ≤ M.isizeMax) (hf : Fits (headerEnd bs) size f.header)
    {r r' : NpyReader t.Val Src} (hr : f.data M t = .ok r) (hr' : f'.data M t = .ok r') {j : Nat} (hj : j < f.header.nRecords) (hne : j ≠ i) :
    (r'.steps M disk [.readAt j]).1.map seen = (r.steps M disk [.readAt j]).1.map seen := by
  obtain ⟨ho, hb⟩ := opened_of_new h
  obtain ⟨ho', hb'⟩ := opened_of_new h'
  obtain ⟨s, e, hel⟩ := both_open (t := t) hd h h'
  subst e
  have hop : InRange f.header.nRecords [.readAt j] := by
    intro op hmem
    rw [List.mem_singleton] at hmem
    subst hmem
    exact ⟨fun _ h => (nomatch h), fun k h => (by cases h; exact hj)⟩
  have a := C18_random_access_partial ho hr (by rw [s]; exact hf) hm hb [.readAt j] hop (by simp [expected])
  have b := C18_random_access_partial ho' hr' hf hm hb' [.readAt j] hop (by simp [expected])
  rw [a, b, s]
  simp only [expected, look]
  rw [hel j hne]

theorem decodeMany_some {α : Type} {f : Bytes → Option α} {k : Nat} (h : ∀ b : Bytes, b.length = k → f b ≠ none) :
    ∀ (n : Nat) (b : Bytes), b.length = n * k → decodeMany f k n b ≠ none
  | 0, _, _ => by simp [decodeMany]
  | n + 1, b, hb => by
    rw [Nat.add_mul, Nat.one_mul] at hb
    have h1 := h (b.take k) (by simp; omega)
    have h2 := decodeMany_some h n (b.drop k) (by simp; omega)
    cases hx : f (b.take k) with
    | none => exact absurd hx h1
    | some x =>
      cases hl : decodeMany f k n (b.drop k) with
      | none => exact absurd hl h2
      | some c => simp [decodeMany, hx, hl]

mutual
theorem free_decodes : (t : Ty) → (d : DType) → Free t → CanRead t d → ∀ {n : Nat}, exactBytes d = some n → ∀ b : Bytes, b.length = n → decode t d b ≠ none
  | .num p, .plain s, _, _, _, _, _, _ => by intro h; cases h
  | .complex f, .plain s, _, _, _, _, _, _ => by intro h; cases h
  | .vecU8, .plain s, _, _, _, _, _, _ => by intro h; cases h
  | .arrayVecU8 _, .plain s, _, _, _, _, _, _ => by intro h; cases h
  | .fixedBytes m, .plain s, _, hc, n, hn, b, hb => by
    obtain ⟨h1, h2⟩ := hc
    have hn : itemBytes s = some n := hn
    have : n = m := by
      unfold itemBytes at hn
      rw [if_neg (by rw [h1]; decide), if_neg (by rw [h1]; decide), Option.some.injEq] at hn
      omega
    intro h
    have h : (if h : b.length = m then some (⟨b, h⟩ : (Ty.fixedBytes m).Val) else none) = none := h
    rw [dif_pos (hb.trans this)] at h
    cases h
  | .array k t, .array _ d, hf, hc, n, hn, b, hb => by
    obtain ⟨t', h1, h2⟩ := hc
    cases h1
    cases hx : exactBytes d with
    | none => rw [exactBytes, hx] at hn; cases hn
    | some m =>
      rw [exactBytes, hx] at hn
      cases hn
      show (exactBytes d).bind (fun j => decodeMany (decode t d) j k b) ≠ none
      rw [hx]
      exact decodeMany_some (fun b hb => free_decodes t d hf h2 hx b hb) k b hb
  | .record fs, .record dfs, hf, hc, n, hn, b, hb => by
    obtain ⟨fs', h1, h2⟩ := hc
    cases h1
    exact freeFields_decode fs dfs hf h2 hn b hb
theorem freeFields_decode : (fs : TFields) → (dfs : Fields) → FreeFields fs → CanReadFields fs dfs → ∀ {n : Nat}, exactFieldBytes dfs = some n →
    ∀ b : Bytes, b.length = n → decodeFields fs dfs b ≠ none
  | .nil, _, _, _, _, _, _, _ => by intro h; cases h
  | .cons _ t rest, .cons _ d dfs, hf, hc, n, hn, b, hb => by
    obtain ⟨t', r', h1, h2, h3⟩ := hc
    cases h1
    cases hx : exactBytes d with
    | none => rw [exactFieldBytes, hx] at hn; cases hn
    | some k =>
      cases hy : exactFieldBytes dfs with
      | none => rw [exactFieldBytes, hx, hy] at hn; cases hn
      | some m =>
        rw [exactFieldBytes, hx, hy] at hn
        cases hn
        have h4 := free_decodes t d hf.1 h2 hx (b.take k) (by simp; omega)
        have h5 := freeFields_decode rest dfs hf.2 h3 hy (b.drop k) (by simp; omega)
        show (exactBytes d).bind (fun k => decodePair k (decode t d) (decodeFields rest dfs) b) ≠ none
        rw [hx]
        show decodePair k (decode t d) (decodeFields rest dfs) b ≠ none
        unfold decodePair
        cases h6 : decode t d (b.take k) with
        | none => exact absurd h6 h4
        | some x =>
          cases h7 : decodeFields rest dfs (b.drop k) with
          | none => exact absurd h7 h5
          | some y => simp
end

/-- C105: for a type without booleans and text, reading the elements fails only if data are missing. -/
theorem C105_readable (hM : M.Wf) {src : Src} {f : NpyFile Src} (h : (NpyFile.new M py disk src).1 = .ok f) (ht : Free t) {r : NpyReader t.Val Src}
    (hr : f.data M t = .ok r) (hn : exactBytes f.header.dtype = some size) (hm : size ≤ M.isizeMax) :
    (∃ vs, (f.intoVec M disk t).1 = .ok vs) ↔ f.src.pos + f.header.nRecords * size ≤ f.src.data.length := by
  obtain ⟨ho, hb⟩ := opened_of_new h
  have hs := itemSize_exact ho hn
  obtain ⟨-, p, hp, -⟩ := data_ok_iff.mp hr
  have hc := ((reader_ok_iff hM t _).mp ⟨p, hp⟩).1
  rcases C21_into_vec (t := t) ho hs hm hb with ⟨ws, h1, h2, h3, h4⟩ | ⟨e, h1, ⟨why, hw⟩ | ⟨j, hj, hno⟩⟩
  · exact ⟨fun _ => h3, fun _ => ⟨ws, by rw [h1]⟩⟩
  · rw [hr] at hw; cases hw
  · constructor
    · rintro ⟨vs, hv⟩; rw [h1] at hv; cases hv
    · intro hle
      exfalso
      have hl : (j + 1) * size ≤ f.header.nRecords * size := Nat.mul_le_mul_right size hj
      rw [Nat.add_mul, Nat.one_mul] at hl
      unfold elementAt itemAt at hno
      rw [Nat.add_mul, Nat.one_mul, if_pos (by omega)] at hno
      exact free_decodes t _ ht hc hn _ (by simp; omega) hno

/-- Three booleans, the second one given by this byte. -/
def threeBools (b : UInt8) : Bytes :=
  magicBytes ++ [1, 0, 56, 0] ++ encodeUtf8 "{'descr': '|b1', 'fortran_order': False, 'shape': (3, )}".toList ++ [1] ++ [b] ++ [1]

theorem threeBools_differ : DiffersIn (threeBools 0) (threeBools 7) 1 1 :=
  ⟨_, [0], [7], [1], rfl, rfl, rfl, rfl, by decide +kernel⟩

/-- The values that `read_at` yields at each of the places. -/
def eachBool (b : UInt8) : List (List (Option Bool)) :=
  match (NpyFile.new ⟨false, 64, true⟩ Py.parse disk ⟨threeBools b, 0⟩).1 with
  | .ok f =>
    match f.data ⟨false, 64, true⟩ .bool with
    | .ok r => (List.range f.header.nRecords).map fun j => (r.steps ⟨false, 64, true⟩ disk [.readAt j]).1.map fun o => match seen o with
        | some (.value v) => some v
        | _ => none
    | _ => []
  | _ => []

/-- C104_header, C104_noticed, C104_read_at: the damage is noticed, and the other two are still there. -/
example : okLen (readFile ⟨false, 64, true⟩ Py.parse disk .bool ⟨threeBools 0, 0⟩) = some 3 ∧
    okLen (readFile ⟨false, 64, true⟩ Py.parse disk .bool ⟨threeBools 7, 0⟩) = none ∧
    eachBool 0 = [[some true], [some false], [some true]] ∧
    eachBool 7 = [[some true], [none], [some true]] := by
  decide +kernel

/-- C104_others, C105_readable: not noticed, the other element is still there. -/
example : DiffersIn twoFloats (twoFloats.take 66 ++ [9, 9, 9, 9, 9, 9, 9, 9] ++ twoFloats.drop 74) 8 0 ∧
    (match readFile ⟨false, 64, true⟩ Py.parse disk f64 ⟨twoFloats.take 66 ++ [9, 9, 9, 9, 9, 9, 9, 9] ++ twoFloats.drop 74, 0⟩ with
      | .ok vs => vs.map fun x : Word 8 => x.toNat
      | _ => []) = [0x0909090909090909, 772] ∧ Free f64 :=
  ⟨⟨twoFloats.take 66, [2, 1, 0, 0, 0, 0, 0, 0], _, twoFloats.drop 74, by decide +kernel, rfl, rfl, rfl, by decide +kernel⟩, by decide +kernel, trivial⟩

end Npyz.Props
