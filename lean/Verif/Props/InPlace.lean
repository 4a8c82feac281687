import Verif.Props.Crash
import Verif.Props.Damage
/-!
C110: writing over old contents of a stream.

As in C46, but the stream may contain anything already, also behind the position at which the array is written.
-/
namespace Npyz.Props
set_option autoImplicit false
open Npyz Spec Py

theorem put_get_before (s : Sink) (b : Bytes) {i : Nat} (h1 : i < s.pos) (h2 : i < s.data.length) : (s.put b).data[i]? = s.data[i]? := by
  by_cases hb : b = []
  · subst hb; rfl
  · rw [Sink.put_data s hb, List.append_assoc, List.getElem?_append_left (by rw [s.before_length]; exact h1), s.before_get h1 h2]

theorem put_get_after (s : Sink) (b : Bytes) {i : Nat} (h : s.pos + b.length ≤ i) (h2 : i < s.data.length) : (s.put b).data[i]? = s.data[i]? := by
  by_cases hb : b = []
  · subst hb; rfl
  · rw [Sink.put_data s hb, List.getElem?_append_right (by simp [s.before_length]; exact h), List.getElem?_drop]
    congr 1
    simp [s.before_length]
    omega

theorem put_drop_after (s : Sink) (b : Bytes) {i : Nat} (h : s.pos + b.length ≤ i) (hp : s.pos ≤ s.data.length) : (s.put b).data.drop i = s.data.drop i := by
  by_cases hb : b = []
  · subst hb; rfl
  · rw [Sink.put_data s hb, List.drop_append, List.drop_eq_nil_of_le (by simp [s.before_length]; exact h), List.nil_append, List.drop_drop]
    congr 1
    simp [s.before_length]
    omega

variable {M M' : Machine} {py : PyParser} {t : Ty} {d : DType} {size : Nat} {o : Order}

/-- C110: a successful session changes nothing outside of the array. -/
theorem C110_outside (hd : d.Wf) (hn : exactBytes d = some size) (hm : size ≤ M.isizeMax) {hint : ShapeHint} {s s' : Sink}
    (hpos : s.pos + dictBytes d o hint + 76 ≤ 2 ^ 64) {vs : List t.Val} (hc : vs.length < 2 ^ 64)
    (h : NpyWriter.save M solid t d o hint vs s = (.ok (), s')) (i : Nat) (hi : i < s.data.length) (ho : i < s.pos ∨ s'.pos ≤ i) :
    s'.data[i]? = s.data[i]? := by
  obtain ⟨items, -, rfl, -⟩ := save_ok hd hn hm hc (fun _ => hpos) h
  rcases ho with ho | ho
  · exact put_get_before s _ ho hi
  · refine put_get_after s _ ?_ hi
    rwa [Sink.put_pos] at ho

/-- C110: a session that stops after `n` bytes changes nothing outside of these bytes. -/
theorem C110_crash_outside (hd : d.Wf) (hn : exactBytes d = some size) (hm : size ≤ M.isizeMax) {hint : ShapeHint} {vs : List t.Val}
    (hc : vs.length < 2 ^ 64) {s s1 : Sink} {w : NpyWriter t.Val} (hb : (NpyWriter.begin M t d o hint).exec s = (.ok w, s1)) (n : Nat)
    (i : Nat) (hi : i < s.data.length) (ho : i < s.pos ∨ s.pos + n ≤ i) :
    ((NpyWriter.session M t d o hint vs).crash n s).data[i]? = s.data[i]? := by
  obtain ⟨bs, -, hcr⟩ := session_crash (vs := vs) hd hn hm hc hb
  rw [hcr]
  rcases ho with ho | ho
  · exact put_get_before s _ ho hi
  · refine put_get_after s _ ?_ hi
    have := List.length_take_le n (headerBytes (dictText d o hint) ++ bs)
    omega

/-- C110: if a `begin_1d` or `begin_2d` session stops after the header was written, the array cannot be opened, whatever was in the
stream before.  Missing: if it stops while the header is written (see `C110_violated`). -/
theorem C110_unfinished_partial (hd : d.Wf) (hn : exactBytes d = some size)
    (hm : size ≤ M.isizeMax) (hpy : py.StrictAfter (dictPrefix d o)) {hint : ShapeHint} (hs : hint.seeks = true)
    (hmem : dictBytes d o hint + 76 ≤ M'.isizeMax) {vs : List t.Val} (hc : vs.length < 2 ^ 64) {s s1 : Sink} {w : NpyWriter t.Val}
    (hb : (NpyWriter.begin M t d o hint).exec s = (.ok w, s1)) (n : Nat) (hbeg : s1.pos ≤ s.pos + n) :
    Unreadable M' py ((NpyWriter.session M t d o hint vs).crash n s).data s.pos := by
  obtain ⟨bs, -, hcr⟩ := session_crash (vs := vs) hd hn hm hc hb
  obtain ⟨hst, -, -, hs1⟩ := begin_ok hb
  have hl := headerBytes_le d o hint
  have hfits := hst.hdrFits
  have hht : (headerText (dictText d o hint)).length ≤ M'.isizeMax := by
    rw [headerBytes_length] at hl; omega
  rw [hs1, Sink.put_pos] at hbeg
  rw [hcr, List.take_append, List.take_of_length_le (by omega)]
  obtain ⟨rest, hdrop⟩ := Sink.put_drop s (headerBytes (dictText d o hint) ++ bs.take (n - (headerBytes (dictText d o hint)).length))
    (by simp [headerBytes_ne_nil])
  have hdt : dictText d o hint = dictPrefix d o ++ placeholder o hint := by rw [dictText_suffix hs, suffixText_filler]
  rw [hdt] at hfits hht
  obtain ⟨e, he⟩ := run_rejected (M := M') hpy (placeholder_chars o hint) (placeholder_rejected (isArray_false.mp hst.isArray) o hs)
    hfits hht (bs.take (n - (headerBytes (dictText d o hint)).length) ++ rest)
  refine ⟨e, new_err ?_⟩
  rw [hdrop, List.append_assoc, hdt]
  rw [hdt] at he
  exact he

/-- C110: if a `begin_nd` session stops after the header was written, the array that is there has the new header; the items that were
written are the new ones, and the items that were not begun are whatever was at their place before.  So the property holds if there is no
old data behind the array (C46), but not otherwise. -/
theorem C110_nd_partial (hM' : M'.Wf) (hpy : py.ExtendsRef) (hd : d.Wf) (hn : exactBytes d = some size) (hz : 0 < size) (hm : size ≤ M.isizeMax)
    (hm' : size ≤ M'.isizeMax) (hf : AllFit M'.usizeLim d) (hrd : ∃ p, t.reader M' d = .ok p) {dims : List Nat} (hdims : ∀ k ∈ dims, k < 2 ^ 64)
    (hprod : nonzeroProd dims < 2 ^ 64) (hmem : dictBytes d o (.nd dims) + 76 ≤ M'.isizeMax) {vs : List t.Val} (hc : vs.length < 2 ^ 64)
    (he : ∀ v ∈ vs, encode t d v ≠ none) {s s1 : Sink} {w : NpyWriter t.Val} (hb : (NpyWriter.begin M t d o (.nd dims)).exec s = (.ok w, s1))
    (hp : s.pos ≤ s.data.length) (n : Nat) (hbeg : s1.pos ≤ s.pos + n) :
    ∃ f, (NpyFile.new M' py disk ⟨((NpyWriter.session M t d o (.nd dims) vs).crash n s).data, s.pos⟩).1 = .ok f ∧
      f.header.dtype = d ∧ f.header.shape = dims ∧ f.header.order = o ∧
      ∀ ws, (f.intoVec M' disk t).1 = .ok ws → ws.length = dims.prod ∧ ∀ i (hi : i < ws.length),
        (∀ hv : i < vs.length, s1.pos + (i + 1) * size ≤ s.pos + n → ws[i] = readBack t d vs[i]) ∧
        (s.pos + n ≤ s1.pos + i * size → elementAt t d s.data s1.pos size i = some ws[i]) := by
  obtain ⟨bs, hbs, hcr⟩ := session_crash (vs := vs) hd hn hm hc hb
  obtain ⟨hst, -, -, hs1⟩ := begin_ok hb
  obtain ⟨items, hit⟩ : ∃ items, encodeAll (encode t d) vs = some items := by
    cases hi : encodeAll (encode t d) vs with
    | none => obtain ⟨v, hv, h⟩ := (encodeAll_none vs).mp hi; exact absurd h (he v hv)
    | some items => exact ⟨items, rfl⟩
  have hbs := hbs items hit
  subst hbs
  have hel : ∀ v b, encode t d v = some b → b.length = size := encode_length hd hn hm hst.prog
  obtain ⟨hil, hitem⟩ := encodeAll_item hel vs hit
  have hfits := hst.hdrFits
  rw [hs1, Sink.put_pos] at hbeg ⊢
  generalize hH : headerBytes (dictText d o (.nd dims)) = H at *
  have hHne : H ≠ [] := by rw [← hH]; exact headerBytes_ne_nil _
  rw [hcr, List.take_append, List.take_of_length_le (l := H) (by omega)]
  generalize hX : bs.take (n - H.length) = X
  have hXl : X.length = min (n - H.length) bs.length := by rw [← hX]; simp
  obtain ⟨rest, hdrop⟩ := Sink.put_drop s (H ++ X) (by simp [hHne])
  have hlen : (s.put (H ++ X)).data.length = max s.data.length (s.pos + (H ++ X).length) := by
    rw [Sink.put_data s (by simp [hHne])]
    simp [s.before_length]
    omega
  have hno : ¬ HasObject d := fun h => by have := (exactBytes_none_iff d).mpr h; rw [hn] at this; cases this
  have hrun := run_final (hint := .nd dims) (n := vs.length) (o := o) hpy hst.isArray hd hc hdims hfits hmem
  have hfd : finalDict d o (.nd dims) vs.length = dictText d o (.nd dims) := rfl
  rw [fromParts_eq (shape := finalShape o vs.length (.nd dims)) (o := o) hprod (itemSizeOf_ok_iff.mpr (.inr ⟨hno, hf, size, hn, rfl⟩)), hfd, hH] at hrun
  have hnew := new_ok (hrun (X ++ rest)) (by rw [hdrop, List.append_assoc]) (by rw [hlen]; omega)
  refine ⟨_, by rw [hnew], rfl, rfl, rfl, ?_⟩
  intro ws hws
  have hop : Opened M' (⟨d, dims, exactStrides o dims, o, dims.prod, some size, d.usesPickled⟩ : NpyHeader) := ⟨py, _, _, hrun []⟩
  rcases C21_into_vec (t := t) (f := ⟨⟨d, dims, exactStrides o dims, o, dims.prod, some size, d.usesPickled⟩, ⟨(s.put (H ++ X)).data, s.pos + H.length⟩⟩)
    hop rfl hm' (by rw [hlen]; simp; omega) with ⟨vs', h1, h2, h3, h4⟩ | ⟨e, h1, -⟩
  · have hw2 : vs' = ws := by
      have h1' := congrArg Prod.fst h1
      exact Out.ok.inj (h1'.symm.trans hws)
    subst hw2
    refine ⟨h2, fun i hi => ⟨?_, ?_⟩⟩
    · intro hv hle
      have h5 := h4 i hi
      unfold elementAt itemAt at h5
      simp only at h5
      have hmul : (i + 1) * size ≤ vs.length * size := Nat.mul_le_mul_right _ hv
      have e1 : (i + 1) * size = i * size + size := by rw [Nat.add_mul, Nat.one_mul]
      have hdd : (s.put (H ++ X)).data.drop (s.pos + H.length + i * size) = X.drop (i * size) ++ rest := by
        rw [← List.drop_drop, ← List.drop_drop, hdrop, List.append_assoc, List.drop_left, List.drop_append_of_le_length (by omega)]
      have hXd : (X.drop (i * size)).take size = (bs.drop (i * size)).take size := by
        rw [← hX, List.drop_take, List.take_take, Nat.min_eq_left (by omega)]
      rw [hdd, List.take_append_of_le_length (by simp; omega), hXd] at h5
      have hc := ((reader_ok_iff hM' t d).mp hrd).1
      have h6 := (encode_decode t d size _ _ hc hn (hitem i hv)).2
      rw [h6] at h5
      split at h5
      · exact (Option.some.inj h5).symm
      · cases h5
    · intro hle
      have h5 := h4 i hi
      rw [← h5]
      unfold elementAt itemAt
      simp only
      have e1 : (i + 1) * size = i * size + size := by rw [Nat.add_mul, Nat.one_mul]
      have hbl : s.pos + (H ++ X).length ≤ s.pos + H.length + i * size := by simp; omega
      rw [put_drop_after s _ hbl hp, hlen]
      have : (s.pos + H.length + (i + 1) * size ≤ s.data.length) ↔ (s.pos + H.length + (i + 1) * size ≤ max s.data.length (s.pos + (H ++ X).length)) := by
        omega
      simp only [this]
  · exact absurd (h1.symm.trans hws) (by intro h; cases h)

/-- A machine. -/
def box : Machine := ⟨false, 64, true⟩

/-- Eight-byte floats and integers, and four-byte integers, in little-endian order. -/
def floats8 : DType := .plain ⟨.little, .float, 8, none⟩
def ints8 : DType := .plain ⟨.little, .int, 8, none⟩
def ints4 : DType := .plain ⟨.little, .int, 4, none⟩

/-- The old file: the array `[1, 2, 3]` (as bit patterns). -/
def oldFile : Sink := { (NpyWriter.save box solid f64 floats8 .c (.nd [3]) [1#64, 2#64, 3#64] ⟨[], 0, true⟩).2 with pos := 0 }

/-- The bit patterns of the 64-bit elements of a file, as `t`, and whether its dtype is `d`. -/
def bits64 (p : Prim) (hp : p.size = 8) (d : DType) (bs : Bytes) : Option (Bool × List Nat) :=
  match (NpyFile.new box Py.parse disk ⟨bs, 0⟩).1 with
  | .ok f => match (f.intoVec box disk (.num p)).1 with
    | .ok vs => some (f.header.dtype.descr == d.descr, vs.map fun (v : Word p.size) => v.toNat)
    | _ => none
  | _ => none

/-- C110 is violated.  Writing the floats `[4, 5, 6]` over the floats `[1, 2, 3]` and stopping after the first item leaves an array that is
neither: `[4, 2, 3]`.  Writing four-byte integers over them and stopping inside the header leaves an array of eight-byte integers. -/
theorem C110_violated :
    bits64 .f64 rfl floats8 oldFile.data = some (true, [1, 2, 3]) ∧
    bits64 .f64 rfl floats8 ((NpyWriter.session box f64 floats8 .c (.nd [3]) [4#64, 5#64, 6#64]).crash 136 oldFile).data = some (true, [4, 2, 3]) ∧
    bits64 .i64 rfl ints8 ((NpyWriter.session box (.num .i32) ints4 .c .oneD [(4#32 : Word 4)]).crash 23 oldFile).data = some (true, [1, 2, 3]) := by
  decide +kernel

def overOld (s : Sink) : Res Unit × Sink := NpyWriter.save box solid f64 floats8 .c .oneD ([4#64] : List f64.Val) s

theorem floats8_wf : floats8.Wf := f8_wf

/-- C110_outside: one double written over three: the bytes behind it are kept. -/
example : ∃ s', overOld oldFile = (.ok (), s') ∧ ∀ i, i < oldFile.data.length → s'.pos ≤ i → s'.data[i]? = oldFile.data[i]? := by
  have h : (overOld oldFile).1 = .ok () := by decide +kernel
  have hp : oldFile.pos = 0 := rfl
  rcases hx : overOld oldFile with ⟨x, s'⟩
  rw [hx] at h
  cases h
  exact ⟨s', rfl, fun i h1 h2 => C110_outside floats8_wf rfl (by decide) (by rw [hp]; decide +kernel) (by decide) hx i h1 (.inr h2)⟩

theorem old_begun (hint : ShapeHint) (h : (match ((NpyWriter.begin box f64 floats8 .c hint).exec oldFile).1 with | .ok _ => true | _ => false) = true) :
    ∃ w s1, (NpyWriter.begin box f64 floats8 .c hint).exec oldFile = (.ok w, s1) := by
  rcases hx : (NpyWriter.begin box f64 floats8 .c hint).exec oldFile with ⟨(w | e | _), s1⟩
  · exact ⟨w, s1, rfl⟩
  · rw [hx] at h; cases h
  · rw [hx] at h; cases h

/-- C110_crash_outside: the same, and the process dies. -/
example (n i : Nat) (hi : i < oldFile.data.length) (hn : n ≤ i) :
    ((NpyWriter.session box f64 floats8 .c .oneD ([4#64] : List f64.Val)).crash n oldFile).data[i]? = oldFile.data[i]? := by
  obtain ⟨w, s1, hb⟩ := old_begun .oneD (by decide +kernel)
  have hp : oldFile.pos = 0 := rfl
  exact C110_crash_outside floats8_wf rfl (by decide) (by decide) hb n i hi (.inr (by rw [hp]; omega))

/-- C110_nd_partial: three doubles over three. -/
example : ∃ s1 : Sink, ∀ n, s1.pos ≤ oldFile.pos + n →
    ∃ f, (NpyFile.new box Py.parse disk ⟨((NpyWriter.session box f64 floats8 .c (.nd [3]) ([4#64, 5#64, 6#64] : List f64.Val)).crash n oldFile).data, oldFile.pos⟩).1 = .ok f ∧
      f.header.shape = [3] := by
  obtain ⟨w, s1, hb⟩ := old_begun (.nd [3]) (by decide +kernel)
  refine ⟨s1, fun n hn => ?_⟩
  obtain ⟨f, h1, -, h2, -⟩ := C110_nd_partial (M' := box) (py := Py.parse) (vs := ([4#64, 5#64, 6#64] : List f64.Val)) (.inr rfl) (fun _ _ h => h) floats8_wf rfl (by decide)
    (by decide) (by decide) (f8_fits _ (by decide)) ⟨_, rfl⟩ (by decide) (by decide) (by decide +kernel) (by decide) (fun v _ => nofun) hb (Nat.zero_le _) n hn
  exact ⟨f, h1, h2⟩

/-- The hypotheses of `C110_unfinished_partial`, on the old file: the header has 128 bytes. -/
example : (match (NpyWriter.begin box f64 floats8 .c .oneD).exec oldFile with
      | (.ok _, s1) => s1.pos == 128
      | _ => false) = true ∧ oldFile.data.length = 152 ∧
    bits64 .f64 rfl floats8 ((NpyWriter.session box f64 floats8 .c .oneD [4#64]).crash 128 oldFile).data = none := by
  decide +kernel

end Npyz.Props
