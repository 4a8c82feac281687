import Verif.Proofs.CodecRound
import Verif.Proofs.CodecMain
import Verif.Props.Codec
/-!
C95: the element types for strings and bytes agree with each other.
-/
namespace Npyz.Props
set_option autoImplicit false
open Npyz.Spec

/-- The code point of a character, as a `u32`. -/
def codePoint (c : Char) : Word 4 := BitVec.ofNat 32 c.toNat

theorem reads_iff {α : Type} {p : RProg α} {n : Nat} {f : Bytes → Option α} (h : Reads p n f) {bs : Bytes} (hl : bs.length = n) (v : α) :
    ReadsItem p bs v ↔ f bs = some v := by
  constructor
  · intro hr
    have hr := hr []
    cases hx : f bs with
    | none =>
      obtain ⟨why, k, -, hb⟩ := h.bad bs [] hl hx
      rw [hr] at hb
      cases hb
    | some v' =>
      have := h.ok bs [] v' hl hx
      rw [hr] at this
      cases this
      rfl
  · exact h.item hl

theorem rejects_iff {α : Type} {p : RProg α} {n : Nat} {f : Bytes → Option α} (h : Reads p n f) {bs : Bytes} (hl : bs.length = n) :
    RejectsItem p bs ↔ f bs = none := by
  constructor
  · intro hr
    obtain ⟨why, hr⟩ := hr []
    cases hx : f bs with
    | none => rfl
    | some v' =>
      rw [h.ok bs [] v' hl hx] at hr
      cases hr
  · exact h.rejects hl

theorem writes_iff {p : WProg Unit} {n : Nat} {o : Option Bytes} (h : Writes p n o) (bs : Bytes) : WritesItem p bs ↔ o = some bs := by
  constructor
  · intro hr
    have hr := hr ⟨[], 0, false⟩
    cases o with
    | none =>
      obtain ⟨b, why, hx⟩ := h.refuses
      rw [hx] at hr
      cases hr
    | some b =>
      have hx := h.item.2 ⟨[], 0, false⟩
      rw [hr] at hx
      have hx := congrArg (fun x => x.2.data) hx
      have e : ∀ c : Bytes, (Sink.put ⟨[], 0, false⟩ c).data = c := fun c => by
        have := Sink.put_end (data := []) (sk := false) c
        rw [show (⟨[], 0, false⟩ : Sink) = ⟨[], ([] : Bytes).length, false⟩ from rfl, this]
        rfl
      simp only [e] at hx
      rw [hx]
  · intro h'
    subst h'
    exact h.item.2

theorem refuses_iff {p : WProg Unit} {n : Nat} {o : Option Bytes} (h : Writes p n o) : RefusesItem p ↔ o = none := by
  constructor
  · rintro ⟨b, why, hr⟩
    cases o with
    | none => rfl
    | some b' =>
      have := h.item.2 ⟨[], 0, false⟩
      rw [hr] at this
      cases this
  · intro h'
    subst h'
    exact h.refuses

theorem char_lt (c : Char) : c.toNat < 0x110000 := by
  have h : c.toNat < 0xd800 ∨ (0xdfff < c.toNat ∧ c.toNat < 0x110000) := c.valid
  omega

theorem codePoint_toNat (c : Char) : (codePoint c).toNat = c.toNat := by
  have h := char_lt c
  unfold codePoint
  rw [BitVec.toNat_ofNat, Nat.mod_eq_of_lt (by omega)]

theorem codePoint_inj {c c' : Char} (h : codePoint c = codePoint c') : c = c' := by
  have := congrArg BitVec.toNat h
  rw [codePoint_toNat, codePoint_toNat] at this
  exact Char.ext (UInt32.toNat_inj.mp this)

theorem codePoint_zero (c : Char) : (codePoint c == 0) = (c == '\x00') := by
  rw [Bool.eq_iff_iff, beq_iff_eq, beq_iff_eq]
  exact ⟨fun h => codePoint_inj h, fun h => by rw [h]; rfl⟩

theorem trimEnd_map {α β : Type} {p : α → Bool} {q : β → Bool} {g : α → β} (h : ∀ a, q (g a) = p a) (l : List α) :
    trimEnd q (l.map g) = (trimEnd p l).map g := by
  unfold trimEnd
  rw [List.map_reverse, ← List.map_reverse, List.reverse_inj]
  generalize l.reverse = l
  induction l with
  | nil => rfl
  | cons a l ih =>
    rw [List.map_cons, List.dropWhile_cons, List.dropWhile_cons, h]
    split
    · exact ih
    · rfl

theorem decodeUnit_iff (e : Endianness) (b : Bytes) (hl : b.length = 4) (c : Char) :
    decodeUnit e b = some (codePoint c) ↔ Spec.decodeChar e b = some c := by
  have hlt : wordValue e b < 2 ^ 32 := by have := wordValue_lt e b; rw [hl] at this; exact this
  have hc := char_lt c
  unfold decodeUnit Spec.decodeChar
  rw [charOfNat?_eq_some]
  constructor
  · intro h
    split at h
    · have := congrArg BitVec.toNat (Option.some.inj h)
      rw [codePoint_toNat, BitVec.toNat_ofNat, Nat.mod_eq_of_lt (by omega)] at this
      exact this.symm
    · cases h
  · intro h
    rw [← h, if_pos (by omega)]
    rfl

theorem decodeMany_iff_map {α β : Type} {f : Bytes → Option α} {g : Bytes → Option β} {cp : α → β} {k : Nat}
    (h : ∀ b, b.length = k → ∀ a, g b = some (cp a) ↔ f b = some a) : ∀ (n : Nat) (bs : Bytes), bs.length = n * k → ∀ l : { l : List α // l.length = n },
      decodeMany f k n bs = some l ↔ decodeMany g k n bs = some ⟨l.1.map cp, by rw [List.length_map]; exact l.2⟩
  | 0, bs, _, l => by
    obtain ⟨l, hl⟩ := l
    cases List.eq_nil_of_length_eq_zero hl
    exact ⟨fun _ => rfl, fun _ => rfl⟩
  | n + 1, bs, hb, l => by
    obtain ⟨l, hl⟩ := l
    cases l with
    | nil => cases hl
    | cons a l =>
      rw [Nat.add_mul, Nat.one_mul] at hb
      have h1 := h (bs.take k) (by rw [List.length_take]; omega) a
      have h2 := decodeMany_iff_map h n (bs.drop k) (by rw [List.length_drop]; omega) ⟨l, Nat.succ.inj hl⟩
      simp only [decodeMany]
      constructor
      · intro hx
        have : f (bs.take k) = some a ∧ decodeMany f k n (bs.drop k) = some ⟨l, Nat.succ.inj hl⟩ := by
          cases hf : f (bs.take k) with
          | none => rw [hf] at hx; cases hx
          | some a' =>
            cases hg : decodeMany f k n (bs.drop k) with
            | none => rw [hf, hg] at hx; cases hx
            | some l' => rw [hf, hg] at hx; cases hx; exact ⟨rfl, rfl⟩
        rw [h1.mpr this.1, h2.mp this.2]
        rfl
      · intro hx
        have : g (bs.take k) = some (cp a) ∧ decodeMany g k n (bs.drop k) = some ⟨l.map cp, by rw [List.length_map]; exact Nat.succ.inj hl⟩ := by
          cases hf : g (bs.take k) with
          | none => rw [hf] at hx; cases hx
          | some a' =>
            cases hg : decodeMany g k n (bs.drop k) with
            | none => rw [hf, hg] at hx; cases hx
            | some l' =>
              rw [hf, hg] at hx
              have := congrArg Subtype.val (Option.some.inj hx)
              simp only [List.map_cons, List.cons.injEq] at this
              exact ⟨by rw [this.1], by rw [Option.some.injEq]; exact Subtype.ext this.2⟩
        rw [h1.mp this.1, h2.mpr this.2]

/-- Reading units and reading characters. -/
theorem units_iff_chars {s : TypeStr} {bs : Bytes} (hl : bs.length = s.size * 4) (v : Text) :
    (decodeMany (decodeUnit s.endianness) 4 s.size bs).map (fun l => trimEnd (· == 0) l.1) = some (v.map codePoint) ↔
    (decodeMany (Spec.decodeChar s.endianness) 4 s.size bs).map (fun l => trimEnd (· == '\x00') l.1) = some v := by
  have key := decodeMany_iff_map (f := Spec.decodeChar s.endianness) (g := decodeUnit s.endianness) (cp := codePoint) (k := 4)
    (fun b hb a => decodeUnit_iff _ _ hb a) s.size bs hl
  constructor
  · intro h
    obtain ⟨l, h1, h2⟩ := Option.map_eq_some_iff.mp h
    obtain ⟨z, hz, hp⟩ := trimEnd_append (· == (0 : Word 4)) l.1
    rw [h2] at hz
    have hz' : z = (List.replicate z.length '\x00').map codePoint := by
      rw [List.map_replicate]
      exact List.eq_replicate_iff.mpr ⟨rfl, fun x hx => by have := hp x hx; exact eq_of_beq this⟩
    have hm : l.1 = (v ++ List.replicate z.length '\x00').map codePoint := by
      rw [List.map_append, ← hz']
      exact hz
    have hlen : (v ++ List.replicate z.length '\x00').length = s.size := by
      rw [← List.length_map (f := codePoint), ← hm, l.2]
    have h3 := (key ⟨_, hlen⟩).mpr (by rw [h1, Option.some.injEq]; exact Subtype.ext hm)
    rw [h3]
    show some (trimEnd (· == '\x00') (v ++ List.replicate z.length '\x00')) = some v
    have e := trimEnd_map (p := (· == '\x00')) (q := (· == (0 : Word 4))) (g := codePoint) codePoint_zero (v ++ List.replicate z.length '\x00')
    rw [← hm, h2] at e
    have inj : ∀ a b : Text, a.map codePoint = b.map codePoint → a = b := by
      intro a
      induction a with
      | nil => intro b hb; cases b with
        | nil => rfl
        | cons _ _ => cases hb
      | cons x xs ih => intro b hb; cases b with
        | nil => cases hb
        | cons y ys =>
          rw [List.map_cons, List.map_cons, List.cons.injEq] at hb
          rw [codePoint_inj hb.1, ih ys hb.2]
    rw [← inj _ _ e]
  · intro h
    obtain ⟨l, h1, h2⟩ := Option.map_eq_some_iff.mp h
    rw [(key l).mp h1]
    show some (trimEnd (· == 0) (l.1.map codePoint)) = some (v.map codePoint)
    rw [trimEnd_map (p := (· == '\x00')) (g := codePoint) codePoint_zero, h2]

theorem exact_text {s : TypeStr} (h : s.typeChar = .unicodeStr) : exactBytes (.plain s) = some (4 * s.size) := by simp [exactBytes, itemBytes, h]
theorem exact_bytes {s : TypeStr} (h : s.typeChar = .byteStr ∨ s.typeChar = .rawData) : exactBytes (.plain s) = some s.size := by
  rcases h with h | h <;> simp [exactBytes, itemBytes, h]

/-- C95: an item of a `U` dtype reads as the same text as `String` and as `Vec<char>`, and is refused by both or by neither;
and this is the text whose code points are read as `Vec<u32>`. -/
theorem C95_text_reads {M : Machine} {s : TypeStr} (hs : s.Wf) (hu : s.typeChar = .unicodeStr) (hm : 4 * s.size ≤ M.isizeMax)
    {pS pC pU} (hS : Ty.string.reader M (.plain s) = .ok pS) (hC : Ty.vecChar.reader M (.plain s) = .ok pC)
    (hU : Ty.vecU32.reader M (.plain s) = .ok pU) {bs : Bytes} (hl : bs.length = 4 * s.size) :
    (∀ v : Text, ReadsItem (α := Text) pS bs v ↔ ReadsItem (α := Text) pC bs v) ∧ (RejectsItem pS bs ↔ RejectsItem pC bs) ∧
    (∀ v : Text, ReadsItem (α := Text) pC bs v ↔ ReadsItem (α := List (Word 4)) pU bs (v.map codePoint)) ∧ (RejectsItem pU bs → RejectsItem pC bs) := by
  have rS := reader_reads _ hS hs (exact_text hu) hm
  have rC := reader_reads _ hC hs (exact_text hu) hm
  have rU := reader_reads _ hU hs (exact_text hu) hm
  have e : decode .string (.plain s) bs = decode .vecChar (.plain s) bs := by
    exact if_pos hu
  have hiff := units_iff_chars (s := s) (bs := bs) (by omega)
  refine ⟨fun v => ?_, ?_, fun v => ?_, fun h => ?_⟩
  · exact (reads_iff rS hl v).trans (e ▸ (reads_iff rC hl v).symm)
  · exact (rejects_iff rS hl).trans (e ▸ (rejects_iff rC hl).symm)
  · exact (reads_iff rC hl v).trans ((hiff v).symm.trans (reads_iff rU hl (v.map codePoint)).symm)
  · have h := (rejects_iff rU hl).mp h
    refine (rejects_iff rC hl).mpr ?_
    cases hx : decode .vecChar (.plain s) bs with
    | none => rfl
    | some v =>
      have := (hiff v).mpr hx
      have h : (decodeMany (decodeUnit s.endianness) 4 s.size bs).map (fun l => trimEnd (· == 0) l.1) = none := h
      rw [h] at this
      cases this

/-- C95: a `|S` item that reads as text with `String` is the UTF-8 of that text with `Vec<u8>`, and the other way round. -/
theorem C95_bytes_reads {M : Machine} {s : TypeStr} (hs : s.Wf) (hb : s.typeChar = .byteStr) (hm : s.size ≤ M.isizeMax)
    {pS pB} (hS : Ty.string.reader M (.plain s) = .ok pS) (hB : Ty.vecU8.reader M (.plain s) = .ok pB) {bs : Bytes} (hl : bs.length = s.size) (v : Text) :
    ReadsItem (α := Text) pS bs v ↔ ReadsItem (α := Bytes) pB bs (encodeUtf8 v) := by
  have rS := reader_reads _ hS hs (exact_bytes (.inl hb)) hm
  have rB := reader_reads _ hB hs (exact_bytes (.inl hb)) hm
  refine (reads_iff rS hl v).trans (Iff.trans ?_ (reads_iff rB hl (encodeUtf8 v)).symm)
  show (if s.typeChar = .unicodeStr then _ else decodeUtf8Item bs) = some v ↔ some (if s.typeChar = .byteStr then trimEnd (· == 0) bs else bs) = some (encodeUtf8 v)
  have e : (if s.typeChar = .unicodeStr then
      (decodeMany (Spec.decodeChar s.endianness) 4 s.size bs).map fun l => trimEnd (· == '\x00') l.1
    else decodeUtf8Item bs) = decodeUtf8Item bs := if_neg (by rw [hb]; decide)
  rw [if_pos hb, Option.some.injEq]
  exact (iff_of_eq (congrArg (· = some v) e)).trans (decodeUtf8_eq_some_iff _ _)

/-- C95: `[u8; n]` and `Vec<u8>` read the same from raw data. -/
theorem C95_fixed_reads {M : Machine} (hM : M.Wf) {s : TypeStr} (hs : s.Wf) (hm : s.size ≤ M.isizeMax) {n : Nat} {pF pB}
    (hF : (Ty.fixedBytes n).reader M (.plain s) = .ok pF) (hB : Ty.vecU8.reader M (.plain s) = .ok pB) {bs : Bytes} (hl : bs.length = s.size)
    (v : { l : Bytes // l.length = n }) : ReadsItem (α := { l : Bytes // l.length = n }) pF bs v ↔ ReadsItem (α := Bytes) pB bs v.1 := by
  have hc : s.typeChar = .rawData ∧ s.size = n := ((reader_ok_iff hM _ _).mp ⟨pF, hF⟩).1
  have rF := reader_reads _ hF hs (exact_bytes (.inr hc.1)) hm
  have rB := reader_reads _ hB hs (exact_bytes (.inr hc.1)) hm
  refine (reads_iff rF hl v).trans (Iff.trans ?_ (reads_iff rB hl v.1).symm)
  show (if h : bs.length = n then some (⟨bs, h⟩ : { l : Bytes // l.length = n }) else none) = some v ↔
    some (if s.typeChar = .byteStr then trimEnd (· == 0) bs else bs) = some v.1
  rw [dif_pos (hl.trans hc.2), if_neg (by rw [hc.1]; decide), Option.some.injEq, Option.some.injEq, Subtype.ext_iff]

/-- C95: the types of fixed capacity read what the growing ones read, if they are large enough. -/
theorem C95_capacity_reads {M : Machine} (hM : M.Wf) {s : TypeStr} (hs : s.Wf) {cap : Nat} (hcap : s.size ≤ cap) {bs : Bytes} :
    (∀ pA pV, (Ty.arrayVecU8 cap).reader M (.plain s) = .ok pA → Ty.vecU8.reader M (.plain s) = .ok pV → s.size ≤ M.isizeMax → bs.length = s.size →
      (s.typeChar = .byteStr ∨ s.size = cap) →
      ∀ v : { l : Bytes // l.length ≤ cap }, ReadsItem (α := { l : Bytes // l.length ≤ cap }) pA bs v ↔ ReadsItem (α := Bytes) pV bs v.1) ∧
    (∀ pA pV, (Ty.arrayString cap).reader M (.plain s) = .ok pA → Ty.string.reader M (.plain s) = .ok pV → s.size ≤ M.isizeMax → bs.length = s.size →
      ∀ v : { l : Text // (encodeUtf8 l).length ≤ cap }, ReadsItem (α := { l : Text // (encodeUtf8 l).length ≤ cap }) pA bs v ↔ ReadsItem (α := Text) pV bs v.1) ∧
    (∀ pA pV, (Ty.arrayVecChar cap).reader M (.plain s) = .ok pA → Ty.vecChar.reader M (.plain s) = .ok pV → 4 * s.size ≤ M.isizeMax → bs.length = 4 * s.size →
      ∀ v : { l : Text // l.length ≤ cap }, ReadsItem (α := { l : Text // l.length ≤ cap }) pA bs v ↔ ReadsItem (α := Text) pV bs v.1) ∧
    (∀ pA pV, (Ty.arrayVecU32 cap).reader M (.plain s) = .ok pA → Ty.vecU32.reader M (.plain s) = .ok pV → 4 * s.size ≤ M.isizeMax → bs.length = 4 * s.size →
      ∀ v : { l : List (Word 4) // l.length ≤ cap }, ReadsItem (α := { l : List (Word 4) // l.length ≤ cap }) pA bs v ↔ ReadsItem (α := List (Word 4)) pV bs v.1) := by
  refine ⟨fun pA pV hA hV hm hl hx v => ?_, fun pA pV hA hV hm hl v => ?_, fun pA pV hA hV hm hl v => ?_, fun pA pV hA hV hm hl v => ?_⟩
  · have hc : s.typeChar = .rawData ∨ s.typeChar = .byteStr := ((reader_ok_iff hM _ _).mp ⟨pV, hV⟩).1
    have rA := reader_reads _ hA hs (exact_bytes hc.symm) hm
    have rV := reader_reads _ hV hs (exact_bytes hc.symm) hm
    refine (reads_iff rA hl v).trans (Iff.trans ?_ (reads_iff rV hl v.1).symm)
    show some (arrayVecBytes cap s bs) = some v ↔ some (if s.typeChar = .byteStr then trimEnd (· == 0) bs else bs) = some v.1
    rw [Option.some.injEq, Option.some.injEq, Subtype.ext_iff]
    unfold arrayVecBytes
    by_cases hb : s.typeChar = .byteStr
    · rw [if_pos hb, if_pos hb]
      show trimEnd (· == 0) (bs.take cap) = _ ↔ _
      rw [List.take_of_length_le (by omega)]
    · have he := hx.resolve_left hb
      rw [if_neg hb, if_neg hb]
      show (bs ++ List.replicate (cap - bs.length) 0).take cap = _ ↔ _
      rw [show cap - bs.length = 0 by omega, List.replicate_zero, List.append_nil, List.take_of_length_le (by omega)]
  · have hc : s.typeChar = .byteStr := ((reader_ok_iff hM _ _).mp ⟨pA, hA⟩).1
    have rA := reader_reads _ hA hs (exact_bytes (.inl hc)) hm
    have rV := reader_reads _ hV hs (exact_bytes (.inl hc)) hm
    refine (reads_iff rA hl v).trans (Iff.trans ?_ (reads_iff rV hl v.1).symm)
    have e : decode .string (.plain s) bs = decodeUtf8Item bs := if_neg (by rw [hc]; decide)
    rw [e]
    show (decodeUtf8Item bs).map (fun l => (⟨fitPrefix cap l, encode_fitPrefix_le _ _⟩ : { l : Text // (encodeUtf8 l).length ≤ cap })) = some v ↔
      decodeUtf8Item bs = some v.1
    cases hx : decodeUtf8Item bs with
    | none => simp
    | some l =>
      have hle : (encodeUtf8 l).length ≤ cap := by
        rw [← (decodeUtf8_eq_some_iff _ _).mp hx]
        have := length_trimEnd_le (· == (0 : UInt8)) bs
        omega
      rw [Option.map_some, Option.some.injEq, Option.some.injEq, Subtype.ext_iff]
      show fitPrefix cap l = v.1 ↔ _
      rw [fitPrefix_of_le hle]
  · have hc : s.typeChar = .unicodeStr := ((reader_ok_iff hM _ _).mp ⟨pA, hA⟩).1
    have rA := reader_reads _ hA hs (exact_text hc) hm
    have rV := reader_reads _ hV hs (exact_text hc) hm
    refine (reads_iff rA hl v).trans (Iff.trans ?_ (reads_iff rV hl v.1).symm)
    show (decodeMany (Spec.decodeChar s.endianness) 4 s.size bs).map (fun l =>
        (⟨trimEnd (· == '\x00') (l.1.take cap), trimEnd_take_le _ _ _⟩ : { l : Text // l.length ≤ cap })) = some v ↔
      (decodeMany (Spec.decodeChar s.endianness) 4 s.size bs).map (fun l => trimEnd (· == '\x00') l.1) = some v.1
    cases decodeMany (Spec.decodeChar s.endianness) 4 s.size bs with
    | none => simp
    | some l =>
      rw [Option.map_some, Option.map_some, Option.some.injEq, Option.some.injEq, Subtype.ext_iff]
      show trimEnd (· == '\x00') (l.1.take cap) = v.1 ↔ _
      rw [List.take_of_length_le (by rw [l.2]; exact hcap)]
  · have hc : s.typeChar = .unicodeStr := ((reader_ok_iff hM _ _).mp ⟨pA, hA⟩).1
    have rA := reader_reads _ hA hs (exact_text hc) hm
    have rV := reader_reads _ hV hs (exact_text hc) hm
    refine (reads_iff rA hl v).trans (Iff.trans ?_ (reads_iff rV hl v.1).symm)
    show (decodeMany (decodeUnit s.endianness) 4 s.size bs).map (fun l =>
        (⟨trimEnd (· == 0) (l.1.take cap), trimEnd_take_le _ _ _⟩ : { l : List (Word 4) // l.length ≤ cap })) = some v ↔
      (decodeMany (decodeUnit s.endianness) 4 s.size bs).map (fun l => trimEnd (· == 0) l.1) = some v.1
    cases decodeMany (decodeUnit s.endianness) 4 s.size bs with
    | none => simp
    | some l =>
      rw [Option.map_some, Option.map_some, Option.some.injEq, Option.some.injEq, Subtype.ext_iff]
      show trimEnd (· == 0) (l.1.take cap) = v.1 ↔ _
      rw [List.take_of_length_le (by rw [l.2]; exact hcap)]

/-- C95: `String`, `Vec<char>` and `Vec<u32>` of the code points are written as the same bytes under a `U` dtype, or are all refused. -/
theorem C95_text_writes {M : Machine} {s : TypeStr} (hs : s.Wf) (hu : s.typeChar = .unicodeStr) (hm : 4 * s.size ≤ M.isizeMax)
    {wS wC wU} (hS : Ty.string.writer M (.plain s) = .ok wS) (hC : Ty.vecChar.writer M (.plain s) = .ok wC)
    (hU : Ty.vecU32.writer M (.plain s) = .ok wU) (v : Text) :
    (∀ bs, (WritesItem (wS v) bs ↔ WritesItem (wC v) bs) ∧ (WritesItem (wC v) bs ↔ WritesItem (wU (v.map codePoint)) bs)) ∧
    (RefusesItem (wS v) ↔ RefusesItem (wC v)) ∧ (RefusesItem (wC v) ↔ RefusesItem (wU (v.map codePoint))) := by
  have rS := writer_writes _ hS hs (exact_text hu) hm v
  have rC := writer_writes _ hC hs (exact_text hu) hm v
  have rU := writer_writes _ hU hs (exact_text hu) hm (v.map codePoint)
  have e1 : encode .string (.plain s) v = encode .vecChar (.plain s) v := by
    show encodeText s v = _
    unfold encodeText
    rw [if_pos hu]
    rfl
  have e2 : encode .vecU32 (.plain s) (v.map codePoint) = encode .vecChar (.plain s) v := by
    show encodeUnits s (v.map codePoint) = encodeChars s v
    unfold encodeUnits encodeChars
    rw [if_pos (by
      intro x hx
      obtain ⟨c, -, rfl⟩ := List.mem_map.mp hx
      rw [codePoint_toNat]
      exact char_lt c), List.map_map]
    congr 1
    exact List.map_congr_left fun c _ => codePoint_toNat c
  rw [e1] at rS
  rw [e2] at rU
  exact ⟨fun bs => ⟨(writes_iff rS bs).trans (writes_iff rC bs).symm, (writes_iff rC bs).trans (writes_iff rU bs).symm⟩,
    (refuses_iff rS).trans (refuses_iff rC).symm, (refuses_iff rC).trans (refuses_iff rU).symm⟩

/-- C95: a `String` is written under a `|S` dtype as its UTF-8 bytes are. -/
theorem C95_bytes_writes {M : Machine} {s : TypeStr} (hs : s.Wf) (hb : s.typeChar = .byteStr) (hm : s.size ≤ M.isizeMax)
    {wS wB} (hS : Ty.string.writer M (.plain s) = .ok wS) (hB : Ty.vecU8.writer M (.plain s) = .ok wB) (v : Text) :
    (∀ bs, WritesItem (wS v) bs ↔ WritesItem (wB (encodeUtf8 v)) bs) ∧ (RefusesItem (wS v) ↔ RefusesItem (wB (encodeUtf8 v))) := by
  have rS := writer_writes _ hS hs (exact_bytes (.inl hb)) hm v
  have rB := writer_writes _ hB hs (exact_bytes (.inl hb)) hm (encodeUtf8 v)
  have e : encode .string (.plain s) v = encode .vecU8 (.plain s) (encodeUtf8 v) := by
    show encodeText s v = encodeBytes s (encodeUtf8 v)
    unfold encodeText encodeBytes
    rw [if_neg (by rw [hb]; decide), if_pos hb]
  rw [e] at rS
  exact ⟨fun bs => (writes_iff rS bs).trans (writes_iff rB bs).symm, (refuses_iff rS).trans (refuses_iff rB).symm⟩

/-- C95: values of the types of fixed size or capacity are written as the same values of the growing types. -/
theorem C95_capacity_writes {M : Machine} (hM : M.Wf) {s : TypeStr} (hs : s.Wf) {n : Nat} (he : exactBytes (.plain s) = some n) (hm : n ≤ M.isizeMax)
    {cap : Nat} (bs : Bytes) :
    (∀ wA wV, (Ty.arrayVecU8 cap).writer M (.plain s) = .ok wA → Ty.vecU8.writer M (.plain s) = .ok wV →
      ∀ v : { l : Bytes // l.length ≤ cap }, WritesItem (wA v) bs ↔ WritesItem (wV v.1) bs) ∧
    (∀ wA wV, (Ty.fixedBytes cap).writer M (.plain s) = .ok wA → Ty.vecU8.writer M (.plain s) = .ok wV →
      ∀ v : { l : Bytes // l.length = cap }, WritesItem (wA v) bs ↔ WritesItem (wV v.1) bs) ∧
    (∀ wA wV, (Ty.arrayString cap).writer M (.plain s) = .ok wA → Ty.string.writer M (.plain s) = .ok wV →
      ∀ v : { l : Text // (encodeUtf8 l).length ≤ cap }, WritesItem (wA v) bs ↔ WritesItem (wV v.1) bs) ∧
    (∀ wA wV, (Ty.arrayVecChar cap).writer M (.plain s) = .ok wA → Ty.vecChar.writer M (.plain s) = .ok wV →
      ∀ v : { l : Text // l.length ≤ cap }, WritesItem (wA v) bs ↔ WritesItem (wV v.1) bs) ∧
    (∀ wA wV, (Ty.arrayVecU32 cap).writer M (.plain s) = .ok wA → Ty.vecU32.writer M (.plain s) = .ok wV →
      ∀ v : { l : List (Word 4) // l.length ≤ cap }, WritesItem (wA v) bs ↔ WritesItem (wV v.1) bs) := by
  refine ⟨fun wA wV hA hV v => ?_, fun wA wV hA hV v => ?_, fun wA wV hA hV v => ?_, fun wA wV hA hV v => ?_, fun wA wV hA hV v => ?_⟩
  · exact (writes_iff (writer_writes _ hA hs he hm v) bs).trans (writes_iff (writer_writes _ hV hs he hm v.1) bs).symm
  · refine (writes_iff (writer_writes _ hA hs he hm v) bs).trans (Iff.trans ?_ (writes_iff (writer_writes _ hV hs he hm v.1) bs).symm)
    have hc : s.typeChar = .rawData ∧ s.size = cap := by
      have := ((writer_ok_iff hM _ _).mp ⟨wA, hA⟩).1
      simpa [CanWrite, scalarAccepts, writeOnly] using this
    show some v.1 = some bs ↔ encodeBytes s v.1 = some bs
    unfold encodeBytes
    rw [if_neg (by rw [hc.1]; decide), if_pos (by rw [v.2, hc.2])]
  · exact (writes_iff (writer_writes _ hA hs he hm v) bs).trans (writes_iff (writer_writes _ hV hs he hm v.1) bs).symm
  · exact (writes_iff (writer_writes _ hA hs he hm v) bs).trans (writes_iff (writer_writes _ hV hs he hm v.1) bs).symm
  · exact (writes_iff (writer_writes _ hA hs he hm v) bs).trans (writes_iff (writer_writes _ hV hs he hm v.1) bs).symm

def u2 : TypeStr := ⟨.little, .unicodeStr, 2, none⟩
def s3 : TypeStr := ⟨.irrelevant, .byteStr, 3, none⟩
theorem u2_wf : u2.Wf := wf_of_parse (s := "<U2".toList) (by decide)
theorem s3_wf : s3.Wf := wf_of_parse (s := "|S3".toList) (by decide)

-- all the readers and writers of the theorems exist; an item `é` under `<U2`, and one under `|S3`

/-- C95_text_writes, C95_bytes_writes: the writers under `<U2` and `|S3`. -/
example (v : Text) : ∃ wS wC wU, Ty.string.writer ⟨false, 64, true⟩ (.plain u2) = .ok wS ∧ Ty.vecChar.writer ⟨false, 64, true⟩ (.plain u2) = .ok wC ∧
    Ty.vecU32.writer ⟨false, 64, true⟩ (.plain u2) = .ok wU ∧ (RefusesItem (wS v) ↔ RefusesItem (wC v)) ∧
    (RefusesItem (wC v) ↔ RefusesItem (wU (v.map codePoint))) := by
  obtain ⟨wS, hS⟩ := (writer_ok_iff (M := ⟨false, 64, true⟩) (.inr rfl) .string (.plain u2)).mpr ⟨.inl (.inr rfl), fits (by decide)⟩
  obtain ⟨wC, hC⟩ := (writer_ok_iff (M := ⟨false, 64, true⟩) (.inr rfl) .vecChar (.plain u2)).mpr ⟨.inl rfl, fits (by decide)⟩
  obtain ⟨wU, hU⟩ := (writer_ok_iff (M := ⟨false, 64, true⟩) (.inr rfl) .vecU32 (.plain u2)).mpr ⟨.inl rfl, fits (by decide)⟩
  exact ⟨wS, wC, wU, hS, hC, hU, (C95_text_writes u2_wf rfl (by decide) hS hC hU v).2⟩

example (v : Text) : ∃ wS wB, Ty.string.writer ⟨false, 64, true⟩ (.plain s3) = .ok wS ∧ Ty.vecU8.writer ⟨false, 64, true⟩ (.plain s3) = .ok wB ∧
    (RefusesItem (wS v) ↔ RefusesItem (wB (encodeUtf8 v))) := by
  obtain ⟨wS, hS⟩ := (writer_ok_iff (M := ⟨false, 64, true⟩) (.inr rfl) .string (.plain s3)).mpr ⟨.inl (.inl rfl), fits (by decide)⟩
  obtain ⟨wB, hB⟩ := (writer_ok_iff (M := ⟨false, 64, true⟩) (.inr rfl) .vecU8 (.plain s3)).mpr ⟨.inl (.inr rfl), fits (by decide)⟩
  exact ⟨wS, wB, hS, hB, (C95_bytes_writes s3_wf rfl (by decide) hS hB v).2⟩

/-- C95_fixed_reads: three bytes under `|V3`. -/
example : ∃ pF pB, (Ty.fixedBytes 3).reader ⟨false, 64, true⟩ (.plain ⟨.irrelevant, .rawData, 3, none⟩) = .ok pF ∧
    Ty.vecU8.reader ⟨false, 64, true⟩ (.plain ⟨.irrelevant, .rawData, 3, none⟩) = .ok pB ∧
    (ReadsItem (α := { l : Bytes // l.length = 3 }) pF [1, 2, 0] ⟨[1, 2, 0], rfl⟩ ↔ ReadsItem (α := Bytes) pB [1, 2, 0] [1, 2, 0]) := by
  obtain ⟨pF, hF⟩ := (reader_ok_iff (M := ⟨false, 64, true⟩) (.inr rfl) (.fixedBytes 3) (.plain ⟨.irrelevant, .rawData, 3, none⟩)).mpr ⟨⟨rfl, rfl⟩, fits (by decide)⟩
  obtain ⟨pB, hB⟩ := (reader_ok_iff (M := ⟨false, 64, true⟩) (.inr rfl) .vecU8 (.plain ⟨.irrelevant, .rawData, 3, none⟩)).mpr ⟨.inl rfl, fits (by decide)⟩
  exact ⟨pF, pB, hF, hB, C95_fixed_reads (.inr rfl) (wf_of_parse (s := "|V3".toList) (by decide)) (by decide) hF hB rfl ⟨[1, 2, 0], rfl⟩⟩

example : ∃ pS pC pU, Ty.string.reader ⟨false, 64, true⟩ (.plain u2) = .ok pS ∧ Ty.vecChar.reader ⟨false, 64, true⟩ (.plain u2) = .ok pC ∧
    Ty.vecU32.reader ⟨false, 64, true⟩ (.plain u2) = .ok pU ∧ ReadsItem (α := Text) pC [0xe9, 0, 0, 0, 0, 0, 0, 0] ['é'] := by
  obtain ⟨pS, hS⟩ := (reader_ok_iff (M := ⟨false, 64, true⟩) (.inr rfl) .string (.plain u2)).mpr ⟨.inr rfl, fits (by decide)⟩
  obtain ⟨pC, hC⟩ := (reader_ok_iff (M := ⟨false, 64, true⟩) (.inr rfl) .vecChar (.plain u2)).mpr ⟨rfl, fits (by decide)⟩
  obtain ⟨pU, hU⟩ := (reader_ok_iff (M := ⟨false, 64, true⟩) (.inr rfl) .vecU32 (.plain u2)).mpr ⟨rfl, fits (by decide)⟩
  refine ⟨pS, pC, pU, hS, hC, hU, ?_⟩
  exact ((C95_text_reads u2_wf rfl (by decide) hS hC hU rfl).1 _).mp
    ((reads_iff (reader_reads _ hS u2_wf (exact_text rfl) (by decide)) rfl _).mpr
      (show (decodeMany (Spec.decodeChar .little) 4 2 [0xe9, 0, 0, 0, 0, 0, 0, 0]).map (fun l => trimEnd (· == '\x00') l.1) = some ['é'] by decide +kernel))

example : ∃ pS pB pA, Ty.string.reader ⟨false, 64, true⟩ (.plain s3) = .ok pS ∧ Ty.vecU8.reader ⟨false, 64, true⟩ (.plain s3) = .ok pB ∧
    (Ty.arrayString 4).reader ⟨false, 64, true⟩ (.plain s3) = .ok pA ∧ ReadsItem (α := Text) pS [0xc3, 0xa9, 0] ['é'] ∧
    ReadsItem (α := { l : Text // (encodeUtf8 l).length ≤ 4 }) pA [0xc3, 0xa9, 0] ⟨['é'], by decide⟩ := by
  obtain ⟨pS, hS⟩ := (reader_ok_iff (M := ⟨false, 64, true⟩) (.inr rfl) .string (.plain s3)).mpr ⟨.inl rfl, fits (by decide)⟩
  obtain ⟨pB, hB⟩ := (reader_ok_iff (M := ⟨false, 64, true⟩) (.inr rfl) .vecU8 (.plain s3)).mpr ⟨.inr rfl, fits (by decide)⟩
  obtain ⟨pA, hA⟩ := (reader_ok_iff (M := ⟨false, 64, true⟩) (.inr rfl) (.arrayString 4) (.plain s3)).mpr ⟨rfl, fits (by decide)⟩
  have h1 := (C95_bytes_reads s3_wf rfl (by decide) hS hB (bs := [0xc3, 0xa9, 0]) rfl ['é']).mpr
    ((reads_iff (reader_reads _ hB s3_wf (exact_bytes (.inl rfl)) (by decide)) rfl _).mpr
      (show some (trimEnd (· == 0) [0xc3, 0xa9, 0]) = some (encodeUtf8 ['é']) by decide +kernel))
  exact ⟨pS, pB, pA, hS, hB, hA, h1, ((C95_capacity_reads (.inr rfl) s3_wf (cap := 4) (by decide)).2.1 pA pS hA hS (by decide) rfl _).mpr h1⟩

end Npyz.Props
