import Verif.Proofs.CodecRound
import Verif.Proofs.CodecMain
import Verif.Proofs.Save
import Verif.Spec.Resave
/-!
Encoding a decoded item gives the bytes of the item.
-/
set_option autoImplicit false
namespace Npyz
open Spec

theorem trimEnd_refill {α : Type} {p : α → Bool} {z : α} (hz : ∀ x, p x = true → x = z) (l : List α) :
    trimEnd p l ++ List.replicate (l.length - (trimEnd p l).length) z = l := by
  obtain ⟨t, ht, hp⟩ := trimEnd_append p l
  have hr : t = List.replicate t.length z := List.eq_replicate_iff.mpr ⟨rfl, fun x hx => hz x (hp x hx)⟩
  have hl : l.length - (trimEnd p l).length = t.length := by
    have := congrArg List.length ht
    rw [List.length_append] at this
    omega
  rw [hl, ← hr]
  exact ht.symm

theorem decodeMany_flatMap_back {α : Type} {g : Bytes → Option α} {e : α → Bytes} {k : Nat}
    (hg : ∀ b x, b.length = k → g b = some x → e x = b) :
    ∀ (n : Nat) (bs : Bytes) (l : { l : List α // l.length = n }), bs.length = n * k → decodeMany g k n bs = some l → l.1.flatMap e = bs
  | 0, bs, l, hl, h => by
    cases h
    rw [Nat.zero_mul] at hl
    exact (List.eq_nil_of_length_eq_zero hl).symm
  | n + 1, bs, l, hl, h => by
    simp only [decodeMany] at h
    rw [Nat.add_mul, Nat.one_mul] at hl
    cases h1 : g (bs.take k) with
    | none => rw [h1] at h; cases h
    | some x =>
      cases h2 : decodeMany g k n (bs.drop k) with
      | none => rw [h1, h2] at h; cases h
      | some xs =>
        rw [h1, h2] at h
        cases h
        have e1 := hg _ _ (by rw [List.length_take]; omega) h1
        have e2 := decodeMany_flatMap_back hg n (bs.drop k) xs (by rw [List.length_drop]; omega) h2
        show (x :: xs.1).flatMap e = bs
        rw [List.flatMap_cons, e1, e2, List.take_append_drop]

theorem decodeMany_mem {α : Type} {g : Bytes → Option α} {k : Nat} :
    ∀ (n : Nat) (bs : Bytes) (l : { l : List α // l.length = n }), bs.length = n * k → decodeMany g k n bs = some l →
      ∀ x ∈ l.1, ∃ b, b.length = k ∧ g b = some x
  | 0, bs, l, hl, h, x, hx => by
    cases h
    cases hx
  | n + 1, bs, l, hl, h, x, hx => by
    simp only [decodeMany] at h
    rw [Nat.add_mul, Nat.one_mul] at hl
    cases h1 : g (bs.take k) with
    | none => rw [h1] at h; cases h
    | some y =>
      cases h2 : decodeMany g k n (bs.drop k) with
      | none => rw [h1, h2] at h; cases h
      | some ys =>
        rw [h1, h2] at h
        cases h
        rcases List.mem_cons.mp hx with rfl | hx
        · exact ⟨_, by rw [List.length_take]; omega, h1⟩
        · exact decodeMany_mem n (bs.drop k) ys (by rw [List.length_drop]; omega) h2 x hx

theorem decodeMany_encodeAll_back {α : Type} {g : Bytes → Option α} {f : α → Option Bytes} {k : Nat}
    (hg : ∀ b x, b.length = k → g b = some x → f x = some b) :
    ∀ (n : Nat) (bs : Bytes) (l : { l : List α // l.length = n }), bs.length = n * k → decodeMany g k n bs = some l →
      encodeAll f l.1 = some bs
  | 0, bs, l, hl, h => by
    cases h
    rw [Nat.zero_mul] at hl
    rw [List.eq_nil_of_length_eq_zero hl]
    rfl
  | n + 1, bs, l, hl, h => by
    simp only [decodeMany] at h
    rw [Nat.add_mul, Nat.one_mul] at hl
    cases h1 : g (bs.take k) with
    | none => rw [h1] at h; cases h
    | some x =>
      cases h2 : decodeMany g k n (bs.drop k) with
      | none => rw [h1, h2] at h; cases h
      | some xs =>
        rw [h1, h2] at h
        cases h
        have e1 := hg _ _ (by rw [List.length_take]; omega) h1
        have e2 := decodeMany_encodeAll_back hg n (bs.drop k) xs (by rw [List.length_drop]; omega) h2
        show both (f x) (encodeAll f xs.1) = some bs
        rw [e1, e2]
        show some (bs.take k ++ bs.drop k) = some bs
        rw [List.take_append_drop]

theorem wordBytes_back {e : Endianness} {w : Nat} {bs : Bytes} (h : bs.length = w) :
    wordBytes e w (BitVec.ofNat (8 * w) (wordValue e bs)).toNat = bs := by
  subst h
  rw [ofNat_word (wordValue_lt e bs), wordBytes_wordValue]

theorem units_back {s : TypeStr} {bs : Bytes} {l : { l : List (Word 4) // l.length = s.size }} (hl : bs.length = s.size * 4)
    (h : decodeMany (decodeUnit s.endianness) 4 s.size bs = some l) : encodeUnits s (trimEnd (· == 0) l.1) = some bs := by
  have hd : ∀ b x, b.length = 4 → decodeUnit s.endianness b = some x → x.toNat < 0x110000 ∧ wordBytes s.endianness 4 x.toNat = b := by
    intro b x hb hx
    unfold decodeUnit at hx
    split at hx
    · rename_i hlt
      cases hx
      exact ⟨by rw [ofNat_word (by omega)]; exact hlt, wordBytes_back hb⟩
    · cases hx
  have hf := decodeMany_flatMap_back (e := fun x : Word 4 => wordBytes s.endianness 4 x.toNat) (fun b x hb hx => (hd b x hb hx).2) _ _ _ hl h
  have hm := decodeMany_mem _ _ _ hl h
  have hre := trimEnd_refill (p := (· == (0 : Word 4))) (z := 0) (fun x hx => by simpa using hx) l.1
  have hle := length_trimEnd_le (· == (0 : Word 4)) l.1
  rw [l.2] at hle hre
  obtain ⟨t, ht, -⟩ := trimEnd_append (· == (0 : Word 4)) l.1
  have hok : ∀ x ∈ trimEnd (· == (0 : Word 4)) l.1, x.toNat < 0x110000 := by
    intro x hx
    obtain ⟨b, hb, hg⟩ := hm x (by rw [ht]; exact List.mem_append_left _ hx)
    exact (hd b x hb hg).1
  unfold encodeUnits
  rw [if_pos hok]
  unfold padUnits
  rw [if_pos (by rw [List.length_map]; exact hle), List.length_map]
  have e1 : (trimEnd (· == (0 : Word 4)) l.1).map (·.toNat) ++ List.replicate (s.size - (trimEnd (· == (0 : Word 4)) l.1).length) 0 =
      l.1.map (·.toNat) := by
    conv => rhs; rw [← hre]
    simp
  rw [e1, List.flatMap_map, hf]

theorem chars_back {s : TypeStr} {bs : Bytes} {l : { l : List Char // l.length = s.size }} (hl : bs.length = s.size * 4)
    (h : decodeMany (Spec.decodeChar s.endianness) 4 s.size bs = some l) : encodeChars s (trimEnd (· == '\x00') l.1) = some bs := by
  have hd : ∀ b x, b.length = 4 → Spec.decodeChar s.endianness b = some x → wordBytes s.endianness 4 x.toNat = b := by
    intro b x hb hx
    unfold Spec.decodeChar charOfNat? at hx
    split at hx
    · rename_i hv
      cases hx
      have : (Char.ofNatAux (wordValue s.endianness b) hv).toNat = wordValue s.endianness b := by
        unfold Char.ofNatAux Char.toNat
        simp
      rw [this, ← hb, wordBytes_wordValue]
    · cases hx
  have hf := decodeMany_flatMap_back (e := fun x : Char => wordBytes s.endianness 4 x.toNat) hd _ _ _ hl h
  have hre := trimEnd_refill (p := (· == '\x00')) (z := '\x00') (fun x hx => by simpa using hx) l.1
  have hle := length_trimEnd_le (· == '\x00') l.1
  rw [l.2] at hle hre
  unfold encodeChars padUnits
  rw [if_pos (by rw [List.length_map]; exact hle), List.length_map]
  have e1 : (trimEnd (· == '\x00') l.1).map (·.toNat) ++ List.replicate (s.size - (trimEnd (· == '\x00') l.1).length) 0 =
      l.1.map (·.toNat) := by
    conv => rhs; rw [← hre]
    simp
  rw [e1, List.flatMap_map, hf]

theorem bytes_back {n : Nat} {bs : Bytes} (hl : bs.length = n) : padBytes n (trimEnd (· == 0) bs) = some bs := by
  subst hl
  unfold padBytes
  rw [if_pos (length_trimEnd_le _ _), trimEnd_refill (fun x hx => by simpa using hx)]

theorem utf8_back {n : Nat} {bs : Bytes} {l : Text} (hl : bs.length = n) (h : decodeUtf8Item bs = some l) :
    padBytes n (encodeUtf8 l) = some bs := by
  rw [← (decodeUtf8_eq_some_iff _ _).mp h]
  exact bytes_back hl

mutual
theorem decode_encode : (t : Ty) → (d : DType) → (n : Nat) → (v : t.Val) → (bs : Bytes) → CanRead t d → Roomy t d →
    exactBytes d = some n → bs.length = n → decode t d bs = some v → encode t d v = some bs
  | .num p, .plain s, n, v, bs, hc, _, hn, hl, he => by
    revert v
    intro (v : Word p.size) he
    have hs := numSize hc
    have he : some (BitVec.ofNat (8 * p.size) (wordValue s.endianness bs)) = some v := he
    cases he
    show some (wordBytes s.endianness p.size (BitVec.ofNat (8 * p.size) (wordValue s.endianness bs)).toNat) = some bs
    rw [wordBytes_back (by rw [hl, exact_other hn hs.2, hs.1])]
  | .bool, .plain s, n, v, bs, hc, _, hn, hl, he => by
    revert v
    intro (v : Bool) he
    have he : (if bs = [0] then some false else if bs = [1] then some true else none) = some v := he
    show some [boolByte v] = some bs
    split at he
    · rename_i hb; cases he; rw [hb]; rfl
    · split at he
      · rename_i hb; cases he; rw [hb]; rfl
      · cases he
  | .complex f, .plain s, n, v, bs, hc, _, hn, hl, he => by
    revert v
    intro (v : Word f.size × Word f.size) he
    have hc := (complexAccepts_iff f s.typeChar s.size).mp hc
    have hln : bs.length = 2 * f.size := by rw [hl, exact_other hn (by simp [hc.1]), hc.2]
    have he : some (BitVec.ofNat (8 * f.size) (wordValue s.endianness (bs.take f.size)),
      BitVec.ofNat (8 * f.size) (wordValue s.endianness (bs.drop f.size))) = some v := he
    cases he
    show some (wordBytes s.endianness f.size (BitVec.ofNat (8 * f.size) (wordValue s.endianness (bs.take f.size))).toNat ++
      wordBytes s.endianness f.size (BitVec.ofNat (8 * f.size) (wordValue s.endianness (bs.drop f.size))).toNat) = some bs
    rw [wordBytes_back (by rw [List.length_take]; omega), wordBytes_back (by rw [List.length_drop]; omega), List.take_append_drop]
  | .vecU8, .plain s, n, v, bs, hc, _, hn, hl, he => by
    revert v
    intro (v : Bytes) he
    have hc : s.typeChar = .rawData ∨ s.typeChar = .byteStr := hc
    have hs : bs.length = s.size := by rw [hl, exact_other hn (by rcases hc with h | h <;> simp [h])]
    have he : some (if s.typeChar = .byteStr then trimEnd (· == 0) bs else bs) = some v := he
    cases he
    show encodeBytes s (if s.typeChar = .byteStr then trimEnd (· == 0) bs else bs) = some bs
    unfold encodeBytes
    by_cases hb : s.typeChar = .byteStr
    · rw [if_pos hb, if_pos hb, bytes_back hs]
    · rw [if_neg hb, if_neg hb, if_pos hs]
  | .arrayVecU8 cap, .plain s, n, v, bs, hc, hr, hn, hl, he => by
    revert v
    intro (v : { l : Bytes // l.length ≤ cap }) he
    have hc : (s.typeChar = .rawData ∧ s.size ≤ cap) ∨ s.typeChar = .byteStr := hc
    have hr : if s.typeChar = .rawData then s.size = cap else s.size ≤ cap := hr
    have hs : bs.length = s.size := by rw [hl, exact_other hn (by rcases hc with h | h <;> simp [h])]
    have he : some (arrayVecBytes cap s bs) = some v := he
    cases he
    show encodeBytes s (arrayVecBytes cap s bs).1 = some bs
    unfold encodeBytes arrayVecBytes
    by_cases hb : s.typeChar = .byteStr
    · rw [if_neg (by rw [hb]; decide)] at hr
      rw [if_pos hb, if_pos hb]
      show padBytes s.size (trimEnd (· == 0) (bs.take cap)) = some bs
      rw [List.take_of_length_le (by omega), bytes_back hs]
    · have hw : s.typeChar = .rawData := by
        rcases hc with h | h
        · exact h.1
        · exact absurd h hb
      rw [if_pos hw] at hr
      rw [if_neg hb, if_neg hb]
      have e : (bs ++ List.replicate (cap - bs.length) 0).take cap = bs := by
        rw [List.take_of_length_le (by simp; omega), show cap - bs.length = 0 by omega]
        simp
      show (if ((bs ++ List.replicate (cap - bs.length) 0).take cap).length = s.size then
        some ((bs ++ List.replicate (cap - bs.length) 0).take cap) else none) = some bs
      rw [e, if_pos hs]
  | .fixedBytes k, .plain s, n, v, bs, hc, _, hn, hl, he => by
    revert v
    intro (v : { l : Bytes // l.length = k }) he
    have he : (if h : bs.length = k then some (⟨bs, h⟩ : { l : Bytes // l.length = k }) else none) = some v := he
    split at he
    · cases he; rfl
    · cases he
  | .vecU32, .plain s, n, v, bs, hc, _, hn, hl, he => by
    revert v
    intro (v : List (Word 4)) he
    have he : (decodeMany (decodeUnit s.endianness) 4 s.size bs).map (fun l => trimEnd (· == 0) l.1) = some v := he
    obtain ⟨l, h1, h2⟩ := Option.map_eq_some_iff.mp he
    subst h2
    exact units_back (by rw [hl, exact_unicode hn hc]) h1
  | .vecChar, .plain s, n, v, bs, hc, _, hn, hl, he => by
    revert v
    intro (v : Text) he
    have he : (decodeMany (Spec.decodeChar s.endianness) 4 s.size bs).map (fun l => trimEnd (· == '\x00') l.1) = some v := he
    obtain ⟨l, h1, h2⟩ := Option.map_eq_some_iff.mp he
    subst h2
    exact chars_back (by rw [hl, exact_unicode hn hc]) h1
  | .string, .plain s, n, v, bs, hc, _, hn, hl, he => by
    revert v
    intro (v : Text) he
    have he : (if s.typeChar = .unicodeStr then
        (decodeMany (Spec.decodeChar s.endianness) 4 s.size bs).map (fun l => trimEnd (· == '\x00') l.1)
        else decodeUtf8Item bs) = some v := he
    show encodeText s v = some bs
    unfold encodeText
    by_cases hu : s.typeChar = .unicodeStr
    · rw [if_pos hu] at he ⊢
      obtain ⟨l, h1, h2⟩ := Option.map_eq_some_iff.mp he
      subst h2
      exact chars_back (by rw [hl, exact_unicode hn hu]) h1
    · rw [if_neg hu] at he ⊢
      exact utf8_back (by rw [hl, exact_other hn hu]) he
  | .arrayVecU32 cap, .plain s, n, v, bs, hc, hr, hn, hl, he => by
    revert v
    intro (v : { l : List (Word 4) // l.length ≤ cap }) he
    have hr : s.size ≤ cap := hr
    have he : (decodeMany (decodeUnit s.endianness) 4 s.size bs).map (fun l =>
      (⟨trimEnd (· == 0) (l.1.take cap), trimEnd_take_le _ _ _⟩ : { l : List (Word 4) // l.length ≤ cap })) = some v := he
    obtain ⟨l, h1, h2⟩ := Option.map_eq_some_iff.mp he
    subst h2
    show encodeUnits s (trimEnd (· == 0) (l.1.take cap)) = some bs
    rw [List.take_of_length_le (by rw [l.2]; exact hr)]
    exact units_back (by rw [hl, exact_unicode hn hc]) h1
  | .arrayVecChar cap, .plain s, n, v, bs, hc, hr, hn, hl, he => by
    revert v
    intro (v : { l : Text // l.length ≤ cap }) he
    have hr : s.size ≤ cap := hr
    have he : (decodeMany (Spec.decodeChar s.endianness) 4 s.size bs).map (fun l =>
      (⟨trimEnd (· == '\x00') (l.1.take cap), trimEnd_take_le _ _ _⟩ : { l : Text // l.length ≤ cap })) = some v := he
    obtain ⟨l, h1, h2⟩ := Option.map_eq_some_iff.mp he
    subst h2
    show encodeChars s (trimEnd (· == '\x00') (l.1.take cap)) = some bs
    rw [List.take_of_length_le (by rw [l.2]; exact hr)]
    exact chars_back (by rw [hl, exact_unicode hn hc]) h1
  | .arrayString cap, .plain s, n, v, bs, hc, hr, hn, hl, he => by
    revert v
    intro (v : { l : Text // (encodeUtf8 l).length ≤ cap }) he
    have hc : s.typeChar = .byteStr := hc
    have hr : s.size ≤ cap := hr
    have hu : s.typeChar ≠ .unicodeStr := by simp [hc]
    have hs : bs.length = s.size := by rw [hl, exact_other hn hu]
    have he : (decodeUtf8Item bs).map (fun l =>
      (⟨fitPrefix cap l, encode_fitPrefix_le _ _⟩ : { l : Text // (encodeUtf8 l).length ≤ cap })) = some v := he
    obtain ⟨l, h1, h2⟩ := Option.map_eq_some_iff.mp he
    subst h2
    show encodeText s (fitPrefix cap l) = some bs
    unfold encodeText
    have hle : (encodeUtf8 l).length ≤ cap := by
      rw [← (decodeUtf8_eq_some_iff _ _).mp h1]
      have := length_trimEnd_le (· == (0 : UInt8)) bs
      omega
    rw [if_neg hu, fitPrefix_of_le hle]
    exact utf8_back hs h1
  | .array m t, .plain _, _, _, _, hc, _, _, _, _ => False.elim hc
  | .record _, .plain _, _, _, _, hc, _, _, _, _ => False.elim hc
  | .array m t, .array m' d, n, v, bs, hc, hr, hn, hl, he => by
    obtain ⟨t', ht, hc⟩ := hc
    cases ht
    obtain ⟨k, hk, rfl⟩ := exact_array hn
    have he : (exactBytes d).bind (fun k => decodeMany (decode t d) k m bs) = some v := he
    rw [hk, Option.bind_some] at he
    exact decodeMany_encodeAll_back (fun b x hb hx => decode_encode t d k x b hc hr hk hb hx) m bs v hl he
  | .record fs, .record dfs, n, v, bs, hc, hr, hn, hl, he => by
    obtain ⟨fs', ht, hc⟩ := hc
    cases ht
    exact fields_decode_encode fs dfs n v bs hc hr hn hl he
  | .record _, .array _ _, _, _, _, hc, _, _, _, _ => by obtain ⟨_, h, _⟩ := hc; cases h
  | .array _ _, .record _, _, _, _, hc, _, _, _, _ => by obtain ⟨_, h, _⟩ := hc; cases h
  | .num _, .array _ _, _, _, _, hc, _, _, _, _ => by obtain ⟨_, h, _⟩ := hc; cases h
  | .bool, .array _ _, _, _, _, hc, _, _, _, _ => by obtain ⟨_, h, _⟩ := hc; cases h
  | .complex _, .array _ _, _, _, _, hc, _, _, _, _ => by obtain ⟨_, h, _⟩ := hc; cases h
  | .vecU8, .array _ _, _, _, _, hc, _, _, _, _ => by obtain ⟨_, h, _⟩ := hc; cases h
  | .arrayVecU8 _, .array _ _, _, _, _, hc, _, _, _, _ => by obtain ⟨_, h, _⟩ := hc; cases h
  | .fixedBytes _, .array _ _, _, _, _, hc, _, _, _, _ => by obtain ⟨_, h, _⟩ := hc; cases h
  | .vecU32, .array _ _, _, _, _, hc, _, _, _, _ => by obtain ⟨_, h, _⟩ := hc; cases h
  | .vecChar, .array _ _, _, _, _, hc, _, _, _, _ => by obtain ⟨_, h, _⟩ := hc; cases h
  | .string, .array _ _, _, _, _, hc, _, _, _, _ => by obtain ⟨_, h, _⟩ := hc; cases h
  | .arrayVecU32 _, .array _ _, _, _, _, hc, _, _, _, _ => by obtain ⟨_, h, _⟩ := hc; cases h
  | .arrayVecChar _, .array _ _, _, _, _, hc, _, _, _, _ => by obtain ⟨_, h, _⟩ := hc; cases h
  | .arrayString _, .array _ _, _, _, _, hc, _, _, _, _ => by obtain ⟨_, h, _⟩ := hc; cases h
  | .num _, .record _, _, _, _, hc, _, _, _, _ => by obtain ⟨_, h, _⟩ := hc; cases h
  | .bool, .record _, _, _, _, hc, _, _, _, _ => by obtain ⟨_, h, _⟩ := hc; cases h
  | .complex _, .record _, _, _, _, hc, _, _, _, _ => by obtain ⟨_, h, _⟩ := hc; cases h
  | .vecU8, .record _, _, _, _, hc, _, _, _, _ => by obtain ⟨_, h, _⟩ := hc; cases h
  | .arrayVecU8 _, .record _, _, _, _, hc, _, _, _, _ => by obtain ⟨_, h, _⟩ := hc; cases h
  | .fixedBytes _, .record _, _, _, _, hc, _, _, _, _ => by obtain ⟨_, h, _⟩ := hc; cases h
  | .vecU32, .record _, _, _, _, hc, _, _, _, _ => by obtain ⟨_, h, _⟩ := hc; cases h
  | .vecChar, .record _, _, _, _, hc, _, _, _, _ => by obtain ⟨_, h, _⟩ := hc; cases h
  | .string, .record _, _, _, _, hc, _, _, _, _ => by obtain ⟨_, h, _⟩ := hc; cases h
  | .arrayVecU32 _, .record _, _, _, _, hc, _, _, _, _ => by obtain ⟨_, h, _⟩ := hc; cases h
  | .arrayVecChar _, .record _, _, _, _, hc, _, _, _, _ => by obtain ⟨_, h, _⟩ := hc; cases h
  | .arrayString _, .record _, _, _, _, hc, _, _, _, _ => by obtain ⟨_, h, _⟩ := hc; cases h
theorem fields_decode_encode : (fs : TFields) → (dfs : Fields) → (n : Nat) → (v : fs.Val) → (bs : Bytes) →
    CanReadFields fs dfs → RoomyFields fs dfs → exactFieldBytes dfs = some n → bs.length = n → decodeFields fs dfs bs = some v →
    encodeFields fs dfs v = some bs
  | .nil, .nil, n, v, bs, _, _, hn, hl, _ => by
    have hn : some 0 = some n := hn
    cases hn
    rw [List.eq_nil_of_length_eq_zero hl]
    rfl
  | .nil, .cons _ _ _, _, _, _, hc, _, _, _, _ => by obtain ⟨_, _, h, _⟩ := hc; cases h
  | .cons _ _ _, .nil, _, _, _, hc, _, _, _, _ => by cases hc
  | .cons name t rest, .cons name' d dfs, n, v, bs, hc, hr, hn, hl, he => by
    obtain ⟨t', rest', h, hc, hcs⟩ := hc
    cases h
    obtain ⟨a, b, ha, hb, rfl⟩ := exact_cons hn
    have he : (exactBytes d).bind (fun k => decodePair k (decode t d) (decodeFields rest dfs) bs) = some v := he
    rw [ha, Option.bind_some] at he
    unfold decodePair at he
    cases h1 : decode t d (bs.take a) with
    | none => rw [h1] at he; cases he
    | some x =>
      cases h2 : decodeFields rest dfs (bs.drop a) with
      | none => rw [h1, h2] at he; cases he
      | some y =>
        rw [h1, h2] at he
        cases he
        have e1 := decode_encode t d a x (bs.take a) hc hr.1 ha (by rw [List.length_take]; omega) h1
        have e2 := fields_decode_encode rest dfs b y (bs.drop a) hcs hr.2 hb (by rw [List.length_drop]; omega) h2
        show both (encode t d x) (encodeFields rest dfs y) = some bs
        rw [e1, e2]
        show some (bs.take a ++ bs.drop a) = some bs
        rw [List.take_append_drop]
end

end Npyz
