import Verif.Model.Utf8
namespace Npyz

theorem charOfNat?_eq_some {v : Nat} {c : Char} : charOfNat? v = some c ↔ c.toNat = v := by
  unfold charOfNat?
  split
  · rename_i h
    simp only [Option.some.injEq]
    constructor
    · rintro rfl; rfl
    · rintro rfl
      rfl
  · rename_i h
    simp only [reduceCtorEq, false_iff]
    rintro rfl
    exact h c.valid

theorem charOfNat?_toNat (c : Char) : charOfNat? c.toNat = some c := charOfNat?_eq_some.mpr rfl

theorem char_toNat_lt (c : Char) : c.toNat < 0x110000 := by
  have := c.valid
  rcases this with h | h
  · show c.val.toNat < _
    exact Nat.lt_trans h (by decide)
  · exact h.2

theorem toNat_ofNat_lt {n : Nat} (h : n < 256) : (UInt8.ofNat n).toNat = n := by
  simp [UInt8.toNat_ofNat', Nat.mod_eq_of_lt h]

theorem contByte_ofNat {n : Nat} (h : n < 64) : contByte (UInt8.ofNat (n + 0x80)) = some n := by
  unfold contByte
  rw [toNat_ofNat_lt (by omega)]
  rw [if_pos (by omega)]
  simp

theorem contByte_eq_some {b : UInt8} {y : Nat} (h : contByte b = some y) :
    y < 64 ∧ b = UInt8.ofNat (y + 0x80) := by
  unfold contByte at h
  split at h
  · simp only [Option.some.injEq] at h
    refine ⟨by omega, ?_⟩
    apply UInt8.toNat_inj.mp
    rw [toNat_ofNat_lt (by omega)]
    omega
  · simp at h

theorem utf8EncodeChar_def (c : Char) : String.utf8EncodeChar c =
    if c.toNat ≤ 0x7f then [UInt8.ofNat c.toNat]
    else if c.toNat ≤ 0x7ff then
      [UInt8.ofNat (c.toNat / 64 % 0x20 + 0xc0), UInt8.ofNat (c.toNat % 0x40 + 0x80)]
    else if c.toNat ≤ 0xffff then
      [UInt8.ofNat (c.toNat / 4096 % 0x10 + 0xe0), UInt8.ofNat (c.toNat / 64 % 0x40 + 0x80),
       UInt8.ofNat (c.toNat % 0x40 + 0x80)]
    else
      [UInt8.ofNat (c.toNat / 262144 % 0x08 + 0xf0), UInt8.ofNat (c.toNat / 4096 % 0x40 + 0x80),
       UInt8.ofNat (c.toNat / 64 % 0x40 + 0x80), UInt8.ofNat (c.toNat % 0x40 + 0x80)] := rfl

theorem decodeScalar_toNat {lo : Nat} {c : Char} (h : lo ≤ c.toNat) :
    decodeScalar lo c.toNat = some c := by
  simp [decodeScalar, h, charOfNat?_toNat]

theorem decodeScalar_eq_some {lo v : Nat} {c : Char} : decodeScalar lo v = some c ↔ lo ≤ v ∧ c.toNat = v := by
  unfold decodeScalar
  split
  · simp_all [charOfNat?_eq_some]
  · simp; omega

theorem decodeChar_encode (c : Char) (rest : Bytes) :
    decodeChar (String.utf8EncodeChar c ++ rest) = some (c, (String.utf8EncodeChar c).length) := by
  have hlt := char_toNat_lt c
  rw [utf8EncodeChar_def]
  split
  · rename_i h
    simp only [List.cons_append, List.nil_append, decodeChar, toNat_ofNat_lt (show c.toNat < 256 by omega)]
    rw [if_pos (by omega), decodeScalar_toNat (by omega)]; rfl
  · split
    · rename_i h1 h2
      simp only [List.cons_append, List.nil_append, decodeChar,
        toNat_ofNat_lt (show c.toNat / 64 % 0x20 + 0xc0 < 256 by omega)]
      rw [if_neg (by omega), if_neg (by omega), if_pos (by omega),
        contByte_ofNat (by omega)]
      have : (c.toNat / 64 % 32 + 192 - 192) * 64 + c.toNat % 64 = c.toNat := by omega
      simp only [Option.bind_eq_bind, Option.bind_some, this]
      rw [decodeScalar_toNat (by omega)]; rfl
    · split
      · rename_i h1 h2 h3
        simp only [List.cons_append, List.nil_append, decodeChar,
          toNat_ofNat_lt (show c.toNat / 4096 % 0x10 + 0xe0 < 256 by omega)]
        rw [if_neg (by omega), if_neg (by omega), if_neg (by omega), if_pos (by omega),
          contByte_ofNat (by omega), contByte_ofNat (by omega)]
        have : (c.toNat / 4096 % 16 + 224 - 224) * 4096 + c.toNat / 64 % 64 * 64 + c.toNat % 64 = c.toNat := by omega
        simp only [Option.bind_eq_bind, Option.bind_some, this]
        rw [decodeScalar_toNat (by omega)]; rfl
      · rename_i h1 h2 h3
        simp only [List.cons_append, List.nil_append, decodeChar,
          toNat_ofNat_lt (show c.toNat / 262144 % 0x08 + 0xf0 < 256 by omega)]
        rw [if_neg (by omega), if_neg (by omega), if_neg (by omega), if_neg (by omega), if_pos (by omega),
          contByte_ofNat (by omega), contByte_ofNat (by omega), contByte_ofNat (by omega)]
        have : (c.toNat / 262144 % 8 + 240 - 240) * 262144 + c.toNat / 4096 % 64 * 4096 + c.toNat / 64 % 64 * 64 + c.toNat % 64 = c.toNat := by omega
        simp only [Option.bind_eq_bind, Option.bind_some, this]
        rw [decodeScalar_toNat (by omega)]; rfl

theorem uint8_eq {b : UInt8} {n : Nat} (h : b.toNat = n) : b = UInt8.ofNat n := by
  rw [← h]; simp

theorem encode_decodeChar {bs : Bytes} {c : Char} {n : Nat} (h : decodeChar bs = some (c, n)) :
    bs = String.utf8EncodeChar c ++ bs.drop n ∧ n = (String.utf8EncodeChar c).length := by
  unfold decodeChar at h
  split at h
  · simp at h
  · rename_i b0 r
    have hb0 : b0.toNat < 256 := b0.toNat_lt
    split at h
    · simp only [Option.map_eq_some_iff, Prod.mk.injEq] at h
      obtain ⟨c', hc, rfl, rfl⟩ := h
      rw [decodeScalar_eq_some] at hc
      rw [utf8EncodeChar_def, if_pos (by omega)]
      simp [hc.2]
    · split at h
      · simp at h
      · split at h
        · split at h
          · rename_i b1 r'
            simp only [Option.bind_eq_bind, Option.bind_eq_some_iff, Option.some.injEq, Prod.mk.injEq] at h
            obtain ⟨y1, hy1, c', hc, rfl, rfl⟩ := h
            obtain ⟨hy, rfl⟩ := contByte_eq_some hy1
            rw [decodeScalar_eq_some] at hc
            rw [utf8EncodeChar_def, if_neg (by omega), if_pos (by omega)]
            refine ⟨?_, rfl⟩
            simp only [List.cons_append, List.nil_append, List.drop_succ_cons, List.drop_zero]
            have e0 : b0 = UInt8.ofNat (c'.toNat / 64 % 32 + 192) := uint8_eq (by omega)
            have e1 : y1 = c'.toNat % 64 := by omega
            rw [← e0, ← e1]
          · simp at h
        · split at h
          · split at h
            · rename_i b1 b2 r'
              simp only [Option.bind_eq_bind, Option.bind_eq_some_iff, Option.some.injEq, Prod.mk.injEq] at h
              obtain ⟨y1, hy1, y2, hy2, c', hc, rfl, rfl⟩ := h
              obtain ⟨hy, rfl⟩ := contByte_eq_some hy1
              obtain ⟨hy', rfl⟩ := contByte_eq_some hy2
              rw [decodeScalar_eq_some] at hc
              rw [utf8EncodeChar_def, if_neg (by omega), if_neg (by omega), if_pos (by omega)]
              refine ⟨?_, rfl⟩
              simp only [List.cons_append, List.nil_append, List.drop_succ_cons, List.drop_zero]
              have e0 : b0 = UInt8.ofNat (c'.toNat / 4096 % 16 + 224) := uint8_eq (by omega)
              have e1 : y1 = c'.toNat / 64 % 64 := by omega
              have e2 : y2 = c'.toNat % 64 := by omega
              rw [← e0, ← e1, ← e2]
            · simp at h
          · split at h
            · split at h
              · rename_i b1 b2 b3 r'
                simp only [Option.bind_eq_bind, Option.bind_eq_some_iff, Option.some.injEq, Prod.mk.injEq] at h
                obtain ⟨y1, hy1, y2, hy2, y3, hy3, c', hc, rfl, rfl⟩ := h
                obtain ⟨hy, rfl⟩ := contByte_eq_some hy1
                obtain ⟨hy', rfl⟩ := contByte_eq_some hy2
                obtain ⟨hy'', rfl⟩ := contByte_eq_some hy3
                rw [decodeScalar_eq_some] at hc
                have := char_toNat_lt c'
                rw [utf8EncodeChar_def, if_neg (by omega), if_neg (by omega), if_neg (by omega)]
                refine ⟨?_, rfl⟩
                simp only [List.cons_append, List.nil_append, List.drop_succ_cons, List.drop_zero]
                have e0 : b0 = UInt8.ofNat (c'.toNat / 262144 % 8 + 240) := uint8_eq (by omega)
                have e1 : y1 = c'.toNat / 4096 % 64 := by omega
                have e2 : y2 = c'.toNat / 64 % 64 := by omega
                have e3 : y3 = c'.toNat % 64 := by omega
                rw [← e0, ← e1, ← e2, ← e3]
              · simp at h
            · simp at h

theorem utf8EncodeChar_length_pos (c : Char) : 0 < (String.utf8EncodeChar c).length := by
  simp [Char.utf8Size_pos]

theorem encodeUtf8_cons (c : Char) (t : Text) :
    encodeUtf8 (c :: t) = String.utf8EncodeChar c ++ encodeUtf8 t := by simp [encodeUtf8]

@[simp] theorem encodeUtf8_nil : encodeUtf8 [] = [] := rfl

@[simp] theorem encodeUtf8_append (s t : Text) : encodeUtf8 (s ++ t) = encodeUtf8 s ++ encodeUtf8 t := by
  simp [encodeUtf8]

theorem decodeUtf8Go_encode (t : Text) (fuel : Nat) (h : (encodeUtf8 t).length ≤ fuel) :
    decodeUtf8Go fuel (encodeUtf8 t) = some t := by
  induction t generalizing fuel with
  | nil => cases fuel <;> rfl
  | cons c t ih =>
    rw [encodeUtf8_cons] at h ⊢
    have hp := utf8EncodeChar_length_pos c
    cases hl : String.utf8EncodeChar c ++ encodeUtf8 t with
    | nil => simp at hl
    | cons b bs =>
      cases fuel with
      | zero => rw [List.length_append] at h; omega
      | succ fuel =>
        simp only [decodeUtf8Go]
        rw [← hl, decodeChar_encode]
        simp only [Option.bind_eq_bind, Option.bind_some, List.drop_left]
        rw [ih]
        · rfl
        · rw [List.length_append] at h; omega

theorem encode_decodeUtf8Go (fuel : Nat) (bs : Bytes) (t : Text) (h : decodeUtf8Go fuel bs = some t) :
    bs = encodeUtf8 t := by
  induction fuel generalizing bs t with
  | zero =>
    cases bs with
    | nil => simp [decodeUtf8Go] at h; subst h; rfl
    | cons b bs => simp [decodeUtf8Go] at h
  | succ fuel ih =>
    cases bs with
    | nil => simp [decodeUtf8Go] at h; subst h; rfl
    | cons b bs =>
      simp only [decodeUtf8Go, Option.bind_eq_bind, Option.bind_eq_some_iff] at h
      obtain ⟨⟨c, n⟩, hc, rest, hr, he⟩ := h
      simp only [Option.some.injEq] at he
      subst he
      have := encode_decodeChar hc
      rw [encodeUtf8_cons, ← ih _ _ hr]
      exact this.1

/-- The decoder accepts exactly the UTF-8 encodings of character sequences. -/
theorem decodeUtf8_eq_some_iff (bs : Bytes) (t : Text) : decodeUtf8 bs = some t ↔ bs = encodeUtf8 t := by
  constructor
  · exact encode_decodeUtf8Go _ _ _
  · rintro rfl
    exact decodeUtf8Go_encode _ _ (Nat.le_refl _)

theorem decodeUtf8_encode (t : Text) : decodeUtf8 (encodeUtf8 t) = some t :=
  (decodeUtf8_eq_some_iff _ _).mpr rfl

theorem encodeUtf8_injective {s t : Text} (h : encodeUtf8 s = encodeUtf8 t) : s = t := by
  have := decodeUtf8_encode s
  rw [h, decodeUtf8_encode] at this
  simpa using this.symm

end Npyz
