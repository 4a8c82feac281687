import Verif.Proofs.CodecAccept
/-!
Decoding the bytes of a value gives the value back, up to trailing NULs of strings.
-/
namespace Npyz
open Spec

theorem both_eq_some {a b : Option Bytes} {c : Bytes} : both a b = some c ↔ ∃ x y, a = some x ∧ b = some y ∧ x ++ y = c := by
  cases a <;> cases b <;> simp [both]

theorem decodeMany_encodeAll {α β : Type} {f : α → Option Bytes} {g : Bytes → Option β} {h : α → β} {k : Nat} :
    ∀ {l : List α} {bs rest : Bytes}, (∀ x ∈ l, ∀ b, f x = some b → b.length = k ∧ g b = some (h x)) →
    encodeAll f l = some bs →
    bs.length = l.length * k ∧ decodeMany g k l.length (bs ++ rest) = some ⟨l.map h, by simp⟩
  | [], bs, rest, _, he => by
    cases he
    exact ⟨by simp, rfl⟩
  | x :: xs, bs, rest, hx, he => by
    simp only [encodeAll, both_eq_some] at he
    obtain ⟨a, b, ha, hb, rfl⟩ := he
    obtain ⟨h1, h2⟩ := hx x (by simp) a ha
    obtain ⟨h3, h4⟩ := decodeMany_encodeAll (rest := rest) (fun y hy => hx y (by simp [hy])) hb
    refine ⟨by simp [h1, h3, Nat.add_mul]; omega, ?_⟩
    simp only [List.length_cons, decodeMany, List.append_assoc]
    rw [List.take_left' h1, List.drop_left' h1, h2, h4]
    rfl

theorem decodeMany_flatMap {α β : Type} {e : α → Bytes} {g : Bytes → Option β} {h : α → β} {k n : Nat} {l : List α}
    (hl : l.length = n) (hx : ∀ x ∈ l, (e x).length = k ∧ g (e x) = some (h x)) :
    (l.flatMap e).length = n * k ∧ decodeMany g k n (l.flatMap e) = some ⟨l.map h, by simp [hl]⟩ := by
  subst hl
  have he : encodeAll (fun x => some (e x)) l = some (l.flatMap e) := by
    clear hx
    induction l with
    | nil => rfl
    | cons x xs ih => simp [encodeAll, ih, both]
  have := decodeMany_encodeAll (h := h) (g := g) (k := k) (rest := []) (by
    intro x hm b hb
    cases hb
    exact hx x hm) he
  simpa using this

theorem decodeUnit_word {e : Endianness} {x : Nat} (h : x < 0x110000) :
    decodeUnit e (wordBytes e 4 x) = some (BitVec.ofNat _ x) := by
  have : wordValue e (wordBytes e 4 x) = x := wordValue_wordBytes (by omega)
  simp only [decodeUnit, this, if_pos h]

theorem decodeChar_word {e : Endianness} (c : Char) : Spec.decodeChar e (wordBytes e 4 c.toNat) = some c := by
  have := char_toNat_lt c
  rw [Spec.decodeChar, wordValue_wordBytes (by omega), charOfNat?_toNat]

theorem units_round {s : TypeStr} {l : List (Word 4)} {bs : Bytes} (h : encodeUnits s l = some bs) :
    bs.length = s.size * 4 ∧ ∃ k, decodeMany (decodeUnit s.endianness) 4 s.size bs = some k ∧
      k.1 = l ++ List.replicate (s.size - l.length) 0 := by
  simp only [encodeUnits] at h
  split at h
  · rename_i hl
    simp only [padUnits, List.length_map] at h
    split at h
    · rename_i hs
      cases h
      obtain ⟨h1, h2⟩ := decodeMany_flatMap (e := wordBytes s.endianness 4) (g := decodeUnit s.endianness)
        (h := fun x => (BitVec.ofNat _ x : Word 4)) (k := 4) (n := s.size)
        (l := l.map (·.toNat) ++ List.replicate (s.size - l.length) 0)
        (by simp; omega) (by
          intro x hx
          refine ⟨by simp, decodeUnit_word ?_⟩
          simp only [List.mem_append, List.mem_map, List.mem_replicate] at hx
          rcases hx with ⟨y, hy, rfl⟩ | ⟨_, rfl⟩
          · exact hl y hy
          · omega)
      refine ⟨h1, _, h2, ?_⟩
      simp only [List.map_append, List.map_map, List.map_replicate]
      congr 1
      have : ((fun x => (BitVec.ofNat (8 * 4) x : Word 4)) ∘ fun x : Word 4 => x.toNat) = id := by
        funext x
        exact BitVec.eq_of_toNat_eq (by simp)
      rw [this, List.map_id]
    · cases h
  · cases h

theorem chars_round {s : TypeStr} {l : Text} {bs : Bytes} (h : encodeChars s l = some bs) :
    bs.length = s.size * 4 ∧ ∃ k, decodeMany (Spec.decodeChar s.endianness) 4 s.size bs = some k ∧
      k.1 = l ++ List.replicate (s.size - l.length) '\x00' := by
  simp only [encodeChars, padUnits, List.length_map] at h
  split at h
  · rename_i hs
    cases h
    have hl : l.map (·.toNat) ++ List.replicate (s.size - l.length) 0 =
        (l ++ List.replicate (s.size - l.length) '\x00').map (·.toNat) := by simp
    rw [hl, List.flatMap_map]
    obtain ⟨h1, h2⟩ := decodeMany_flatMap (e := fun c : Char => wordBytes s.endianness 4 c.toNat)
      (g := Spec.decodeChar s.endianness) (h := id) (k := 4) (n := s.size)
      (l := l ++ List.replicate (s.size - l.length) '\x00')
      (by simp; omega) (by
        intro x hx
        exact ⟨by simp, decodeChar_word x⟩)
    refine ⟨h1, _, h2, by simp⟩
  · cases h

theorem bytes_round {s : TypeStr} {v bs : Bytes} (h : encodeBytes s v = some bs) :
    bs.length = s.size ∧
      (if s.typeChar = .byteStr then bs = v ++ List.replicate (s.size - v.length) 0 else bs = v) := by
  simp only [encodeBytes, padBytes] at h
  by_cases hc : s.typeChar = .byteStr
  · simp only [hc, if_true] at h ⊢
    split at h
    · cases h; simp; omega
    · cases h
  · simp only [hc, if_false] at h ⊢
    split at h
    · cases h; simp_all
    · cases h

theorem trimEnd_replicate {α : Type} {p : α → Bool} {z : α} (hz : p z = true) (l : List α) (n : Nat) :
    trimEnd p (l ++ List.replicate n z) = trimEnd p l :=
  trimEnd_append_zeros fun x hx => by rw [(List.mem_replicate.mp hx).2]; exact hz

theorem trimEnd_take_replicate {α : Type} {p : α → Bool} {z : α} (hz : p z = true) {l : List α} {n cap : Nat} (hl : l.length ≤ cap) :
    trimEnd p ((l ++ List.replicate n z).take cap) = trimEnd p l := by
  rw [List.take_append, List.take_of_length_le hl, List.take_replicate, trimEnd_replicate hz]

theorem encodeUtf8_zeros (t : Text) (h : ∀ c ∈ t, (c == '\x00') = true) : ∀ b ∈ encodeUtf8 t, (b == 0) = true := by
  induction t with
  | nil => simp
  | cons c cs ih =>
    rw [encodeUtf8_cons]
    have hc : c = '\x00' := by simpa using h c (by simp)
    subst hc
    intro b hb
    rcases List.mem_append.mp hb with hb | hb
    · have : String.utf8EncodeChar '\x00' = [0] := by decide
      rw [this] at hb
      simp_all
    · exact ih (fun c hc => h c (by simp [hc])) b hb

theorem utf8_last_ne {c : Char} (h : (c == '\x00') = false) :
    ∃ l b, String.utf8EncodeChar c = l ++ [b] ∧ (b == 0) = false := by
  have hlt := char_toNat_lt c
  have hc : c.toNat ≠ 0 := by
    intro h0
    have : c = '\x00' := Char.toNat_inj.mp h0
    simp [this] at h
  have key : ∀ n : Nat, 0 < n → n < 256 → ((UInt8.ofNat n) == 0) = false := by
    intro n h1 h2
    rw [beq_eq_false_iff_ne]
    intro h
    have := congrArg UInt8.toNat h
    rw [toNat_ofNat_lt h2] at this
    simp at this
    omega
  rw [utf8EncodeChar_def]
  split
  · exact ⟨[], _, rfl, key _ (by omega) (by omega)⟩
  · split
    · exact ⟨[_], _, rfl, key _ (by omega) (by omega)⟩
    · split
      · exact ⟨[_, _], _, rfl, key _ (by omega) (by omega)⟩
      · exact ⟨[_, _, _], _, rfl, key _ (by omega) (by omega)⟩

/-- Trailing NUL characters are exactly trailing NUL bytes. -/
theorem trimEnd_encodeUtf8 (t : Text) : trimEnd (· == 0) (encodeUtf8 t) = encodeUtf8 (trimEnd (· == '\x00') t) := by
  obtain ⟨z, hz, ht | ⟨k, x, hx, rfl⟩⟩ := split_zeros (· == '\x00') t
  · subst ht
    have h1 := trimEnd_append_zeros (l := []) hz
    have h2 := trimEnd_append_zeros (l := []) (encodeUtf8_zeros t hz)
    simp only [List.nil_append] at h1 h2
    rw [h1, h2]
    rfl
  · rw [trimEnd_append_zeros hz, trimEnd_concat (p := (· == '\x00')) hx, encodeUtf8_append, encodeUtf8_append]
    rw [trimEnd_append_zeros (encodeUtf8_zeros z hz)]
    obtain ⟨l, b, hl, hb⟩ := utf8_last_ne hx
    have : encodeUtf8 [x] = l ++ [b] := by rw [encodeUtf8_cons, hl]; simp
    rw [this, ← List.append_assoc, trimEnd_concat (p := (· == 0)) hb]

theorem text_round {s : TypeStr} {l : Text} {bs : Bytes} (h : padBytes s.size (encodeUtf8 l) = some bs) :
    bs.length = s.size ∧ decodeUtf8Item bs = some (trimEnd (· == '\x00') l) := by
  simp only [padBytes] at h
  split at h
  · cases h
    refine ⟨by simp; omega, ?_⟩
    rw [decodeUtf8Item, trimEnd_replicate (by rfl), trimEnd_encodeUtf8, decodeUtf8_encode]
  · cases h

theorem numSize {p : Prim} {c : TypeChar} {n : Nat} (h : numAccepts p c n) : n = p.size ∧ c ≠ .unicodeStr := by
  rw [numAccepts_iff] at h
  refine ⟨h.2, ?_⟩
  rcases prim_kind h.1 with h | h | h | h | h <;> simp [h]

mutual
theorem encode_decode : (t : Ty) → (d : DType) → (n : Nat) → (v : t.Val) → (bs : Bytes) → CanRead t d →
    exactBytes d = some n → encode t d v = some bs → bs.length = n ∧ decode t d bs = some (readBack t d v)
  | .num p, .plain s, n, v, bs, hc, hn, he => by
    revert v
    intro (v : Word p.size) he
    have hs := numSize hc
    have he : some (wordBytes s.endianness p.size v.toNat) = some bs := he
    cases he
    refine ⟨by rw [exact_other hn hs.2, hs.1]; simp, ?_⟩
    show some (BitVec.ofNat (8 * p.size) (wordValue s.endianness (wordBytes s.endianness p.size v.toNat))) = some v
    rw [wordValue_wordBytes (word_lt v)]
    simp
  | .bool, .plain s, n, v, bs, hc, hn, he => by
    revert v
    intro (v : Bool) he
    have hc : s.typeChar = .bool ∧ s.size = 1 := hc
    have he : some [boolByte v] = some bs := he
    cases he
    refine ⟨by rw [exact_other hn (by simp [hc.1]), hc.2]; rfl, ?_⟩
    cases v <;> rfl
  | .complex f, .plain s, n, v, bs, hc, hn, he => by
    revert v
    intro (v : Word f.size × Word f.size) he
    have hc := (complexAccepts_iff f s.typeChar s.size).mp hc
    have he : some (wordBytes s.endianness f.size v.1.toNat ++ wordBytes s.endianness f.size v.2.toNat) = some bs := he
    cases he
    refine ⟨by rw [exact_other hn (by simp [hc.1]), hc.2]; simp; omega, ?_⟩
    show some (BitVec.ofNat (8 * f.size) (wordValue s.endianness (List.take f.size (wordBytes s.endianness f.size v.1.toNat ++ _))),
      BitVec.ofNat (8 * f.size) (wordValue s.endianness (List.drop f.size (wordBytes s.endianness f.size v.1.toNat ++ _)))) = some v
    rw [List.take_left' (by simp), List.drop_left' (by simp), wordValue_wordBytes (word_lt v.1), wordValue_wordBytes (word_lt v.2)]
    simp
  | .vecU8, .plain s, n, v, bs, hc, hn, he => by
    revert v
    intro (v : Bytes) he
    have hc : s.typeChar = .rawData ∨ s.typeChar = .byteStr := hc
    obtain ⟨h1, h2⟩ := bytes_round (s := s) (v := v) he
    refine ⟨by rw [exact_other hn (by rcases hc with h | h <;> simp [h]), h1], ?_⟩
    show some (if s.typeChar = .byteStr then trimEnd (· == 0) bs else bs) =
      some (if s.typeChar = .byteStr then trimEnd (· == 0) v else v)
    by_cases hb : s.typeChar = .byteStr
    · rw [if_pos hb] at h2
      rw [if_pos hb, if_pos hb, h2, trimEnd_replicate (by rfl)]
    · rw [if_neg hb] at h2
      rw [if_neg hb, if_neg hb, h2]
  | .arrayVecU8 cap, .plain s, n, v, bs, hc, hn, he => by
    revert v
    intro (v : { l : Bytes // l.length ≤ cap }) he
    have hc : (s.typeChar = .rawData ∧ s.size ≤ cap) ∨ s.typeChar = .byteStr := hc
    obtain ⟨h1, h2⟩ := bytes_round (s := s) (v := v.1) he
    refine ⟨by rw [exact_other hn (by rcases hc with h | h <;> simp [h]), h1], ?_⟩
    show some (arrayVecBytes cap s bs) = some (arrayVecBytes cap s v.1)
    congr 1
    by_cases hb : s.typeChar = .byteStr
    · rw [if_pos hb] at h2
      apply Subtype.ext
      rw [arrayVecBytes, if_pos hb, arrayVecBytes, if_pos hb, h2]
      show trimEnd _ _ = trimEnd _ _
      rw [trimEnd_take_replicate (by rfl) v.2, List.take_of_length_le v.2]
    · rw [if_neg hb] at h2
      rw [h2]
  | .fixedBytes k, .plain s, n, v, bs, hc, hn, he => by
    revert v
    intro (v : { l : Bytes // l.length = k }) he
    have hc : s.typeChar = .rawData ∧ s.size = k := hc
    have he : some v.1 = some bs := he
    cases he
    refine ⟨by rw [exact_other hn (by simp [hc.1]), hc.2, v.2], ?_⟩
    show (if h : v.1.length = k then some (⟨v.1, h⟩ : { l : Bytes // l.length = k }) else none) = some v
    rw [dif_pos v.2]
  | .vecU32, .plain s, n, v, bs, hc, hn, he => by
    revert v
    intro (v : List (Word 4)) he
    obtain ⟨h1, k, h2, h3⟩ := units_round (s := s) (l := v) he
    refine ⟨by rw [exact_unicode hn hc, h1], ?_⟩
    show (decodeMany (decodeUnit s.endianness) 4 s.size bs).map (fun l => trimEnd (· == 0) l.1) = some (trimEnd (· == 0) v)
    rw [h2, Option.map_some, h3, trimEnd_replicate (by rfl)]
  | .vecChar, .plain s, n, v, bs, hc, hn, he => by
    revert v
    intro (v : Text) he
    obtain ⟨h1, k, h2, h3⟩ := chars_round (s := s) (l := v) he
    refine ⟨by rw [exact_unicode hn hc, h1], ?_⟩
    show (decodeMany (Spec.decodeChar s.endianness) 4 s.size bs).map (fun l => trimEnd (· == '\x00') l.1) = some (trimEnd (· == '\x00') v)
    rw [h2, Option.map_some, h3, trimEnd_replicate (by rfl)]
  | .string, .plain s, n, v, bs, hc, hn, he => by
    revert v
    intro (v : Text) he
    have hc : s.typeChar = .byteStr ∨ s.typeChar = .unicodeStr := hc
    have he : encodeText s v = some bs := he
    by_cases hu : s.typeChar = .unicodeStr
    · rw [encodeText, if_pos hu] at he
      obtain ⟨h1, k, h2, h3⟩ := chars_round (s := s) (l := v) he
      refine ⟨by rw [exact_unicode hn hu, h1], ?_⟩
      show (if s.typeChar = .unicodeStr then
        (decodeMany (Spec.decodeChar s.endianness) 4 s.size bs).map (fun l => trimEnd (· == '\x00') l.1)
        else decodeUtf8Item bs) = some (trimEnd (· == '\x00') v)
      rw [if_pos hu, h2, Option.map_some, h3, trimEnd_replicate (by rfl)]
    · rw [encodeText, if_neg hu] at he
      obtain ⟨h1, h2⟩ := text_round (s := s) (l := v) he
      refine ⟨by rw [exact_other hn hu, h1], ?_⟩
      show (if s.typeChar = .unicodeStr then
        (decodeMany (Spec.decodeChar s.endianness) 4 s.size bs).map (fun l => trimEnd (· == '\x00') l.1)
        else decodeUtf8Item bs) = some (trimEnd (· == '\x00') v)
      rw [if_neg hu, h2]
  | .arrayVecU32 cap, .plain s, n, v, bs, hc, hn, he => by
    revert v
    intro (v : { l : List (Word 4) // l.length ≤ cap }) he
    obtain ⟨h1, k, h2, h3⟩ := units_round (s := s) (l := v.1) he
    refine ⟨by rw [exact_unicode hn hc, h1], ?_⟩
    show (decodeMany (decodeUnit s.endianness) 4 s.size bs).map (fun l =>
      (⟨trimEnd (· == 0) (l.1.take cap), trimEnd_take_le _ _ _⟩ : { l : List (Word 4) // l.length ≤ cap })) = some _
    rw [h2, Option.map_some]
    congr 1
    apply Subtype.ext
    show trimEnd _ (k.1.take cap) = trimEnd _ v.1
    rw [h3, trimEnd_take_replicate (by rfl) v.2]
  | .arrayVecChar cap, .plain s, n, v, bs, hc, hn, he => by
    revert v
    intro (v : { l : Text // l.length ≤ cap }) he
    obtain ⟨h1, k, h2, h3⟩ := chars_round (s := s) (l := v.1) he
    refine ⟨by rw [exact_unicode hn hc, h1], ?_⟩
    show (decodeMany (Spec.decodeChar s.endianness) 4 s.size bs).map (fun l =>
      (⟨trimEnd (· == '\x00') (l.1.take cap), trimEnd_take_le _ _ _⟩ : { l : Text // l.length ≤ cap })) = some _
    rw [h2, Option.map_some]
    congr 1
    apply Subtype.ext
    show trimEnd _ (k.1.take cap) = trimEnd _ v.1
    rw [h3, trimEnd_take_replicate (by rfl) v.2]
  | .arrayString cap, .plain s, n, v, bs, hc, hn, he => by
    revert v
    intro (v : { l : Text // (encodeUtf8 l).length ≤ cap }) he
    have hc : s.typeChar = .byteStr := hc
    have hu : s.typeChar ≠ .unicodeStr := by simp [hc]
    have he : encodeText s v.1 = some bs := he
    rw [encodeText, if_neg hu] at he
    obtain ⟨h1, h2⟩ := text_round (s := s) (l := v.1) he
    refine ⟨by rw [exact_other hn hu, h1], ?_⟩
    show (decodeUtf8Item bs).map (fun l => (⟨fitPrefix cap l, encode_fitPrefix_le _ _⟩ : { l : Text // (encodeUtf8 l).length ≤ cap })) = some _
    rw [h2, Option.map_some]
    congr 1
    apply Subtype.ext
    show fitPrefix cap (trimEnd _ v.1) = trimEnd _ v.1
    exact fitPrefix_of_le (Nat.le_trans (encode_trimEnd_le _ _) v.2)
  | .array m t, .plain _, _, _, _, hc, _, _ => False.elim hc
  | .record _, .plain _, _, _, _, hc, _, _ => False.elim hc
  | .array m t, .array m' d, n, v, bs, hc, hn, he => by
    obtain ⟨t', ht, hc⟩ := hc
    cases ht
    obtain ⟨k, hk, rfl⟩ := exact_array hn
    obtain ⟨l, rfl⟩ := v
    have he : encodeAll (encode t d) l = some bs := he
    obtain ⟨h1, h2⟩ := decodeMany_encodeAll (rest := []) (g := decode t d) (h := readBack t d)
      (fun x _ b hb => encode_decode t d k x b hc hk hb) he
    refine ⟨h1, ?_⟩
    show (exactBytes d).bind (fun k => decodeMany (decode t d) k l.length bs) = some _
    rw [hk, Option.bind_some]
    rw [List.append_nil] at h2
    rw [h2]
    rfl
  | .record fs, .record dfs, n, v, bs, hc, hn, he => by
    obtain ⟨fs', ht, hc⟩ := hc
    cases ht
    exact fields_encode_decode fs dfs n v bs hc hn he
  | .record fs, .array _ _, _, _, _, hc, _, _ => by obtain ⟨_, h, _⟩ := hc; cases h
  | .array _ _, .record _, _, _, _, hc, _, _ => by obtain ⟨_, h, _⟩ := hc; cases h
  | .num _, .array _ _, _, _, _, hc, _, _ => by obtain ⟨_, h, _⟩ := hc; cases h
  | .bool, .array _ _, _, _, _, hc, _, _ => by obtain ⟨_, h, _⟩ := hc; cases h
  | .complex _, .array _ _, _, _, _, hc, _, _ => by obtain ⟨_, h, _⟩ := hc; cases h
  | .vecU8, .array _ _, _, _, _, hc, _, _ => by obtain ⟨_, h, _⟩ := hc; cases h
  | .arrayVecU8 _, .array _ _, _, _, _, hc, _, _ => by obtain ⟨_, h, _⟩ := hc; cases h
  | .fixedBytes _, .array _ _, _, _, _, hc, _, _ => by obtain ⟨_, h, _⟩ := hc; cases h
  | .vecU32, .array _ _, _, _, _, hc, _, _ => by obtain ⟨_, h, _⟩ := hc; cases h
  | .vecChar, .array _ _, _, _, _, hc, _, _ => by obtain ⟨_, h, _⟩ := hc; cases h
  | .string, .array _ _, _, _, _, hc, _, _ => by obtain ⟨_, h, _⟩ := hc; cases h
  | .arrayVecU32 _, .array _ _, _, _, _, hc, _, _ => by obtain ⟨_, h, _⟩ := hc; cases h
  | .arrayVecChar _, .array _ _, _, _, _, hc, _, _ => by obtain ⟨_, h, _⟩ := hc; cases h
  | .arrayString _, .array _ _, _, _, _, hc, _, _ => by obtain ⟨_, h, _⟩ := hc; cases h
  | .num _, .record _, _, _, _, hc, _, _ => by obtain ⟨_, h, _⟩ := hc; cases h
  | .bool, .record _, _, _, _, hc, _, _ => by obtain ⟨_, h, _⟩ := hc; cases h
  | .complex _, .record _, _, _, _, hc, _, _ => by obtain ⟨_, h, _⟩ := hc; cases h
  | .vecU8, .record _, _, _, _, hc, _, _ => by obtain ⟨_, h, _⟩ := hc; cases h
  | .arrayVecU8 _, .record _, _, _, _, hc, _, _ => by obtain ⟨_, h, _⟩ := hc; cases h
  | .fixedBytes _, .record _, _, _, _, hc, _, _ => by obtain ⟨_, h, _⟩ := hc; cases h
  | .vecU32, .record _, _, _, _, hc, _, _ => by obtain ⟨_, h, _⟩ := hc; cases h
  | .vecChar, .record _, _, _, _, hc, _, _ => by obtain ⟨_, h, _⟩ := hc; cases h
  | .string, .record _, _, _, _, hc, _, _ => by obtain ⟨_, h, _⟩ := hc; cases h
  | .arrayVecU32 _, .record _, _, _, _, hc, _, _ => by obtain ⟨_, h, _⟩ := hc; cases h
  | .arrayVecChar _, .record _, _, _, _, hc, _, _ => by obtain ⟨_, h, _⟩ := hc; cases h
  | .arrayString _, .record _, _, _, _, hc, _, _ => by obtain ⟨_, h, _⟩ := hc; cases h
theorem fields_encode_decode : (fs : TFields) → (dfs : Fields) → (n : Nat) → (v : fs.Val) → (bs : Bytes) →
    CanReadFields fs dfs → exactFieldBytes dfs = some n → encodeFields fs dfs v = some bs →
    bs.length = n ∧ decodeFields fs dfs bs = some (readBackFields fs dfs v)
  | .nil, .nil, n, v, bs, hc, hn, he => by
    have he : some [] = some bs := he
    have hn : some 0 = some n := hn
    cases he; cases hn
    exact ⟨rfl, rfl⟩
  | .nil, .cons _ _ _, _, _, _, hc, _, _ => by obtain ⟨_, _, h, _⟩ := hc; cases h
  | .cons _ _ _, .nil, _, _, _, hc, _, _ => by cases hc
  | .cons name t rest, .cons name' d dfs, n, v, bs, hc, hn, he => by
    obtain ⟨t', rest', h, hc, hcs⟩ := hc
    cases h
    obtain ⟨a, b, ha, hb, rfl⟩ := exact_cons hn
    obtain ⟨x, y, hx, hy, rfl⟩ := both_eq_some.mp (show both (encode t d v.1) (encodeFields rest dfs v.2) = some bs from he)
    obtain ⟨h1, h2⟩ := encode_decode t d a v.1 x hc ha hx
    obtain ⟨h3, h4⟩ := fields_encode_decode rest dfs b v.2 y hcs hb hy
    refine ⟨by simp [h1, h3], ?_⟩
    show (exactBytes d).bind (fun k => decodePair k (decode t d) (decodeFields rest dfs) (x ++ y)) = some (readBack t d v.1, readBackFields rest dfs v.2)
    rw [ha, Option.bind_some, decodePair, List.take_left' h1, List.drop_left' h1, h2, h4]
end

end Npyz
