import Verif.Spec.Swap
import Verif.Proofs.Resave
/-! Byte order: items in the other byte order have the same values. -/
set_option autoImplicit false
namespace Npyz
open Spec

mutual
theorem other_other : (d : DType) → otherDType (otherDType d) = d
  | .plain ⟨e, c, n, u⟩ => by cases e <;> rfl
  | .array n d => by simp only [otherDType, other_other d]
  | .record fs => by simp only [otherDType, otherFields_other fs]
theorem otherFields_other : (fs : Fields) → otherFields (otherFields fs) = fs
  | .nil => rfl
  | .cons name d rest => by simp only [otherFields, other_other d, otherFields_other rest]
end

theorem otherEndian_irrelevant {e : Endianness} : otherEndian e = .irrelevant ↔ e = .irrelevant := by cases e <;> simp [otherEndian]

mutual
theorem other_bytes : (d : DType) → exactBytes (otherDType d) = exactBytes d
  | .plain s => rfl
  | .array n d => by simp only [otherDType, exactBytes, other_bytes d]
  | .record fs => by simp only [otherDType, exactBytes, otherFields_bytes fs]
theorem otherFields_bytes : (fs : Fields) → exactFieldBytes (otherFields fs) = exactFieldBytes fs
  | .nil => rfl
  | .cons name d rest => by simp only [otherFields, exactFieldBytes, other_bytes d, otherFields_bytes rest]
end

mutual
theorem other_canRead : (t : Ty) → (d : DType) → CanRead t d → CanRead t (otherDType d)
  | t, .plain s, h => h
  | t, .array n d, ⟨t', e, h⟩ => ⟨t', e, other_canRead t' d h⟩
  | t, .record fs, ⟨tfs, e, h⟩ => ⟨tfs, e, otherFields_canRead tfs fs h⟩
theorem otherFields_canRead : (fs : TFields) → (dfs : Fields) → CanReadFields fs dfs → CanReadFields fs (otherFields dfs)
  | _, .nil, h => h
  | _, .cons _ d rest, ⟨t, r, e, h1, h2⟩ => ⟨t, r, e, other_canRead t d h1, otherFields_canRead r rest h2⟩
end

mutual
theorem other_canWrite : (t : Ty) → (d : DType) → CanWrite t d → CanWrite t (otherDType d)
  | t, .plain s, h => h
  | t, .array n d, ⟨t', e, h⟩ => ⟨t', e, other_canWrite t' d h⟩
  | t, .record fs, ⟨tfs, e, h⟩ => ⟨tfs, e, otherFields_canWrite tfs fs h⟩
theorem otherFields_canWrite : (fs : TFields) → (dfs : Fields) → CanWriteFields fs dfs → CanWriteFields fs (otherFields dfs)
  | _, .nil, h => h
  | _, .cons _ d rest, ⟨t, r, e, h1, h2⟩ => ⟨t, r, e, other_canWrite t d h1, otherFields_canWrite r rest h2⟩
end

mutual
theorem other_sizesFit (lim : Nat) : (d : DType) → SizesFit lim d → SizesFit lim (otherDType d)
  | .plain s, h => h
  | .array n d, h => other_sizesFit lim d h
  | .record fs, h => otherFields_sizesFit lim fs h
theorem otherFields_sizesFit (lim : Nat) : (fs : Fields) → FieldSizesFit lim fs → FieldSizesFit lim (otherFields fs)
  | .nil, h => h
  | .cons _ d rest, h => ⟨other_sizesFit lim d h.1, otherFields_sizesFit lim rest h.2⟩
end

mutual
theorem other_wf : (d : DType) → d.Wf → (otherDType d).Wf
  | .plain s, h => by
    obtain ⟨⟨h1, h2, h3⟩, h4, h5⟩ := h
    exact ⟨⟨h1, fun hm => fun hi => h2 hm (otherEndian_irrelevant.mp hi), h3⟩, h4, h5⟩
  | .array n d, h => ⟨h.1, other_wf d h.2⟩
  | .record fs, h => otherFields_wf fs h
theorem otherFields_wf : (fs : Fields) → fs.Wf → (otherFields fs).Wf
  | .nil, h => h
  | .cons _ d rest, h => ⟨other_wf d h.1, otherFields_wf rest h.2⟩
end

/-! ### Words -/

theorem wordBytes_other {e : Endianness} {w : Nat} (h : e ≠ .irrelevant ∨ w = 1) (n : Nat) :
    wordBytes (otherEndian e) w n = (wordBytes e w n).reverse := by
  have key : ((List.range w).map fun i => UInt8.ofNat (n / 256 ^ i)).reverse = (List.range w).map fun i => UInt8.ofNat (n / 256 ^ (w - 1 - i)) := by
    apply List.ext_getElem (by simp)
    intro i h1 h2
    simp
  cases e with
  | little => simp [wordBytes, otherEndian, ← key]
  | big => simp [wordBytes, otherEndian, ← key]
  | irrelevant =>
    rcases h with h | rfl
    · exact absurd rfl h
    · simp [wordBytes, otherEndian, List.range_succ]

theorem wordValue_other {e : Endianness} {bs : Bytes} (h : e ≠ .irrelevant ∨ bs.length = 1) :
    wordValue (otherEndian e) bs.reverse = wordValue e bs := by
  have key : ∀ bs : Bytes, bs.reverse.foldl (fun acc b => 256 * acc + b.toNat) 0 = bs.foldr (fun b acc => b.toNat + 256 * acc) 0 := by
    intro bs
    rw [List.foldl_reverse]
    simp only [Nat.add_comm]
  cases e with
  | little => simp only [wordValue, otherEndian]; simp [key]
  | big =>
    have := key bs.reverse
    rw [List.reverse_reverse] at this
    simp only [wordValue, otherEndian]; simp [this]
  | irrelevant =>
    rcases h with h | h
    · exact absurd rfl h
    · match bs, h with
      | [b], _ => rfl

/-! ### Pieces -/

theorem mapPieces_length {f : Bytes → Bytes} {k : Nat} (hf : ∀ b, b.length = k → (f b).length = k) :
    ∀ (n : Nat) (bs : Bytes), bs.length = n * k → (mapPieces f k n bs).length = n * k
  | 0, bs, h => by simp [mapPieces]
  | n + 1, bs, h => by
    rw [Nat.add_mul, Nat.one_mul] at h ⊢
    rw [mapPieces, List.length_append, hf _ (by rw [List.length_take]; omega), mapPieces_length hf n _ (by rw [List.length_drop]; omega)]
    omega

theorem mapPieces_back {f g : Bytes → Bytes} {k : Nat} (hf : ∀ b, b.length = k → (f b).length = k ∧ g (f b) = b) :
    ∀ (n : Nat) (bs : Bytes), bs.length = n * k → mapPieces g k n (mapPieces f k n bs) = bs
  | 0, bs, h => by
    rw [Nat.zero_mul] at h
    rw [List.eq_nil_of_length_eq_zero h]; rfl
  | n + 1, bs, h => by
    rw [Nat.add_mul, Nat.one_mul] at h
    obtain ⟨h1, h2⟩ := hf (bs.take k) (by rw [List.length_take]; omega)
    rw [mapPieces, mapPieces, List.take_left' h1, List.drop_left' h1, h2, mapPieces_back hf n _ (by rw [List.length_drop]; omega), List.take_append_drop]

theorem decodeMany_pieces {α : Type} {g g' : Bytes → Option α} {f : Bytes → Bytes} {k : Nat}
    (hf : ∀ b, b.length = k → (f b).length = k ∧ g' (f b) = g b) :
    ∀ (n : Nat) (bs : Bytes), bs.length = n * k → decodeMany g' k n (mapPieces f k n bs) = decodeMany g k n bs
  | 0, bs, h => rfl
  | n + 1, bs, h => by
    rw [Nat.add_mul, Nat.one_mul] at h
    obtain ⟨h1, h2⟩ := hf (bs.take k) (by rw [List.length_take]; omega)
    rw [mapPieces, decodeMany, decodeMany, List.take_left' h1, List.drop_left' h1, h2, decodeMany_pieces hf n _ (by rw [List.length_drop]; omega)]

theorem encodeAll_pieces {α : Type} {g g' : α → Option Bytes} {f : Bytes → Bytes} {k : Nat} :
    ∀ (l : List α), (∀ v ∈ l, ∀ b, g v = some b → b.length = k ∧ g' v = some (f b)) → (∀ v ∈ l, g v = none → g' v = none) →
      ∀ (n : Nat), l.length = n → (∀ bs, encodeAll g l = some bs → bs.length = n * k ∧ encodeAll g' l = some (mapPieces f k n bs)) ∧
        (encodeAll g l = none → encodeAll g' l = none)
  | [], h1, h2, n, hn => by
    subst hn
    refine ⟨fun bs h => ?_, fun h => by cases h⟩
    cases h
    exact ⟨by simp, rfl⟩
  | v :: l, h1, h2, n, hn => by
    subst hn
    obtain ⟨i1, i2⟩ := encodeAll_pieces (g := g) (g' := g') (f := f) (k := k) l (fun v hv => h1 v (List.mem_cons_of_mem _ hv)) (fun v hv => h2 v (List.mem_cons_of_mem _ hv)) l.length rfl
    have a1 := h1 v (List.mem_cons_self ..)
    have a2 := h2 v (List.mem_cons_self ..)
    cases hg : g v with
    | none =>
      refine ⟨fun bs h => ?_, fun h => ?_⟩
      · rw [encodeAll, hg] at h; cases h
      · rw [encodeAll, a2 hg]; rfl
    | some b =>
      obtain ⟨hb, hb'⟩ := a1 b hg
      cases hr : encodeAll g l with
      | none =>
        refine ⟨fun bs h => ?_, fun h => ?_⟩
        · rw [encodeAll, hg, hr] at h; cases h
        · rw [encodeAll, hb', i2 hr]; rfl
      | some bs' =>
        obtain ⟨c1, c2⟩ := i1 bs' hr
        refine ⟨fun bs h => ?_, fun h => ?_⟩
        · rw [encodeAll, hg, hr] at h
          cases h
          rw [encodeAll, hb', c2]
          refine ⟨by rw [List.length_append, List.length_cons, Nat.add_mul, Nat.one_mul, hb, c1]; omega, ?_⟩
          rw [List.length_cons, mapPieces, List.take_left' hb, List.drop_left' hb]
          rfl
        · rw [encodeAll, hg, hr] at h; cases h

theorem flatMap_pieces {α : Type} {e e' : α → Bytes} {f : Bytes → Bytes} {k : Nat} (h : ∀ x, (e x).length = k ∧ e' x = f (e x)) :
    ∀ (l : List α) (n : Nat), l.length = n → l.flatMap e' = mapPieces f k n (l.flatMap e)
  | [], n, hn => by subst hn; rfl
  | x :: l, n, hn => by
    subst hn
    rw [List.flatMap_cons, List.flatMap_cons, List.length_cons, mapPieces, List.take_left' (h x).1, List.drop_left' (h x).1, (h x).2,
      flatMap_pieces h l l.length rfl]

/-! ### Items -/

theorem ordered_or_one {s : TypeStr} (h : Valid s) (hc : s.typeChar ≠ .byteStr ∧ s.typeChar ≠ .object ∧ s.typeChar ≠ .rawData) :
    s.endianness ≠ .irrelevant ∨ s.size = 1 := by
  by_cases h1 : s.size = 1
  · exact .inr h1
  · exact .inl (h.order_given (.inr ⟨hc.1, hc.2.1, hc.2.2, h1⟩))

theorem reverseWords_word {s : TypeStr} (hc : s.typeChar = .int ∨ s.typeChar = .uint ∨ s.typeChar = .float ∨ s.typeChar = .timeDelta ∨ s.typeChar = .dateTime)
    (bs : Bytes) : reverseWords s bs = bs.reverse := by
  unfold reverseWords
  rcases hc with h | h | h | h | h <;> rw [h]

theorem complex_half {s : TypeStr} (h : Valid s) (hc : s.typeChar = .complex) : s.size = 2 * (s.size / 2) := by
  have := h.size_allowed
  rw [hc] at this
  rcases this with h | h | h <;> rw [h]

theorem reverseWords_length {s : TypeStr} {n : Nat} (hw : Valid s) (hn : exactBytes (.plain s) = some n) {bs : Bytes} (hl : bs.length = n) :
    (reverseWords s bs).length = n := by
  unfold reverseWords
  split
  · exact hl
  · exact hl
  · exact hl
  · rename_i hc
    rw [exact_unicode hn hc] at hl ⊢
    exact mapPieces_length (fun b hb => by rw [List.length_reverse, hb]) _ _ hl
  · rename_i hc
    rw [exact_other hn (by simp [hc]), complex_half hw hc] at hl ⊢
    rw [mapPieces_length (fun b hb => by rw [List.length_reverse, hb]) _ _ (by omega)]
    omega
  · rw [List.length_reverse, hl]

theorem reverseWords_back {s : TypeStr} {n : Nat} (hw : Valid s) (hn : exactBytes (.plain s) = some n) {bs : Bytes} (hl : bs.length = n) :
    reverseWords s (reverseWords s bs) = bs := by
  have hp : ∀ k : Nat, ∀ b : Bytes, b.length = k → b.reverse.length = k ∧ b.reverse.reverse = b :=
    fun k b hb => ⟨by rw [List.length_reverse, hb], List.reverse_reverse b⟩
  cases hc : s.typeChar <;> simp only [reverseWords, hc, List.reverse_reverse]
  · exact mapPieces_back (hp _) _ _ (by have := exact_other hn (by simp [hc]); have := complex_half hw hc; omega)
  · exact mapPieces_back (hp _) _ _ (by have := exact_unicode hn hc; omega)

mutual
theorem reverseItem_length : (d : DType) → {n : Nat} → d.Wf → exactBytes d = some n → {bs : Bytes} → bs.length = n → (reverseItem d bs).length = n
  | .plain s, n, hw, hn, bs, hl => reverseWords_length hw.valid hn hl
  | .array m d, n, hw, hn, bs, hl => by
    obtain ⟨k, hk, rfl⟩ := exact_array hn
    simp only [reverseItem, hk]
    exact mapPieces_length (fun b hb => reverseItem_length d hw.2 hk hb) _ _ hl
  | .record fs, n, hw, hn, bs, hl => reverseFields_length fs hw hn hl
theorem reverseFields_length : (fs : Fields) → {n : Nat} → fs.Wf → exactFieldBytes fs = some n → {bs : Bytes} → bs.length = n → (reverseFields fs bs).length = n
  | .nil, n, hw, hn, bs, hl => hl
  | .cons _ d rest, n, hw, hn, bs, hl => by
    obtain ⟨a, b, ha, hb, rfl⟩ := exact_cons hn
    simp only [reverseFields, ha]
    rw [List.length_append, reverseItem_length d hw.1 ha (by rw [List.length_take]; omega), reverseFields_length rest hw.2 hb (by rw [List.length_drop]; omega)]
end

mutual
theorem reverseItem_back : (d : DType) → {n : Nat} → d.Wf → exactBytes d = some n → {bs : Bytes} → bs.length = n →
    reverseItem (otherDType d) (reverseItem d bs) = bs
  | .plain s, n, hw, hn, bs, hl => reverseWords_back hw.valid hn hl
  | .array m d, n, hw, hn, bs, hl => by
    obtain ⟨k, hk, rfl⟩ := exact_array hn
    simp only [reverseItem, otherDType, hk, other_bytes]
    exact mapPieces_back (fun b hb => ⟨reverseItem_length d hw.2 hk hb, reverseItem_back d hw.2 hk hb⟩) _ _ hl
  | .record fs, n, hw, hn, bs, hl => reverseFields_back fs hw hn hl
theorem reverseFields_back : (fs : Fields) → {n : Nat} → fs.Wf → exactFieldBytes fs = some n → {bs : Bytes} → bs.length = n →
    reverseFields (otherFields fs) (reverseFields fs bs) = bs
  | .nil, n, hw, hn, bs, hl => rfl
  | .cons _ d rest, n, hw, hn, bs, hl => by
    obtain ⟨a, b, ha, hb, rfl⟩ := exact_cons hn
    simp only [reverseFields, otherFields, ha, other_bytes]
    have h1 : (bs.take a).length = a := by rw [List.length_take]; omega
    have h2 := reverseItem_length d hw.1 ha h1
    rw [List.take_left' h2, List.drop_left' h2, reverseItem_back d hw.1 ha h1, reverseFields_back rest hw.2 hb (by rw [List.length_drop]; omega),
      List.take_append_drop]
end

/-! ### Values -/

theorem units_other {s : TypeStr} (hw : Valid s) (hc : s.typeChar = .unicodeStr) {bs : Bytes} (hl : bs.length = s.size * 4) :
    decodeMany (decodeUnit (otherEndian s.endianness)) 4 s.size (reverseWords s bs) = decodeMany (decodeUnit s.endianness) 4 s.size bs := by
  have ho : s.endianness ≠ .irrelevant := hw.order_given (.inl hc)
  have e : reverseWords s bs = mapPieces List.reverse 4 s.size bs := by unfold reverseWords; rw [hc]
  rw [e]
  refine decodeMany_pieces (fun b hb => ⟨by rw [List.length_reverse, hb], ?_⟩) _ _ hl
  unfold decodeUnit
  rw [wordValue_other (.inl ho)]

theorem chars_other {s : TypeStr} (hw : Valid s) (hc : s.typeChar = .unicodeStr) {bs : Bytes} (hl : bs.length = s.size * 4) :
    decodeMany (Spec.decodeChar (otherEndian s.endianness)) 4 s.size (reverseWords s bs) = decodeMany (Spec.decodeChar s.endianness) 4 s.size bs := by
  have ho : s.endianness ≠ .irrelevant := hw.order_given (.inl hc)
  have e : reverseWords s bs = mapPieces List.reverse 4 s.size bs := by unfold reverseWords; rw [hc]
  rw [e]
  refine decodeMany_pieces (fun b hb => ⟨by rw [List.length_reverse, hb], ?_⟩) _ _ hl
  unfold Spec.decodeChar
  rw [wordValue_other (.inl ho)]

theorem reverseWords_bytes {s : TypeStr} (hc : s.typeChar = .byteStr ∨ s.typeChar = .rawData) (bs : Bytes) : reverseWords s bs = bs := by
  unfold reverseWords
  rcases hc with h | h <;> rw [h]

theorem decode_other_plain (t : Ty) (s : TypeStr) {n : Nat} {bs : Bytes} (hw : Valid s) (hc : scalarAccepts t s.typeChar s.size)
    (hn : exactBytes (.plain s) = some n) (hl : bs.length = n) :
    decode t (.plain { s with endianness := otherEndian s.endianness }) (reverseWords s bs) = decode t (.plain s) bs := by
  cases t with
  | num p =>
    have hs := numSize hc
    have hk := prim_kind ((numAccepts_iff _ _ _).mp hc).1
    have hor := ordered_or_one hw (by rcases hk with h | h | h | h | h <;> simp [h])
    rw [reverseWords_word hk]
    rw [exact_other hn hs.2] at hl
    simp only [decode, onPlain]
    rw [wordValue_other (by rw [hl]; exact hor)]
  | bool =>
    have hc : s.typeChar = .bool ∧ s.size = 1 := hc
    rw [exact_other hn (by simp [hc.1]), hc.2] at hl
    have e : reverseWords s bs = bs := by
      unfold reverseWords
      rw [hc.1]
      match bs, hl with
      | [b], _ => rfl
    rw [e]
    rfl
  | complex f =>
    have hc := (complexAccepts_iff f s.typeChar s.size).mp hc
    have ho : s.endianness ≠ .irrelevant := by
      rcases ordered_or_one hw (by simp [hc.1]) with h | h
      · exact h
      · have := hc.2; omega
    rw [exact_other hn (by simp [hc.1])] at hl
    have hh : s.size / 2 = f.size := by have := hc.2; omega
    have e : reverseWords s bs = (bs.take f.size).reverse ++ (bs.drop f.size).reverse := by
      unfold reverseWords
      rw [hc.1]
      simp only [mapPieces, hh, List.append_nil]
      rw [List.take_of_length_le (l := bs.drop f.size) (by rw [List.length_drop]; omega)]
    have h1 : (bs.take f.size).reverse.length = f.size := by rw [List.length_reverse, List.length_take]; omega
    rw [e]
    simp only [decode, onPlain]
    rw [List.take_left' h1, List.drop_left' h1, wordValue_other (.inl ho), wordValue_other (.inl ho)]
  | vecU8 =>
    rw [reverseWords_bytes (Or.symm hc)]
    rfl
  | arrayVecU8 cap =>
    rw [reverseWords_bytes (by rcases hc with h | h; exact .inr h.1; exact .inl h)]
    rfl
  | fixedBytes k =>
    rw [reverseWords_bytes (.inr hc.1)]
    rfl
  | vecU32 =>
    simp only [decode, onPlain]
    rw [units_other hw hc (by rw [hl, exact_unicode hn hc])]
  | vecChar =>
    simp only [decode, onPlain]
    rw [chars_other hw hc (by rw [hl, exact_unicode hn hc])]
  | string =>
    show (if s.typeChar = .unicodeStr then
        (decodeMany (Spec.decodeChar (otherEndian s.endianness)) 4 s.size (reverseWords s bs)).map (fun l => trimEnd (· == '\x00') l.1)
        else decodeUtf8Item (reverseWords s bs)) = if s.typeChar = .unicodeStr then
        (decodeMany (Spec.decodeChar s.endianness) 4 s.size bs).map (fun l => trimEnd (· == '\x00') l.1) else decodeUtf8Item bs
    rcases hc with hc | hc
    · rw [if_neg (by simp [hc]), if_neg (by simp [hc]), reverseWords_bytes (.inl hc)]
    · rw [if_pos hc, if_pos hc, chars_other hw hc (by rw [hl, exact_unicode hn hc])]
  | arrayVecU32 cap =>
    simp only [decode, onPlain]
    rw [units_other hw hc (by rw [hl, exact_unicode hn hc])]
  | arrayVecChar cap =>
    simp only [decode, onPlain]
    rw [chars_other hw hc (by rw [hl, exact_unicode hn hc])]
  | arrayString cap =>
    rw [reverseWords_bytes (.inl hc)]
    rfl
  | array _ _ => exact False.elim hc
  | record _ => exact False.elim hc

mutual
/-- The item in the other byte order has the same value. -/
theorem decode_other : (d : DType) → (t : Ty) → {n : Nat} → {bs : Bytes} → d.Wf → CanRead t d → exactBytes d = some n → bs.length = n →
    decode t (otherDType d) (reverseItem d bs) = decode t d bs
  | .plain s, t, n, bs, hw, hc, hn, hl => decode_other_plain t s hw.valid hc hn hl
  | .array m d, t, n, bs, hw, hc, hn, hl => by
    obtain ⟨t', rfl, hc⟩ := hc
    obtain ⟨k, hk, rfl⟩ := exact_array hn
    simp only [reverseItem, otherDType, decode, onArray, hk, other_bytes]
    exact decodeMany_pieces (fun b hb => ⟨reverseItem_length d hw.2 hk hb, decode_other d t' hw.2 hc hk hb⟩) _ _ hl
  | .record dfs, t, n, bs, hw, hc, hn, hl => by
    obtain ⟨fs, rfl, hc⟩ := hc
    exact decodeFields_other dfs fs hw hc hn hl
theorem decodeFields_other : (dfs : Fields) → (fs : TFields) → {n : Nat} → {bs : Bytes} → dfs.Wf → CanReadFields fs dfs → exactFieldBytes dfs = some n →
    bs.length = n → decodeFields fs (otherFields dfs) (reverseFields dfs bs) = decodeFields fs dfs bs
  | .nil, fs, n, bs, hw, hc, hn, hl => rfl
  | .cons name d rest, fs, n, bs, hw, hc, hn, hl => by
    obtain ⟨t, r, rfl, hc, hcs⟩ := hc
    obtain ⟨a, b, ha, hb, rfl⟩ := exact_cons hn
    have h1 : (bs.take a).length = a := by rw [List.length_take]; omega
    have h2 := reverseItem_length d hw.1 ha h1
    have e : reverseFields (.cons name d rest) bs = reverseItem d (bs.take a) ++ reverseFields rest (bs.drop a) := by simp only [reverseFields, ha]
    rw [e]
    show (exactBytes (otherDType d)).bind (fun k => decodePair k (decode t (otherDType d)) (decodeFields r (otherFields rest)) _) =
      (exactBytes d).bind (fun k => decodePair k (decode t d) (decodeFields r rest) bs)
    rw [other_bytes, ha, Option.bind_some, Option.bind_some, decodePair, decodePair, List.take_left' h2, List.drop_left' h2, decode_other d t hw.1 hc ha h1, decodeFields_other rest r hw.2 hcs hb (by rw [List.length_drop]; omega)]
end

/-! ### Bytes -/

/-- `b` is `a` changed by `f`; both fit or none. -/
def Changed (n : Nat) (f : Bytes → Bytes) (a b : Option Bytes) : Prop :=
  (∀ bs, a = some bs → bs.length = n ∧ b = some (f bs)) ∧ (a = none → b = none)

theorem Changed.same {n : Nat} {f : Bytes → Bytes} {a : Option Bytes} (h : ∀ bs, a = some bs → bs.length = n ∧ f bs = bs) : Changed n f a a :=
  ⟨fun bs e => ⟨(h bs e).1, by rw [(h bs e).2, e]⟩, id⟩

theorem padUnits_other {s : TypeStr} (hw : Valid s) (hc : s.typeChar = .unicodeStr) (us : List Nat) :
    Changed (s.size * 4) (reverseWords s) (padUnits s.endianness s.size us) (padUnits (otherEndian s.endianness) s.size us) := by
  have ho : s.endianness ≠ .irrelevant := hw.order_given (.inl hc)
  have e : reverseWords s = mapPieces List.reverse 4 s.size := by funext bs; unfold reverseWords; rw [hc]
  rw [e]
  unfold padUnits
  by_cases h : us.length ≤ s.size
  · rw [if_pos h, if_pos h]
    have hlen : (us ++ List.replicate (s.size - us.length) 0).length = s.size := by simp; omega
    refine ⟨fun bs hb => ?_, fun hb => by cases hb⟩
    cases hb
    refine ⟨?_, ?_⟩
    · rw [List.length_flatMap]
      simp only [wordBytes_length]
      rw [List.map_const', List.sum_replicate_nat, hlen]
    · rw [← flatMap_pieces (e := wordBytes s.endianness 4) (e' := wordBytes (otherEndian s.endianness) 4) (fun x => ⟨by simp, wordBytes_other (.inl ho) x⟩) _ _ hlen]
  · rw [if_neg h, if_neg h]
    exact ⟨fun bs hb => (by cases hb), fun _ => rfl⟩

theorem padBytes_length {n : Nat} {b bs : Bytes} (h : padBytes n b = some bs) : bs.length = n := by
  unfold padBytes at h
  split at h
  · cases h
    simp
    omega
  · cases h

theorem encode_other_plain (t : Ty) (s : TypeStr) {n : Nat} (v : t.Val) (hw : Valid s) (hc : scalarAccepts t s.typeChar s.size ∨ writeOnly t s.typeChar)
    (hn : exactBytes (.plain s) = some n) :
    Changed n (reverseWords s) (encode t (.plain s) v) (encode t (.plain { s with endianness := otherEndian s.endianness }) v) := by
  have hbytes : ∀ b : Bytes, (s.typeChar = .byteStr ∨ s.typeChar = .rawData) → Changed n (reverseWords s) (encodeBytes s b) (encodeBytes s b) := by
    intro b hk
    refine .same fun bs hb => ⟨?_, reverseWords_bytes hk bs⟩
    rw [exact_other hn (by rcases hk with h | h <;> simp [h])]
    exact (bytes_round hb).1
  have hunits : ∀ l : List (Word 4), s.typeChar = .unicodeStr →
      Changed n (reverseWords s) (encodeUnits s l) (encodeUnits { s with endianness := otherEndian s.endianness } l) := by
    intro l hk
    rw [exact_unicode hn hk]
    unfold encodeUnits
    split
    · exact padUnits_other hw hk _
    · exact ⟨fun bs hb => (by cases hb), fun _ => rfl⟩
  have hchars : ∀ l : Text, s.typeChar = .unicodeStr →
      Changed n (reverseWords s) (encodeChars s l) (encodeChars { s with endianness := otherEndian s.endianness } l) := by
    intro l hk
    rw [exact_unicode hn hk]
    exact padUnits_other hw hk _
  have htext : ∀ l : Text, (s.typeChar = .byteStr ∨ s.typeChar = .unicodeStr) →
      Changed n (reverseWords s) (encodeText s l) (encodeText { s with endianness := otherEndian s.endianness } l) := by
    intro l hk
    unfold encodeText
    rcases hk with hk | hk
    · rw [if_neg (by simp [hk]), if_neg (by simp [hk])]
      refine .same fun bs hb => ⟨?_, reverseWords_bytes (.inl hk) bs⟩
      rw [exact_other hn (by simp [hk])]
      exact padBytes_length hb
    · rw [if_pos hk, if_pos hk]
      exact hchars l hk
  cases t with
  | num p =>
    rcases hc with hc | hc
    · have hs := numSize hc
      have hk := prim_kind ((numAccepts_iff _ _ _).mp hc).1
      have hor := ordered_or_one hw (by rcases hk with h | h | h | h | h <;> simp [h])
      refine ⟨fun bs hb => ?_, fun h => (by cases h)⟩
      cases hb
      rw [hs.1] at hor
      refine ⟨by rw [wordBytes_length, exact_other hn hs.2, hs.1], ?_⟩
      rw [reverseWords_word hk, ← wordBytes_other hor]
      rfl
    · exact False.elim hc
  | bool =>
    rcases hc with hc | hc
    · have hc : s.typeChar = .bool ∧ s.size = 1 := hc
      refine .same fun bs hb => ?_
      cases hb
      refine ⟨by rw [exact_other hn (by simp [hc.1]), hc.2]; rfl, ?_⟩
      unfold reverseWords
      rw [hc.1]
      rfl
    · exact False.elim hc
  | complex f =>
    rcases hc with hc | hc
    · have hc := (complexAccepts_iff f s.typeChar s.size).mp hc
      have ho : s.endianness ≠ .irrelevant := by
        rcases ordered_or_one hw (by simp [hc.1]) with h | h
        · exact h
        · have := hc.2; omega
      have hh : s.size / 2 = f.size := by have := hc.2; omega
      refine ⟨fun bs hb => ?_, fun h => (by cases h)⟩
      cases hb
      refine ⟨by rw [List.length_append, wordBytes_length, wordBytes_length, exact_other hn (by simp [hc.1]), hc.2]; omega, ?_⟩
      show some (wordBytes (otherEndian s.endianness) f.size v.1.toNat ++ wordBytes (otherEndian s.endianness) f.size v.2.toNat) = some _
      unfold reverseWords
      rw [hc.1]
      simp only [mapPieces, hh, List.append_nil]
      rw [List.take_left' (by simp), List.drop_left' (by simp), List.take_of_length_le (by simp), wordBytes_other (.inl ho), wordBytes_other (.inl ho)]
    · exact False.elim hc
  | vecU8 =>
    rcases hc with hc | hc
    · exact hbytes v (Or.symm hc)
    · exact False.elim hc
  | arrayVecU8 cap =>
    rcases hc with hc | hc
    · exact hbytes v.1 (by rcases hc with h | h; exact .inr h.1; exact .inl h)
    · exact False.elim hc
  | fixedBytes k =>
    rcases hc with hc | hc
    · refine .same fun bs hb => ?_
      cases hb
      exact ⟨by rw [exact_other hn (by simp [hc.1]), hc.2]; exact v.2, reverseWords_bytes (.inr hc.1) _⟩
    · exact False.elim hc
  | vecU32 =>
    rcases hc with hc | hc
    · exact hunits v hc
    · exact False.elim hc
  | vecChar =>
    rcases hc with hc | hc
    · exact hchars v hc
    · exact False.elim hc
  | string =>
    rcases hc with hc | hc
    · exact htext v hc
    · exact False.elim hc
  | arrayVecU32 cap =>
    rcases hc with hc | hc
    · exact hunits v.1 hc
    · exact False.elim hc
  | arrayVecChar cap =>
    rcases hc with hc | hc
    · exact hchars v.1 hc
    · exact False.elim hc
  | arrayString cap => exact htext v.1 hc
  | array _ _ => rcases hc with hc | hc <;> exact False.elim hc
  | record _ => rcases hc with hc | hc <;> exact False.elim hc

mutual
/-- A value is stored in the other byte order with every word reversed. -/
theorem encode_other : (d : DType) → (t : Ty) → {n : Nat} → (v : t.Val) → d.Wf → CanWrite t d → exactBytes d = some n →
    Changed n (reverseItem d) (encode t d v) (encode t (otherDType d) v)
  | .plain s, t, n, v, hw, hc, hn => encode_other_plain t s v hw.valid hc hn
  | .array m d, t, n, v, hw, hc, hn => by
    obtain ⟨t', rfl, hc⟩ := hc
    obtain ⟨k, hk, rfl⟩ := exact_array hn
    have e : reverseItem (.array m d) = mapPieces (reverseItem d) k m := by funext bs; simp only [reverseItem, hk]
    rw [e]
    exact encodeAll_pieces v.1 (fun x _ b hb => (encode_other d t' x hw.2 hc hk).1 b hb) (fun x _ hb => (encode_other d t' x hw.2 hc hk).2 hb) m v.2
  | .record dfs, t, n, v, hw, hc, hn => by
    obtain ⟨fs, rfl, hc⟩ := hc
    exact encodeFields_other dfs fs v hw hc hn
theorem encodeFields_other : (dfs : Fields) → (fs : TFields) → {n : Nat} → (v : fs.Val) → dfs.Wf → CanWriteFields fs dfs → exactFieldBytes dfs = some n →
    Changed n (reverseFields dfs) (encodeFields fs dfs v) (encodeFields fs (otherFields dfs) v)
  | .nil, fs, n, v, hw, hc, hn => by
    cases (show fs = .nil from hc)
    cases hn
    exact .same fun bs hb => (by cases hb; exact ⟨rfl, rfl⟩)
  | .cons name d rest, fs, n, v, hw, hc, hn => by
    obtain ⟨t, r, rfl, hc, hcs⟩ := hc
    obtain ⟨a, b, ha, hb, rfl⟩ := exact_cons hn
    have h1 := encode_other d t v.1 hw.1 hc ha
    have h2 := encodeFields_other rest r v.2 hw.2 hcs hb
    show Changed _ _ (both (encode t d v.1) (encodeFields r rest v.2)) (both (encode t (otherDType d) v.1) (encodeFields r (otherFields rest) v.2))
    cases hx : encode t d v.1 with
    | none => rw [h1.2 hx]; exact ⟨fun bs h => (by cases h), fun _ => rfl⟩
    | some x =>
      obtain ⟨hx1, hx2⟩ := h1.1 x hx
      rw [hx2]
      cases hy : encodeFields r rest v.2 with
      | none => rw [h2.2 hy]; exact ⟨fun bs h => (by cases h), fun _ => rfl⟩
      | some y =>
        obtain ⟨hy1, hy2⟩ := h2.1 y hy
        rw [hy2]
        refine ⟨fun bs h => ?_, fun h => (by cases h)⟩
        cases h
        refine ⟨by rw [List.length_append, hx1, hy1], ?_⟩
        simp only [reverseFields, ha, both, List.take_left' hx1, List.drop_left' hx1]
end

end Npyz
