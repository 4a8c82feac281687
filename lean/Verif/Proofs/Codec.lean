import Verif.Proofs.Reads
import Verif.Proofs.Descr
import Verif.Proofs.DTypeSize
/-!
The readers and writers of all element types refine the specification `decode`/`encode`.
-/
namespace Npyz
open Spec

/-! ### Dtype checks -/

theorem expectScalar_ok {d : DType} {s : TypeStr} : expectScalar d = .ok s ↔ d = .plain s := by
  cases d <;> simp [expectScalar]

theorem sizeAsUsize_ok {M : Machine} {s : TypeStr} {n : Nat} : sizeAsUsize M s = .ok n ↔ n = s.size ∧ s.size < M.usizeLim := by
  unfold sizeAsUsize
  split <;> simp [*, eq_comm]

theorem isByteStr_ok {s : TypeStr} {b : Bool} : isByteStr s = .ok b ↔
    (s.typeChar = .byteStr ∧ b = true) ∨ (s.typeChar = .rawData ∧ b = false) := by
  unfold isByteStr
  cases s.typeChar <;> simp [eq_comm]

theorem checkByteVec_ok {M : Machine} {d : DType} {i : ByteInfo} : checkByteVec M d = .ok i ↔
    ∃ s, d = .plain s ∧ s.size < M.usizeLim ∧ i.size = s.size ∧
      ((s.typeChar = .byteStr ∧ i.isByteStr = true) ∨ (s.typeChar = .rawData ∧ i.isByteStr = false)) := by
  unfold checkByteVec
  simp only [Out.bind_eq_ok, expectScalar_ok, sizeAsUsize_ok, isByteStr_ok]
  constructor
  · rintro ⟨s, hd, n, ⟨rfl, hn⟩, b, hb, h⟩
    cases h
    exact ⟨s, hd, hn, rfl, hb⟩
  · rintro ⟨s, hd, hn, hi, hb⟩
    exact ⟨s, hd, s.size, ⟨rfl, hn⟩, i.isByteStr, hb, by rw [← hi]⟩

theorem checkArrayByteVec_ok {M : Machine} {cap : Nat} {d : DType} {i : ByteInfo} : checkArrayByteVec M cap d = .ok i ↔
    ∃ s, d = .plain s ∧ s.size < M.usizeLim ∧ i.size = s.size ∧
      ((s.typeChar = .byteStr ∧ i.isByteStr = true) ∨ (s.typeChar = .rawData ∧ i.isByteStr = false ∧ s.size ≤ cap)) := by
  unfold checkArrayByteVec
  simp only [Out.bind_eq_ok, checkByteVec_ok, expectScalar_ok]
  constructor
  · rintro ⟨i', ⟨s, hd, hn, hi, hb⟩, s', -, h⟩
    split at h
    · cases h
    · rename_i hc
      cases h
      refine ⟨s, hd, hn, hi, ?_⟩
      rcases hb with hb | ⟨h1, h2⟩
      · exact Or.inl hb
      · right
        refine ⟨h1, h2, ?_⟩
        simp [h2] at hc
        omega
  · rintro ⟨s, hd, hn, hi, hb⟩
    refine ⟨i, ⟨s, hd, hn, hi, ?_⟩, s, hd, ?_⟩
    · rcases hb with hb | ⟨h1, h2, -⟩
      · exact Or.inl hb
      · exact Or.inr ⟨h1, h2⟩
    · rw [if_neg]
      rcases hb with ⟨-, h2⟩ | ⟨-, -, h⟩
      · simp [h2]
      · omega

theorem checkFixed_ok {M : Machine} {n : Nat} {d : DType} {u : Unit} : checkFixed M n d = .ok u ↔
    ∃ s, d = .plain s ∧ s.size < M.usizeLim ∧ s.typeChar = .rawData ∧ s.size = n := by
  unfold checkFixed
  simp only [Out.bind_eq_ok, expectScalar_ok, sizeAsUsize_ok]
  constructor
  · rintro ⟨s, hd, k, ⟨rfl, hk⟩, h⟩
    split at h
    · rename_i hc; exact ⟨s, hd, hk, hc.1, hc.2⟩
    · cases h
  · rintro ⟨s, hd, hk, hc⟩
    exact ⟨s, hd, s.size, ⟨rfl, hk⟩, if_pos hc⟩

theorem checkPrim_ok {p : Prim} {d : DType} {e : Endianness} : checkPrim p d = .ok e ↔
    ∃ s, d = .plain s ∧ s.size = p.size ∧ p.supports s.typeChar = true ∧ e = s.endianness := by
  unfold checkPrim
  simp only [Out.bind_eq_ok, expectScalar_ok]
  constructor
  · rintro ⟨s, hd, h⟩
    split at h
    · rename_i hc; cases h; exact ⟨s, hd, hc.1, hc.2, rfl⟩
    · cases h
  · rintro ⟨s, hd, h1, h2, rfl⟩
    exact ⟨s, hd, if_pos ⟨h1, h2⟩⟩

theorem checkBool_ok {d : DType} {u : Unit} : checkBool d = .ok u ↔ ∃ s, d = .plain s ∧ s.size = 1 ∧ s.typeChar = .bool := by
  unfold checkBool
  simp only [Out.bind_eq_ok, expectScalar_ok]
  constructor
  · rintro ⟨s, hd, h⟩
    split at h
    · rename_i hc; exact ⟨s, hd, hc⟩
    · cases h
  · rintro ⟨s, hd, h⟩
    exact ⟨s, hd, if_pos h⟩

theorem checkComplex_ok {f : FloatTy} {d : DType} {e : Endianness} : checkComplex f d = .ok e ↔
    ∃ s, d = .plain s ∧ s.size = 2 * f.size ∧ s.typeChar = .complex ∧ e = s.endianness := by
  unfold checkComplex
  simp only [Out.bind_eq_ok, expectScalar_ok]
  constructor
  · rintro ⟨s, hd, h⟩
    split at h
    · rename_i hc; cases h; exact ⟨s, hd, hc.1, hc.2, rfl⟩
    · cases h
  · rintro ⟨s, hd, h1, h2, rfl⟩
    exact ⟨s, hd, if_pos ⟨h1, h2⟩⟩

theorem checkUnicode_ok {M : Machine} {d : DType} {x : Nat × Endianness} : checkUnicode M d = .ok x ↔
    ∃ s, d = .plain s ∧ s.size < M.usizeLim ∧ s.typeChar = .unicodeStr ∧ x = (s.size, s.endianness) := by
  unfold checkUnicode
  simp only [Out.bind_eq_ok, expectScalar_ok]
  constructor
  · rintro ⟨s, hd, h⟩
    split at h
    · rename_i hc
      simp only [Out.bind_eq_ok, sizeAsUsize_ok] at h
      obtain ⟨n, ⟨rfl, hn⟩, h⟩ := h
      cases h
      exact ⟨s, hd, hn, hc, rfl⟩
    · cases h
  · rintro ⟨s, hd, hn, hc, rfl⟩
    refine ⟨s, hd, ?_⟩
    rw [if_pos hc]
    simp only [Out.bind_eq_ok, sizeAsUsize_ok]
    exact ⟨_, ⟨rfl, hn⟩, rfl⟩

theorem checkUnicodeArrayVec_ok {M : Machine} {d : DType} {x : Nat × Endianness} : checkUnicodeArrayVec M d = .ok x ↔
    ∃ s, d = .plain s ∧ s.size < M.usizeLim ∧ s.typeChar = .unicodeStr ∧ x = (s.size, s.endianness) := by
  unfold checkUnicodeArrayVec
  simp only [Out.bind_eq_ok, expectScalar_ok, sizeAsUsize_ok]
  constructor
  · rintro ⟨s, hd, n, ⟨rfl, hn⟩, h⟩
    split at h
    · rename_i hc
      cases h
      exact ⟨s, hd, hn, hc, rfl⟩
    · cases h
  · rintro ⟨s, hd, hn, hc, rfl⟩
    exact ⟨s, hd, s.size, ⟨rfl, hn⟩, if_pos hc⟩

theorem badString_not_ok {α : Type} {d : DType} {x : α} : badString d ≠ .ok x := by
  cases d <;> simp [badString, expectScalar]

theorem tryUtf8_some {M : Machine} {d : DType} {i : ByteInfo} : tryUtf8 M d = some (.ok i) ↔
    ∃ s, d = .plain s ∧ s.size < M.usizeLim ∧ s.typeChar = .byteStr ∧ i = ⟨s.size, true⟩ := by
  unfold tryUtf8
  cases h : checkByteVec M d with
  | panic => 
    simp only [Option.some.injEq, reduceCtorEq, false_iff, not_exists]
    rintro s ⟨hd, hn, hc, -⟩
    have := (checkByteVec_ok (i := ⟨s.size, true⟩)).mpr ⟨s, hd, hn, rfl, Or.inl ⟨hc, rfl⟩⟩
    rw [h] at this; cases this
  | err e =>
    have : ¬ ∃ s, d = .plain s ∧ s.size < M.usizeLim ∧ s.typeChar = .byteStr ∧ i = ⟨s.size, true⟩ := by
      rintro ⟨s, hd, hn, hc, -⟩
      have := (checkByteVec_ok (i := ⟨s.size, true⟩)).mpr ⟨s, hd, hn, rfl, Or.inl ⟨hc, rfl⟩⟩
      rw [h] at this; cases this
    simp only [this, iff_false]
    cases e <;> simp
  | ok j =>
    obtain ⟨s, hd, hn, hs, hb⟩ := checkByteVec_ok.mp h
    subst hd
    rcases hb with ⟨hc, hb⟩ | ⟨hc, hb⟩
    · simp only [hb, Bool.true_eq_false, if_false, Option.some.injEq, Out.ok.injEq, DType.plain.injEq, exists_eq_left']
      cases j
      simp_all [eq_comm]
    · simp [hb, hc]

theorem tryUtf8_none {M : Machine} {s : TypeStr} (h : s.typeChar = .byteStr) : tryUtf8 M (.plain s) ≠ none := by
  unfold tryUtf8 checkByteVec expectScalar sizeAsUsize isByteStr
  by_cases hn : s.size < M.usizeLim
  · simp [hn, h]
  · simp [hn]

theorem readArrayFormat_ok {M : Machine} {d : DType} {i : ByteInfo} : readArrayFormat M d = .ok i ↔
    ∃ s, d = .plain s ∧ s.size < M.usizeLim ∧ s.typeChar = .byteStr ∧ i = ⟨s.size, true⟩ := by
  rw [← tryUtf8_some]
  unfold readArrayFormat
  cases tryUtf8 M d with
  | none => simp [badString_not_ok]
  | some r => simp

theorem tryUtf32_some {M : Machine} {d : DType} {x : Nat × Endianness} : tryUtf32 M d = some (.ok x) ↔
    ∃ s, d = .plain s ∧ s.size < M.usizeLim ∧ s.typeChar = .unicodeStr ∧ x = (s.size, s.endianness) := by
  unfold tryUtf32
  cases d with
  | plain s =>
    simp only [expectScalar, DType.plain.injEq, exists_eq_left']
    by_cases hc : s.typeChar = .unicodeStr
    · simp only [hc, if_true]
      unfold sizeAsUsize
      by_cases hn : s.size < M.usizeLim <;> simp [hn, eq_comm]
    · simp [hc]
  | array => simp [expectScalar]
  | record => simp [expectScalar]

theorem readFormat_ok {M : Machine} {d : DType} {f : StrFormat} : readFormat M d = .ok f ↔
    ∃ s, d = .plain s ∧ s.size < M.usizeLim ∧ ((s.typeChar = .byteStr ∧ f = .utf8 ⟨s.size, true⟩) ∨
      (s.typeChar = .unicodeStr ∧ f = .utf32 s.size s.endianness)) := by
  unfold readFormat
  cases d with
  | plain s =>
    simp only [DType.plain.injEq, exists_eq_left']
    by_cases hc : s.typeChar = .unicodeStr
    · have hc' : s.typeChar ≠ .byteStr := by simp [hc]
      simp only [hc, hc', false_and, false_or, true_and]
      by_cases hn : s.size < M.usizeLim
      · rw [(tryUtf32_some (x := (s.size, s.endianness))).mpr ⟨s, rfl, hn, hc, rfl⟩]
        simp [hn, eq_comm]
      · simp [tryUtf32, expectScalar, sizeAsUsize, hc, hn]
    · have h0 : tryUtf32 M (.plain s) = none := by simp [tryUtf32, expectScalar, hc]
      rw [h0]
      simp only [hc, false_and, or_false]
      cases h8 : tryUtf8 M (.plain s) with
      | none =>
        simp only [badString_not_ok, false_iff, not_and]
        intro _ hb
        exact absurd h8 (tryUtf8_none hb)
      | some r =>
        simp only [Out.bind_eq_ok]
        constructor
        · rintro ⟨i, rfl, h⟩
          obtain ⟨s', hs, hn, hb, rfl⟩ := tryUtf8_some.mp h8
          cases hs
          cases h
          exact ⟨hn, hb, rfl⟩
        · rintro ⟨hn, hb, rfl⟩
          rw [(tryUtf8_some (i := ⟨s.size, true⟩)).mpr ⟨s, rfl, hn, hb, rfl⟩] at h8
          cases h8
          exact ⟨_, rfl, rfl⟩
  | array => simp [tryUtf32, tryUtf8, checkByteVec, expectScalar, badString]
  | record => simp [tryUtf32, tryUtf8, checkByteVec, expectScalar, badString]

theorem writeFormat_ok {M : Machine} {d : DType} {f : StrFormat} : writeFormat M d = .ok f ↔
    ∃ s, d = .plain s ∧ s.size < M.usizeLim ∧ ((s.typeChar = .byteStr ∧ f = .utf8 ⟨s.size, true⟩) ∨
      (s.typeChar = .unicodeStr ∧ f = .utf32 s.size s.endianness)) := by
  unfold writeFormat
  simp only [Out.bind_eq_ok, expectScalar_ok]
  constructor
  · rintro ⟨s, hd, h⟩
    refine ⟨s, hd, ?_⟩
    split at h <;> first | cases h | skip
    · rename_i hc
      simp only [Out.bind_eq_ok, sizeAsUsize_ok] at h
      obtain ⟨n, ⟨rfl, hn⟩, h⟩ := h
      cases h
      exact ⟨hn, Or.inr ⟨hc, rfl⟩⟩
    · rename_i hc
      simp only [Out.bind_eq_ok, sizeAsUsize_ok] at h
      obtain ⟨n, ⟨rfl, hn⟩, h⟩ := h
      cases h
      exact ⟨hn, Or.inl ⟨hc, rfl⟩⟩
  · rintro ⟨s, hd, hn, ⟨hc, rfl⟩ | ⟨hc, rfl⟩⟩
    · refine ⟨s, hd, ?_⟩
      simp only [hc, Out.bind_eq_ok, sizeAsUsize_ok]
      exact ⟨_, ⟨rfl, hn⟩, rfl⟩
    · refine ⟨s, hd, ?_⟩
      simp only [hc, Out.bind_eq_ok, sizeAsUsize_ok]
      exact ⟨_, ⟨rfl, hn⟩, rfl⟩

theorem arrayInner_ok {n : Nat} {d d' : DType} : arrayInner n d = .ok d' ↔ d = .array n d' := by
  cases d with
  | plain => simp [arrayInner]
  | record => simp [arrayInner]
  | array m d =>
    simp only [arrayInner, DType.array.injEq]
    split
    · simp [*]
    · rename_i h
      simp only [ne_eq, Decidable.not_not] at h
      simp [h]

theorem extractFields_ok {names : List Text} {d : DType} {fs : Fields} :
    extractFields names d = .ok fs ↔ d = .record fs ∧ fs.names = names := by
  cases d with
  | plain => simp [extractFields]
  | array => simp [extractFields]
  | record gs =>
    simp only [extractFields, DType.record.injEq]
    split
    · rename_i h
      simp only [Out.ok.injEq]
      constructor
      · rintro rfl; exact ⟨rfl, h⟩
      · exact fun h => h.1
    · rename_i h
      simp only [reduceCtorEq, false_iff, not_and]
      rintro rfl
      exact h

/-! ### Readers of scalars -/

theorem readWord_reads {M : Machine} {e : Endianness} {w : Nat} (ho : Ordered e w) :
    Reads (readWord M w (swapFor M e)) w (fun bs => some (BitVec.ofNat (8 * w) (wordValue e bs))) := by
  unfold readWord
  refine ((Reads.readExact w).map fun buf => if swapFor M e then swapBytes (fromNe M w buf) else fromNe M w buf).congr
    fun bs hl => ?_
  simp only [Option.map_some]
  rw [readWord_value hl ho]

theorem readBool_reads : Reads readBool 1
    (fun bs => if bs = [0] then some false else if bs = [1] then some true else none) := by
  unfold readBool
  refine ((Reads.readExact 1).mapRes (fun buf => boolOfByte (buf.headD 0))
    (fun buf => if (buf.headD 0).toNat ≥ 2 then none else some ((buf.headD 0).toNat != 0)) fun buf => ?_).congr
    fun bs hl => ?_
  · unfold boolOfByte
    split
    · exact Or.inr ⟨_, rfl, rfl⟩
    · exact Or.inl ⟨_, rfl, rfl⟩
  · match bs, hl with
    | [b], _ =>
      simp only [Option.bind_some, List.headD_cons, List.cons.injEq, and_true]
      by_cases h0 : b = 0
      · subst h0; decide
      · by_cases h1 : b = 1
        · subst h1; decide
        · rw [if_neg h0, if_neg h1]
          apply if_pos
          have h0' : b.toNat ≠ 0 := fun h => h0 (UInt8.toNat.inj h)
          have h1' : b.toNat ≠ 1 := fun h => h1 (UInt8.toNat.inj h)
          omega

theorem readComplex_reads {M : Machine} {e : Endianness} {w : Nat} (ho : Ordered e w) :
    Reads (readComplex M w (swapFor M e)) (w + w) (fun bs => some (BitVec.ofNat (8 * w) (wordValue e (bs.take w)),
      BitVec.ofNat (8 * w) (wordValue e (bs.drop w)))) := by
  unfold readComplex
  exact ((readWord_reads ho).bind fun re => (readWord_reads ho).map fun im => (re, im)).congr fun bs _ => rfl

theorem allocBytes_ok {M : Machine} {n : Nat} (h : n ≤ M.isizeMax) : M.allocBytes n = .ok () := if_pos h

theorem readBytes_reads {M : Machine} {i : ByteInfo} (h : i.size ≤ M.isizeMax) :
    Reads (readBytes M i) i.size (fun bs => some (if i.isByteStr then trimEnd (· == 0) bs else bs)) := by
  unfold readBytes
  refine Reads.liftBind (allocBytes_ok h) (((Reads.readExact i.size).map fun vec =>
    if i.isByteStr then truncateNuls byteIsNul vec else vec).congr fun bs _ => ?_)
  simp only [truncateNuls_eq, Option.map_some]
  rfl

theorem readFixed_reads (n : Nat) : Reads (readFixed n) n (fun bs => if h : bs.length = n then some ⟨bs, h⟩ else none) where
  ok bs rest v hl hv := by
    rw [dif_pos hl] at hv
    cases hv
    have h1 : (bs ++ rest).take n = bs := List.take_left' hl
    have h2 : (bs ++ rest).drop n = rest := List.drop_left' hl
    rw [readFixed, RProg.run, if_pos (by simp [hl]), h1, h2, dif_pos hl]
    rfl
  bad bs rest hl hv := by
    rw [dif_pos hl] at hv; cases hv
  short bs hl := by
    refine ⟨.unexpectedEof, [], ?_, Or.inl rfl⟩
    rw [readFixed, RProg.run, if_neg (by omega)]

theorem readArrayVecBytes_reads {M : Machine} {cap : Nat} {i : ByteInfo} {s : TypeStr} (h : i.size ≤ M.isizeMax)
    (hi : (s.typeChar = .byteStr ∧ i.isByteStr = true) ∨ (s.typeChar = .rawData ∧ i.isByteStr = false ∧ i.size ≤ cap)) :
    Reads (readArrayVecBytes M cap i) i.size (fun bs => some (arrayVecBytes cap s bs)) := by
  have key : ∀ bs : Bytes, bs.length = i.size → arrayVecOut cap i (bs.take (min cap i.size)) = (arrayVecBytes cap s bs).1 := by
    intro bs hl
    have hcap : bs.take (min cap i.size) = bs.take cap := by
      rw [← hl]
      by_cases hc : cap ≤ bs.length
      · rw [Nat.min_eq_left hc]
      · rw [Nat.min_eq_right (by omega), List.take_of_length_le (Nat.le_refl _), List.take_of_length_le (by omega)]
    have hlen : (bs.take cap ++ List.replicate (cap - (bs.take cap).length) 0).take cap
        = bs.take cap ++ List.replicate (cap - (bs.take cap).length) 0 := by
      apply List.take_of_length_le
      simp
      omega
    rw [hcap]
    unfold arrayVecBytes arrayVecOut
    rcases hi with ⟨h1, h2⟩ | ⟨h1, h2, h3⟩
    · simp only [h1, h2, if_true, truncateNuls_eq, hlen]
      exact trimEnd_append_zeros (p := byteIsNul) fun x hx => by
        rw [List.mem_replicate] at hx
        rw [hx.2]
        rfl
    · simp only [h1, h2, Bool.false_eq_true, if_false, reduceCtorEq]
      rw [List.take_of_length_le (l := bs) (by omega)]
  have hskip : Reads (skipRest M cap i) (i.size - cap) (fun _ => some ()) := by
    unfold skipRest
    split
    · exact Reads.liftBind (allocBytes_ok (M := M) (n := i.size - cap) (by omega))
        (((Reads.readExact (i.size - cap)).map fun _ => ()).congr fun _ _ => rfl)
    · rename_i hc
      have : i.size - cap = 0 := by omega
      rw [this]
      exact Reads.pure ()
  have hb := (Reads.readExact (min cap i.size)).bind fun head => hskip.map fun _ =>
    (⟨arrayVecOut cap i head, arrayVecOut_length cap i head⟩ : { l : Bytes // l.length ≤ cap })
  rw [show min cap i.size + (i.size - cap) = i.size by omega] at hb
  refine hb.congr fun bs hl => ?_
  simp only [Option.bind_some, Option.map_some, Option.some.injEq]
  exact Subtype.ext (key bs hl)

theorem readCodePoint_reads {M : Machine} {e : Endianness} (ho : e ≠ .irrelevant) :
    Reads (readCodePoint M (swapFor M e)) 4 (decodeUnit e) := by
  unfold readCodePoint
  refine ((readWord_reads (Or.inl ho)).mapRes validateCodeUnit
    (fun x => if x.toNat < 0x110000 then some x else none) fun x => ?_).congr fun bs hl => ?_
  · unfold validateCodeUnit
    split
    · exact Or.inl ⟨_, rfl, rfl⟩
    · exact Or.inr ⟨_, rfl, rfl⟩
  · have := wordValue_lt e bs
    rw [hl] at this
    simp only [Option.bind_some, decodeUnit]
    rw [ofNat_word this]

theorem readChar_reads {M : Machine} {e : Endianness} (ho : e ≠ .irrelevant) :
    Reads (readChar M (swapFor M e)) 4 (Spec.decodeChar e) := by
  unfold readChar
  refine ((readWord_reads (Or.inl ho)).mapRes charOfWord (fun x => charOfNat? x.toNat) fun x => ?_).congr fun bs hl => ?_
  · unfold charOfWord
    cases charOfNat? x.toNat with
    | some c => exact Or.inl ⟨_, rfl, rfl⟩
    | none => exact Or.inr ⟨_, rfl, rfl⟩
  · have := wordValue_lt e bs
    rw [hl] at this
    simp only [Option.bind_some, Spec.decodeChar]
    rw [ofNat_word this]

theorem readVecU32_reads {M : Machine} {e : Endianness} (ho : e ≠ .irrelevant) (n : Nat) :
    Reads (readVecU32 M (swapFor M e) n) (n * 4)
      (fun bs => (decodeMany (decodeUnit e) 4 n bs).map fun l => trimEnd (· == 0) l.1) := by
  unfold readVecU32
  refine (((readCodePoint_reads ho).many n).map fun l => truncateNuls wordIsNul l.1).congr fun bs _ => ?_
  simp only [truncateNuls_eq]
  rfl

theorem readVecChar_reads {M : Machine} {e : Endianness} (ho : e ≠ .irrelevant) (n : Nat) :
    Reads (readVecChar M (swapFor M e) n) (n * 4)
      (fun bs => (decodeMany (Spec.decodeChar e) 4 n bs).map fun l => trimEnd (· == '\x00') l.1) := by
  unfold readVecChar
  refine (((readChar_reads ho).many n).map fun l => truncateNuls charIsNul l.1).congr fun bs _ => ?_
  simp only [truncateNuls_eq]
  rfl

theorem readUtf32String_reads {M : Machine} {e : Endianness} (ho : e ≠ .irrelevant) (n : Nat) :
    Reads (readUtf32String M (swapFor M e) n) (n * 4)
      (fun bs => (decodeMany (Spec.decodeChar e) 4 n bs).map fun l => trimEnd (· == '\x00') l.1) := by
  unfold readUtf32String
  refine (((readChar_reads ho).many n).map fun l => popNuls l.1).congr fun bs _ => ?_
  simp only [popNuls_eq]

/-- Decoding `a + b` pieces: the first `a`, then the others. -/
theorem decodeMany_add {α : Type} (f : Bytes → Option α) (k a b : Nat) (bs : Bytes) :
    (decodeMany f k (a + b) bs).map (·.1) =
      (decodeMany f k a bs).bind fun x => (decodeMany f k b (bs.drop (a * k))).map fun y => x.1 ++ y.1 := by
  induction a generalizing bs with
  | zero =>
    simp only [decodeMany, Option.bind_some, Nat.zero_mul, List.drop_zero, List.nil_append]
    have : ∀ m, m = b → (decodeMany f k m bs).map (·.1) = (decodeMany f k b bs).map (·.1) := by
      rintro m rfl; rfl
    exact this _ (Nat.zero_add b)
  | succ a ih =>
    have e1 : ∀ m, m = (a + b) + 1 → (decodeMany f k m bs).map (·.1) = (decodeMany f k ((a + b) + 1) bs).map (·.1) := by
      rintro m rfl; rfl
    rw [e1 _ (by omega)]
    have ih' := ih (bs.drop k)
    have hdrop : (bs.drop k).drop (a * k) = bs.drop ((a + 1) * k) := by
      rw [List.drop_drop, Nat.succ_mul, Nat.add_comm]
    rw [hdrop] at ih'
    simp only [decodeMany]
    cases f (bs.take k) with
    | none => simp
    | some x =>
      cases h2 : decodeMany f k (a + b) (bs.drop k) with
      | none =>
        rw [h2] at ih'
        cases h3 : decodeMany f k a (bs.drop k) with
        | none => simp
        | some y =>
          rw [h3] at ih'
          simp only [Option.map_none, Option.bind_some] at ih' ⊢
          cases h4 : decodeMany f k b (bs.drop ((a + 1) * k)) with
          | none => simp
          | some z => rw [h4] at ih'; simp at ih'
      | some w =>
        rw [h2] at ih'
        cases h3 : decodeMany f k a (bs.drop k) with
        | none => rw [h3] at ih'; simp at ih'
        | some y =>
          rw [h3] at ih'
          simp only [Option.map_some, Option.bind_some] at ih' ⊢
          cases h4 : decodeMany f k b (bs.drop ((a + 1) * k)) with
          | none => rw [h4] at ih'; simp at ih'
          | some z =>
            rw [h4] at ih'
            simp at ih'
            simp [ih']

theorem readArrayVec_reads {α : Type} {unit : RProg α} {f : Bytes → Option α} {k : Nat} (hu : Reads unit k f)
    (isNull : α → Bool) (cap n : Nat) :
    Reads (readArrayVec unit isNull cap n) (n * k) (fun bs => (decodeMany f k n bs).map fun l =>
      ⟨trimEnd isNull (l.1.take cap), trimEnd_take_le _ _ _⟩) := by
  unfold readArrayVec
  have hsum : n * k = min n cap * k + (n - cap) * k := by
    rw [← Nat.add_mul]; congr 1; omega
  rw [hsum]
  refine ((hu.many (min n cap)).bind fun out => (hu.many (n - cap)).map fun _ =>
    (⟨truncateNuls isNull out.1, _⟩ : { l : List α // l.length ≤ cap })).congr fun bs hl => ?_
  have hadd := decodeMany_add f k (min n cap) (n - cap) bs
  have hn : ∀ m, m = n → (decodeMany f k m bs).map (·.1) = (decodeMany f k n bs).map (·.1) := by
    rintro m rfl; rfl
  rw [hn _ (by omega)] at hadd
  have htake : ∀ m (bs : Bytes), decodeMany f k m (bs.take (m * k)) = decodeMany f k m bs := by
    intro m
    induction m with
    | zero => intro bs; rfl
    | succ m ih =>
      intro bs
      have e1 : (bs.take ((m + 1) * k)).take k = bs.take k := by
        rw [List.take_take, Nat.min_eq_left]
        rw [Nat.succ_mul]; omega
      have e2 : (bs.take ((m + 1) * k)).drop k = (bs.drop k).take (m * k) := by
        rw [List.drop_take]; congr 1; rw [Nat.succ_mul]; omega
      simp only [decodeMany, e1, e2, ih]
  rw [htake]
  cases h1 : decodeMany f k n bs with
  | none =>
    rw [h1] at hadd
    cases h2 : decodeMany f k (min n cap) bs with
    | none => rfl
    | some x =>
      rw [h2] at hadd
      cases h3 : decodeMany f k (n - cap) (bs.drop (min n cap * k)) with
      | none => simp [h3]
      | some y => rw [h3] at hadd; simp at hadd
  | some w =>
    rw [h1] at hadd
    cases h2 : decodeMany f k (min n cap) bs with
    | none => rw [h2] at hadd; simp at hadd
    | some x =>
      rw [h2] at hadd
      cases h3 : decodeMany f k (n - cap) (bs.drop (min n cap * k)) with
      | none => rw [h3] at hadd; simp at hadd
      | some y =>
        rw [h3] at hadd
        simp at hadd
        simp only [Option.bind_some, Option.map_some, Option.some.injEq, h3]
        apply Subtype.ext
        simp only [truncateNuls_eq]
        have hw : w.1.take cap = x.1 := by
          rw [hadd]
          by_cases hc : cap ≤ n
          · exact List.take_left' (by rw [x.2]; omega)
          · have hy : y.1 = [] := List.length_eq_zero_iff.mp (by rw [y.2]; omega)
            rw [hy, List.append_nil, List.take_of_length_le]
            rw [x.2]; omega
        rw [hw]

theorem textOfBytes_cases (b : Bytes) : (∃ t, textOfBytes b = .ok t ∧ decodeUtf8 b = some t) ∨
    (∃ why, textOfBytes b = .err (.invalidData why) ∧ decodeUtf8 b = none) := by
  unfold textOfBytes
  cases decodeUtf8 b with
  | some c => exact Or.inl ⟨_, rfl, rfl⟩
  | none => exact Or.inr ⟨_, rfl, rfl⟩

theorem readUtf8String_reads {M : Machine} {n : Nat} (h : n ≤ M.isizeMax) :
    Reads (readUtf8String M ⟨n, true⟩) n decodeUtf8Item := by
  unfold readUtf8String
  exact ((readBytes_reads (i := ⟨n, true⟩) h).mapRes textOfBytes decodeUtf8 textOfBytes_cases).congr fun bs _ => rfl

theorem readArrayString_reads {M : Machine} {cap n : Nat} (h : n ≤ M.isizeMax) :
    Reads (readArrayString M cap ⟨n, true⟩) n
      (fun bs => (decodeUtf8Item bs).map fun l => ⟨fitPrefix cap l, encode_fitPrefix_le _ _⟩) := by
  unfold readArrayString
  refine ((readUtf8String_reads h).mapRes (fun s => toArrayString cap (popToBytes cap s))
    (fun l => some ⟨fitPrefix cap l, encode_fitPrefix_le _ _⟩) fun s => ?_).congr fun bs _ => ?_
  · refine Or.inl ⟨_, ?_, rfl⟩
    unfold toArrayString
    rw [dif_pos (by rw [popToBytes_eq]; exact encode_fitPrefix_le _ _)]
    congr 1
    apply Subtype.ext
    exact popToBytes_eq cap s
  · cases decodeUtf8Item bs <;> rfl

end Npyz
