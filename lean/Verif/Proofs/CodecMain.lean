import Verif.Proofs.Codec
/-!
The main refinement theorems for readers and writers, by induction on the element type.
-/
namespace Npyz
open Spec

theorem prim_kind {p : Prim} {c : TypeChar} (h : p.supports c = true) :
    c = .int ∨ c = .uint ∨ c = .float ∨ c = .timeDelta ∨ c = .dateTime := by
  cases p <;> cases c <;> simp_all [Prim.supports, Prim.mainTy]

theorem ordered_prim {p : Prim} {s : TypeStr} (hw : s.Wf) (hs : s.size = p.size) (hc : p.supports s.typeChar = true) :
    Ordered s.endianness p.size := by
  by_cases h1 : p.size = 1
  · exact Or.inr h1
  · refine Or.inl (hw.valid.order_given (Or.inr ⟨?_, ?_, ?_, by rw [hs]; exact h1⟩)) <;>
      rcases prim_kind hc with h | h | h | h | h <;> simp [h]

theorem ordered_complex {f : FloatTy} {s : TypeStr} (hw : s.Wf) (hs : s.size = 2 * f.size) (hc : s.typeChar = .complex) :
    Ordered s.endianness f.size := by
  refine Or.inl (hw.valid.order_given (Or.inr ⟨?_, ?_, ?_, ?_⟩))
  · simp [hc]
  · simp [hc]
  · simp [hc]
  · rw [hs]; cases f <;> simp [FloatTy.size]

theorem ordered_unicode {s : TypeStr} (hw : s.Wf) (hc : s.typeChar = .unicodeStr) : s.endianness ≠ .irrelevant :=
  hw.valid.order_given (Or.inl hc)

theorem exact_plain {s : TypeStr} {n : Nat} (h : exactBytes (.plain s) = some n) :
    s.typeChar ≠ .object ∧ ((s.typeChar = .unicodeStr ∧ n = s.size * 4) ∨ (s.typeChar ≠ .unicodeStr ∧ n = s.size)) := by
  simp only [exactBytes, itemBytes] at h
  split at h
  · cases h
  · rename_i h0
    refine ⟨h0, ?_⟩
    split at h
    · rename_i h1; cases h; exact Or.inl ⟨h1, Nat.mul_comm _ _⟩
    · rename_i h1; cases h; exact Or.inr ⟨h1, rfl⟩

theorem exact_unicode {s : TypeStr} {n : Nat} (h : exactBytes (.plain s) = some n) (hc : s.typeChar = .unicodeStr) :
    n = s.size * 4 := by
  rcases (exact_plain h).2 with h | h
  · exact h.2
  · exact absurd hc h.1

theorem exact_other {s : TypeStr} {n : Nat} (h : exactBytes (.plain s) = some n) (hc : s.typeChar ≠ .unicodeStr) :
    n = s.size := by
  rcases (exact_plain h).2 with h | h
  · exact absurd h.1 hc
  · exact h.2

theorem exact_array {m n : Nat} {d : DType} (h : exactBytes (.array m d) = some n) : ∃ k, exactBytes d = some k ∧ n = m * k := by
  simp only [exactBytes, Option.map_eq_some_iff] at h
  obtain ⟨k, hk, rfl⟩ := h
  exact ⟨k, hk, rfl⟩

theorem exact_cons {name : Text} {d : DType} {rest : Fields} {n : Nat} (h : exactFieldBytes (.cons name d rest) = some n) :
    ∃ a b, exactBytes d = some a ∧ exactFieldBytes rest = some b ∧ n = a + b := by
  simp only [exactFieldBytes] at h
  split at h
  · rename_i a b ha hb
    cases h
    exact ⟨a, b, ha, hb, rfl⟩
  · cases h

mutual
theorem reader_reads {M : Machine} : (t : Ty) → {d : DType} → {p : RProg t.Val} → {n : Nat} →
    t.reader M d = .ok p → d.Wf → exactBytes d = some n → n ≤ M.isizeMax → Reads p n (decode t d)
  | .num q, d, p, n, h, hw, hn, hm => by
    simp only [Ty.reader, Out.bind_eq_ok, checkPrim_ok] at h
    obtain ⟨e, ⟨s, rfl, hs, hc, rfl⟩, h⟩ := h
    cases h
    have hn' : n = q.size := by
      rw [← hs]
      apply exact_other hn
      rcases prim_kind hc with h | h | h | h | h <;> simp [h]
    subst hn'
    exact (readWord_reads (ordered_prim hw hs hc)).congr fun bs hl => rfl
  | .bool, d, p, n, h, hw, hn, hm => by
    simp only [Ty.reader, Out.bind_eq_ok, checkBool_ok] at h
    obtain ⟨⟨⟩, ⟨s, rfl, hs, hc⟩, h⟩ := h
    cases h
    have hn' : n = 1 := by rw [← hs]; exact exact_other hn (by simp [hc])
    subst hn'
    exact readBool_reads.congr fun bs hl => rfl
  | .complex f, d, p, n, h, hw, hn, hm => by
    simp only [Ty.reader, Out.bind_eq_ok, checkComplex_ok] at h
    obtain ⟨e, ⟨s, rfl, hs, hc, rfl⟩, h⟩ := h
    cases h
    have hn' : n = f.size + f.size := by rw [exact_other hn (by simp [hc]), hs]; omega
    subst hn'
    exact (readComplex_reads (ordered_complex hw hs hc)).congr fun bs hl => rfl
  | .vecU8, d, p, n, h, hw, hn, hm => by
    simp only [Ty.reader, Out.bind_eq_ok, checkByteVec_ok] at h
    obtain ⟨i, ⟨s, rfl, -, hs, hc⟩, h⟩ := h
    cases h
    have hn' : n = i.size := by rw [hs]; apply exact_other hn; rcases hc with hc | hc <;> simp [hc.1]
    subst hn'
    refine (readBytes_reads hm).congr fun bs hl => ?_
    rcases hc with hc | hc <;> simp [decode, onPlain, hc.1, hc.2] <;> rfl
  | .arrayVecU8 cap, d, p, n, h, hw, hn, hm => by
    simp only [Ty.reader, Out.bind_eq_ok, checkArrayByteVec_ok] at h
    obtain ⟨i, ⟨s, rfl, -, hs, hc⟩, h⟩ := h
    cases h
    have hn' : n = i.size := by rw [hs]; apply exact_other hn; rcases hc with hc | hc <;> simp [hc.1]
    subst hn'
    rw [← hs] at hc
    exact (readArrayVecBytes_reads hm hc).congr fun bs hl => rfl
  | .fixedBytes k, d, p, n, h, hw, hn, hm => by
    simp only [Ty.reader, Out.bind_eq_ok, checkFixed_ok] at h
    obtain ⟨⟨⟩, ⟨s, rfl, -, hc, hs⟩, h⟩ := h
    cases h
    have hn' : n = k := by rw [← hs]; exact exact_other hn (by simp [hc])
    subst hn'
    exact (readFixed_reads _).congr fun bs hl => rfl
  | .vecU32, d, p, n, h, hw, hn, hm => by
    simp only [Ty.reader, Out.bind_eq_ok, checkUnicode_ok] at h
    obtain ⟨x, ⟨s, rfl, -, hc, rfl⟩, h⟩ := h
    cases h
    rw [exact_unicode hn hc]
    exact (readVecU32_reads (ordered_unicode hw hc) _).congr fun bs hl => rfl
  | .vecChar, d, p, n, h, hw, hn, hm => by
    simp only [Ty.reader, Out.bind_eq_ok, checkUnicode_ok] at h
    obtain ⟨x, ⟨s, rfl, -, hc, rfl⟩, h⟩ := h
    cases h
    rw [exact_unicode hn hc]
    exact (readVecChar_reads (ordered_unicode hw hc) _).congr fun bs hl => rfl
  | .string, d, p, n, h, hw, hn, hm => by
    simp only [Ty.reader, Out.bind_eq_ok, readFormat_ok] at h
    obtain ⟨f, ⟨s, rfl, -, ⟨hc, rfl⟩ | ⟨hc, rfl⟩⟩, h⟩ := h
    · cases h
      have hs := exact_other hn (by simp [hc])
      subst hs
      exact (readUtf8String_reads hm).congr fun bs hl => by simp [decode, onPlain, hc]
    · cases h
      rw [exact_unicode hn hc]
      exact (readUtf32String_reads (ordered_unicode hw hc) _).congr fun bs hl => by simp only [decode, onPlain, hc]; rfl
  | .arrayVecU32 cap, d, p, n, h, hw, hn, hm => by
    simp only [Ty.reader, Out.bind_eq_ok, checkUnicodeArrayVec_ok] at h
    obtain ⟨x, ⟨s, rfl, -, hc, rfl⟩, h⟩ := h
    cases h
    rw [exact_unicode hn hc]
    exact (readArrayVec_reads (readCodePoint_reads (ordered_unicode hw hc)) wordIsNul cap s.size).congr
      fun bs hl => rfl
  | .arrayVecChar cap, d, p, n, h, hw, hn, hm => by
    simp only [Ty.reader, Out.bind_eq_ok, checkUnicodeArrayVec_ok] at h
    obtain ⟨x, ⟨s, rfl, -, hc, rfl⟩, h⟩ := h
    cases h
    rw [exact_unicode hn hc]
    exact (readArrayVec_reads (readChar_reads (ordered_unicode hw hc)) charIsNul cap s.size).congr
      fun bs hl => rfl
  | .arrayString cap, d, p, n, h, hw, hn, hm => by
    simp only [Ty.reader, Out.bind_eq_ok, readArrayFormat_ok] at h
    obtain ⟨f, ⟨s, rfl, -, hc, rfl⟩, h⟩ := h
    cases h
    have hs := exact_other hn (by simp [hc])
    subst hs
    exact (readArrayString_reads hm).congr fun bs hl => rfl
  | .array m t, d, p, n, h, hw, hn, hm => by
    simp only [Ty.reader, Out.bind_eq_ok, arrayInner_ok] at h
    obtain ⟨d', rfl, q, hq, h⟩ := h
    cases h
    obtain ⟨k, hk, rfl⟩ := exact_array hn
    cases m with
    | zero =>
      rw [Nat.zero_mul]
      refine (Reads.pure _).congr fun bs hl => ?_
      simp only [decode, onArray, hk]
      rfl
    | succ m =>
      have hkm : k ≤ M.isizeMax := Nat.le_trans (Nat.le_mul_of_pos_left k (Nat.succ_pos m)) hm
      refine ((reader_reads t hq hw.2 hk hkm).many (m + 1)).congr fun bs hl => ?_
      simp only [decode, onArray, hk]
      rfl
  | .record fs, d, p, n, h, hw, hn, hm => by
    obtain ⟨dfs, h1, h2⟩ := (Out.bind_eq_ok (x := extractFields fs.names d) (f := fun dfs => fs.reader M dfs)).mp h
    obtain ⟨rfl, hnames⟩ := extractFields_ok.mp h1
    exact (fields_reads fs hnames h2 hw hn hm).congr fun bs hl => rfl
theorem fields_reads {M : Machine} : (fs : TFields) → {dfs : Fields} → {p : RProg fs.Val} → {n : Nat} →
    dfs.names = fs.names → fs.reader M dfs = .ok p → dfs.Wf → exactFieldBytes dfs = some n → n ≤ M.isizeMax →
    Reads p n (decodeFields fs dfs)
  | .nil, .nil, p, n, _, h, hw, hn, hm => by
    simp only [TFields.reader] at h
    cases h
    simp only [exactFieldBytes] at hn
    cases hn
    exact (Reads.pure _).congr fun bs hl => rfl
  | .nil, .cons _ _ _, p, n, hnames, h, hw, hn, hm => by
    simp [TFields.names, Fields.names] at hnames
  | .cons _ _ _, .nil, p, n, hnames, h, hw, hn, hm => by
    simp [TFields.names, Fields.names] at hnames
  | .cons name t rest, .cons name' d dfs, p, n, hnames, h, hw, hn, hm => by
    simp only [TFields.names, Fields.names, List.cons.injEq] at hnames
    simp only [TFields.reader, Out.bind_eq_ok] at h
    obtain ⟨q, hq, r, hr, h⟩ := h
    cases h
    obtain ⟨a, b, ha, hb, rfl⟩ := exact_cons hn
    have h1 := reader_reads t hq hw.1 ha (by omega)
    have h2 := fields_reads rest hnames.2 hr hw.2 hb (by omega)
    refine (h1.bind fun x => h2.map fun xs => (x, xs)).congr fun bs hl => ?_
    show _ = (exactBytes d).bind fun k => decodePair k (decode t d) (decodeFields rest dfs) bs
    rw [ha]
    simp only [Option.bind_some, decodePair]
    cases decode t d (bs.take a) with
    | none => rfl
    | some v => cases decodeFields rest dfs (bs.drop a) <;> rfl
end

/-! ### Writers -/

theorem Writes.liftOk {q : WProg Unit} {r : Res Unit} {n : Nat} {o : Option Bytes} (hr : r = .ok ()) (h : Writes q n o) :
    Writes (WProg.lift r >>= fun _ => q) n o := by
  subst hr; exact h

theorem Writes.liftErr {q : WProg Unit} {r : Res Unit} {n : Nat} {why : String} (hr : r = .err (.invalidData why)) :
    Writes (WProg.lift r >>= fun _ => q) n none := by
  subst hr
  exact ⟨[], why, Nat.zero_le _, .ret _⟩

theorem writeWord_writes {M : Machine} {e : Endianness} {w : Nat} (ho : Ordered e w) (x : Word w) :
    Writes (writeWord M (swapFor M e) x) w (some (wordBytes e w x.toNat)) := by
  unfold writeWord
  rw [writeWord_value x ho]
  exact Writes.put (by simp)

theorem writeBool_writes (b : Bool) : Writes (writeBool b) 1 (some [boolByte b]) := Writes.put rfl

theorem writeComplex_writes {M : Machine} {e : Endianness} {w : Nat} (ho : Ordered e w) (x : Word w × Word w) :
    Writes (writeComplex M (swapFor M e) x) (w + w) (some (wordBytes e w x.1.toNat ++ wordBytes e w x.2.toNat)) :=
  (writeWord_writes ho x.1).append (writeWord_writes ho x.2)

theorem writeBytes_writes {M : Machine} {i : ByteInfo} {s : TypeStr} (hm : i.size ≤ M.isizeMax) (hs : i.size = s.size)
    (hc : (s.typeChar = .byteStr ∧ i.isByteStr = true) ∨ (s.typeChar = .rawData ∧ i.isByteStr = false)) (b : Bytes) :
    Writes (writeBytes M i b) i.size (encodeBytes s b) := by
  unfold writeBytes encodeBytes padBytes
  rw [← hs]
  rcases hc with ⟨hc, hi⟩ | ⟨hc, hi⟩
  · rw [if_pos hc]
    by_cases hl : b.length ≤ i.size
    · rw [if_pos hl]
      refine Writes.liftOk (if_neg (by simp [hi]; exact hl)) ?_
      rw [if_pos hi]
      have h := (Writes.put (b := b) rfl).append (Writes.liftOk (allocBytes_ok (M := M) (n := i.size - b.length) (by omega))
        (Writes.put (b := List.replicate (i.size - b.length) 0) List.length_replicate))
      rw [show b.length + (i.size - b.length) = i.size by omega] at h
      exact h
    · rw [if_neg hl]
      exact Writes.liftErr (if_pos (Or.inl (by omega)))
  · have hc' : s.typeChar ≠ .byteStr := by simp [hc]
    rw [if_neg hc']
    by_cases hl : b.length = i.size
    · rw [if_pos hl]
      refine Writes.liftOk (if_neg (by omega)) ?_
      have hi' : ¬ i.isByteStr = true := by simp [hi]
      rw [if_neg hi']
      have h := (Writes.put (b := b) rfl).append Writes.nil
      rw [← hl]
      simpa [both] using h
    · rw [if_neg hl]
      refine Writes.liftErr (if_pos ?_)
      rcases Nat.lt_or_gt_of_ne hl with h | h
      · exact Or.inr ⟨h, hi⟩
      · exact Or.inl h

theorem zeros_writes {M : Machine} {e : Endianness} (ho : e ≠ .irrelevant) (k : Nat) :
    Writes (writeMany (writeWord M (swapFor M e)) (List.replicate k (0 : Word 4))) (k * 4)
      (some ((List.replicate k 0).flatMap (wordBytes e 4))) := by
  have h := Writes.many (fun x : Word 4 => writeWord_writes (M := M) (e := e) (Or.inl ho) x) (List.replicate k (0 : Word 4))
  rw [encodeAll_flatMap, List.length_replicate] at h
  rwa [List.flatMap_replicate] at h ⊢

theorem encodeAll_check {α : Type} (p : α → Prop) [DecidablePred p] (f : α → Bytes) (l : List α) :
    encodeAll (fun x => if p x then some (f x) else none) l = if ∀ x ∈ l, p x then some (l.flatMap f) else none := by
  induction l with
  | nil => simp [encodeAll]
  | cons x xs ih =>
    rw [encodeAll, ih]
    simp only [List.mem_cons, forall_eq_or_imp]
    by_cases h1 : p x
    · by_cases h2 : ∀ y ∈ xs, p y
      · rw [if_pos h1, if_pos h2, if_pos ⟨h1, h2⟩]; rfl
      · rw [if_pos h1, if_neg h2, if_neg (fun h => h2 h.2)]; rfl
    · rw [if_neg h1, if_neg (c := p x ∧ ∀ y ∈ xs, p y) (fun h => h1 h.1)]; rfl

theorem writeCodePoint_writes {M : Machine} {e : Endianness} (ho : e ≠ .irrelevant) (x : Word 4) :
    Writes (writeCodePoint M (swapFor M e) x) 4
      (if x.toNat < 0x110000 then some (wordBytes e 4 x.toNat) else none) := by
  unfold writeCodePoint validateCodeUnit
  split
  · exact writeWord_writes (Or.inl ho) x
  · exact ⟨[], _, by simp, .ret _⟩

theorem writeVecU32_writes {M : Machine} {s : TypeStr} (ho : s.endianness ≠ .irrelevant) (l : List (Word 4)) :
    Writes (writeVecU32 M (swapFor M s.endianness) s.size l) (s.size * 4) (encodeUnits s l) := by
  unfold writeVecU32 encodeUnits padUnits
  rw [List.length_map]
  by_cases hl : l.length ≤ s.size
  · rw [if_pos hl]
    refine Writes.liftOk (if_neg (by omega)) ?_
    have h := (Writes.many (writeCodePoint_writes (M := M) ho) l).append (zeros_writes (M := M) ho (s.size - l.length))
    rw [← Nat.add_mul, show l.length + (s.size - l.length) = s.size by omega,
      encodeAll_check (fun x : Word 4 => x.toNat < 0x110000) (fun x => wordBytes s.endianness 4 x.toNat)] at h
    refine cast (congrArg _ ?_) h
    split
    · rw [List.flatMap_append, List.flatMap_map]; rfl
    · rfl
  · rw [if_neg hl]
    have : (if ∀ x ∈ l, x.toNat < 0x110000 then none else none : Option Bytes) = none := by split <;> rfl
    rw [this]
    exact Writes.liftErr (if_pos (by omega))

theorem charWord_toNat (c : Char) : (charWord c).toNat = c.toNat := by
  have := char_toNat_lt c
  exact ofNat_word (w := 4) (by omega)

theorem writeVecChar_writes {M : Machine} {s : TypeStr} (ho : s.endianness ≠ .irrelevant) (l : Text) :
    Writes (writeVecChar M (swapFor M s.endianness) s.size l) (s.size * 4) (encodeChars s l) := by
  unfold writeVecChar encodeChars padUnits
  rw [List.length_map]
  by_cases hl : l.length ≤ s.size
  · rw [if_pos hl]
    refine Writes.liftOk (if_neg (by omega)) ?_
    have h := (Writes.many (fun c => writeWord_writes (M := M) (e := s.endianness) (Or.inl ho) (charWord c)) l).append
      (zeros_writes (M := M) ho (s.size - l.length))
    rw [← Nat.add_mul, show l.length + (s.size - l.length) = s.size by omega, encodeAll_flatMap] at h
    refine cast (congrArg _ ?_) h
    simp only [charWord_toNat, both, List.flatMap_append, List.flatMap_map]
  · rw [if_neg hl]
    exact Writes.liftErr (if_pos (by omega))

theorem writeStrLoop_writes {M : Machine} {e : Endianness} (ho : e ≠ .irrelevant) (n : Nat) (l : Text) (used : Nat) :
    Writes (writeStrLoop M (swapFor M e) n used l) ((n - used) * 4) (padUnits e (n - used) (l.map (·.toNat))) := by
  unfold padUnits
  rw [List.length_map]
  induction l generalizing used with
  | nil =>
    simp only [writeStrLoop, List.length_nil, Nat.zero_le, if_true, List.map_nil, List.nil_append, Nat.sub_zero]
    exact zeros_writes ho _
  | cons c cs ih =>
    rw [writeStrLoop]
    by_cases hu : n < used + 1
    · rw [if_pos hu, if_neg (by simp; omega)]
      exact ⟨[], _, Nat.zero_le _, .ret _⟩
    · rw [if_neg hu]
      have h := (writeWord_writes (M := M) (e := e) (Or.inl ho) (charWord c)).append (ih (used + 1))
      rw [show 4 + (n - (used + 1)) * 4 = (n - used) * 4 by omega] at h
      refine cast (congrArg _ ?_) h
      by_cases hl : cs.length ≤ n - (used + 1)
      · rw [if_pos hl, if_pos (by simp; omega)]
        simp only [both, charWord_toNat, List.map_cons, List.length_cons, List.cons_append, List.flatMap_cons]
        rw [show n - used - (cs.length + 1) = n - (used + 1) - cs.length by omega]
      · rw [if_neg hl, if_neg (by simp; omega)]
        rfl

theorem writeUtf32Str_writes {M : Machine} {s : TypeStr} (ho : s.endianness ≠ .irrelevant) (l : Text) :
    Writes (writeUtf32Str M (swapFor M s.endianness) s.size l) (s.size * 4) (encodeChars s l) :=
  writeStrLoop_writes ho s.size l 0

theorem writeUtf8Str_writes {M : Machine} {n : Nat} (hm : n ≤ M.isizeMax) (l : Text) :
    Writes (writeUtf8Str M n l) n (padBytes n (encodeUtf8 l)) := by
  unfold writeUtf8Str padBytes
  by_cases hl : (encodeUtf8 l).length ≤ n
  · rw [if_pos hl]
    refine Writes.liftOk (if_neg (by omega)) ?_
    by_cases hlt : (encodeUtf8 l).length < n
    · rw [if_pos hlt]
      have h := (Writes.put (b := encodeUtf8 l) rfl).append (Writes.liftOk
        (allocBytes_ok (M := M) (n := n - (encodeUtf8 l).length) (by omega))
        (Writes.put (b := List.replicate (n - (encodeUtf8 l).length) 0) List.length_replicate))
      rw [show (encodeUtf8 l).length + (n - (encodeUtf8 l).length) = n by omega] at h
      exact h
    · rw [if_neg hlt]
      have h := (Writes.put (b := encodeUtf8 l) rfl).append Writes.nil
      rw [show (encodeUtf8 l).length + 0 = n by omega] at h
      rw [show n - (encodeUtf8 l).length = 0 by omega]
      exact h
  · rw [if_neg hl]
    exact Writes.liftErr (if_pos (by omega))

theorem writeString_writes {M : Machine} {s : TypeStr} {f : StrFormat} {n : Nat} (hw : s.Wf)
    (hn : exactBytes (.plain s) = some n) (hm : n ≤ M.isizeMax)
    (hf : (s.typeChar = .byteStr ∧ f = .utf8 ⟨s.size, true⟩) ∨ (s.typeChar = .unicodeStr ∧ f = .utf32 s.size s.endianness))
    (l : Text) : Writes (writeString M f l) n (encodeText s l) := by
  unfold encodeText
  rcases hf with ⟨hc, rfl⟩ | ⟨hc, rfl⟩
  · rw [if_neg (by simp [hc])]
    have := exact_other hn (by simp [hc])
    subst this
    exact writeUtf8Str_writes hm l
  · rw [if_pos hc, exact_unicode hn hc]
    exact writeUtf32Str_writes (ordered_unicode hw hc) l

mutual
theorem writer_writes {M : Machine} : (t : Ty) → {d : DType} → {w : t.Val → WProg Unit} → {n : Nat} →
    t.writer M d = .ok w → d.Wf → exactBytes d = some n → n ≤ M.isizeMax → ∀ v, Writes (w v) n (encode t d v)
  | .num q, d, p, n, h, hw, hn, hm => by
    simp only [Ty.writer, Out.bind_eq_ok, checkPrim_ok] at h
    obtain ⟨e, ⟨s, rfl, hs, hc, rfl⟩, h⟩ := h
    cases h
    have hn' : n = q.size := by
      rw [← hs]
      apply exact_other hn
      rcases prim_kind hc with h | h | h | h | h <;> simp [h]
    subst hn'
    exact fun v => writeWord_writes (ordered_prim hw hs hc) v
  | .bool, d, p, n, h, hw, hn, hm => by
    simp only [Ty.writer, Out.bind_eq_ok, checkBool_ok] at h
    obtain ⟨⟨⟩, ⟨s, rfl, hs, hc⟩, h⟩ := h
    cases h
    have hn' : n = 1 := by rw [← hs]; exact exact_other hn (by simp [hc])
    subst hn'
    exact writeBool_writes
  | .complex f, d, p, n, h, hw, hn, hm => by
    simp only [Ty.writer, Out.bind_eq_ok, checkComplex_ok] at h
    obtain ⟨e, ⟨s, rfl, hs, hc, rfl⟩, h⟩ := h
    cases h
    have hn' : n = f.size + f.size := by rw [exact_other hn (by simp [hc]), hs]; omega
    subst hn'
    exact fun v => writeComplex_writes (ordered_complex hw hs hc) v
  | .vecU8, d, p, n, h, hw, hn, hm => by
    simp only [Ty.writer, Out.bind_eq_ok, checkByteVec_ok] at h
    obtain ⟨i, ⟨s, rfl, -, hs, hc⟩, h⟩ := h
    cases h
    have hn' : n = i.size := by rw [hs]; apply exact_other hn; rcases hc with hc | hc <;> simp [hc.1]
    subst hn'
    exact fun v => writeBytes_writes hm hs hc v
  | .arrayVecU8 cap, d, p, n, h, hw, hn, hm => by
    simp only [Ty.writer, Out.bind_eq_ok, checkArrayByteVec_ok] at h
    obtain ⟨i, ⟨s, rfl, -, hs, hc⟩, h⟩ := h
    cases h
    have hn' : n = i.size := by rw [hs]; apply exact_other hn; rcases hc with hc | hc <;> simp [hc.1]
    subst hn'
    refine fun v => writeBytes_writes hm hs ?_ v.1
    rcases hc with hc | hc
    · exact Or.inl hc
    · exact Or.inr ⟨hc.1, hc.2.1⟩
  | .fixedBytes k, d, p, n, h, hw, hn, hm => by
    simp only [Ty.writer, Out.bind_eq_ok, checkFixed_ok] at h
    obtain ⟨⟨⟩, ⟨s, rfl, -, hc, hs⟩, h⟩ := h
    cases h
    have hn' : n = k := by rw [← hs]; exact exact_other hn (by simp [hc])
    subst hn'
    exact fun v => Writes.put v.2
  | .vecU32, d, p, n, h, hw, hn, hm => by
    simp only [Ty.writer, Out.bind_eq_ok, checkUnicode_ok] at h
    obtain ⟨x, ⟨s, rfl, -, hc, rfl⟩, h⟩ := h
    cases h
    rw [exact_unicode hn hc]
    exact fun v => writeVecU32_writes (ordered_unicode hw hc) v
  | .vecChar, d, p, n, h, hw, hn, hm => by
    simp only [Ty.writer, Out.bind_eq_ok, checkUnicode_ok] at h
    obtain ⟨x, ⟨s, rfl, -, hc, rfl⟩, h⟩ := h
    cases h
    rw [exact_unicode hn hc]
    exact fun v => writeVecChar_writes (ordered_unicode hw hc) v
  | .string, d, p, n, h, hw, hn, hm => by
    simp only [Ty.writer, Out.bind_eq_ok, writeFormat_ok] at h
    obtain ⟨f, ⟨s, rfl, -, hc⟩, h⟩ := h
    cases h
    exact fun v => writeString_writes hw hn hm hc v
  | .arrayVecU32 cap, d, p, n, h, hw, hn, hm => by
    simp only [Ty.writer, Out.bind_eq_ok, checkUnicode_ok] at h
    obtain ⟨x, ⟨s, rfl, -, hc, rfl⟩, h⟩ := h
    cases h
    rw [exact_unicode hn hc]
    exact fun v => writeVecU32_writes (ordered_unicode hw hc) v.1
  | .arrayVecChar cap, d, p, n, h, hw, hn, hm => by
    simp only [Ty.writer, Out.bind_eq_ok, checkUnicode_ok] at h
    obtain ⟨x, ⟨s, rfl, -, hc, rfl⟩, h⟩ := h
    cases h
    rw [exact_unicode hn hc]
    exact fun v => writeVecChar_writes (ordered_unicode hw hc) v.1
  | .arrayString cap, d, p, n, h, hw, hn, hm => by
    simp only [Ty.writer, Out.bind_eq_ok, writeFormat_ok] at h
    obtain ⟨f, ⟨s, rfl, -, hc⟩, h⟩ := h
    cases h
    exact fun v => writeString_writes hw hn hm hc v.1
  | .array m t, d, p, n, h, hw, hn, hm => by
    simp only [Ty.writer, Out.bind_eq_ok, arrayInner_ok] at h
    obtain ⟨d', rfl, q, hq, h⟩ := h
    cases h
    obtain ⟨k, hk, rfl⟩ := exact_array hn
    intro v
    cases m with
    | zero =>
      have hv : v.1 = [] := List.length_eq_zero_iff.mp v.2
      rw [Nat.zero_mul]
      show Writes (writeMany q v.1) 0 (encodeAll (encode t d') v.1)
      rw [hv]
      exact Writes.nil
    | succ m =>
      have hkm : k ≤ M.isizeMax := Nat.le_trans (Nat.le_mul_of_pos_left k (Nat.succ_pos m)) hm
      have h := Writes.many (writer_writes t hq hw.2 hk hkm) v.1
      rw [v.2] at h
      exact h
  | .record fs, d, p, n, h, hw, hn, hm => by
    obtain ⟨dfs, h1, h2⟩ := (Out.bind_eq_ok (x := extractFields fs.names d) (f := fun dfs => fs.writer M dfs)).mp h
    obtain ⟨rfl, hnames⟩ := extractFields_ok.mp h1
    exact fields_writes fs hnames h2 hw hn hm
theorem fields_writes {M : Machine} : (fs : TFields) → {dfs : Fields} → {w : fs.Val → WProg Unit} → {n : Nat} →
    dfs.names = fs.names → fs.writer M dfs = .ok w → dfs.Wf → exactFieldBytes dfs = some n → n ≤ M.isizeMax →
    ∀ v, Writes (w v) n (encodeFields fs dfs v)
  | .nil, .nil, p, n, _, h, hw, hn, hm => by
    simp only [TFields.writer] at h
    cases h
    simp only [exactFieldBytes] at hn
    cases hn
    exact fun _ => Writes.nil
  | .nil, .cons _ _ _, p, n, hnames, h, hw, hn, hm => by
    simp [TFields.names, Fields.names] at hnames
  | .cons _ _ _, .nil, p, n, hnames, h, hw, hn, hm => by
    simp [TFields.names, Fields.names] at hnames
  | .cons name t rest, .cons name' d dfs, p, n, hnames, h, hw, hn, hm => by
    simp only [TFields.names, Fields.names, List.cons.injEq] at hnames
    simp only [TFields.writer, Out.bind_eq_ok] at h
    obtain ⟨q, hq, r, hr, h⟩ := h
    cases h
    obtain ⟨a, b, ha, hb, rfl⟩ := exact_cons hn
    have h1 := writer_writes t hq hw.1 ha (by omega)
    have h2 := fields_writes rest hnames.2 hr hw.2 hb (by omega)
    exact fun v => (h1 v.1).append (h2 v.2)
end

end Npyz
