import Verif.Proofs.Read
import Verif.Spec.Late

/-! Readers that consume malformed items whole, and readers that stop in the middle (C19). -/

set_option autoImplicit false

namespace Npyz
open Npyz.Spec

theorem Whole.post {α β : Type} {p : RProg α} {n : Nat} {f : α → RProg β} (hp : Whole p n) (hf : ∀ a, Whole (f a) 0) :
    Whole (p >>= f) n := by
  intro bs rest h
  have h2 := hp bs rest h
  rw [RProg.run_bind]
  rcases hx : p.run (bs ++ rest) with ⟨r, rest'⟩
  rw [hx] at h2
  subst h2
  cases r with
  | ok a => exact hf a [] _ rfl
  | err e => rfl
  | panic => rfl

theorem Whole.many {α : Type} {p : RProg α} {k : Nat} (hp : Whole p k)
    (hok : ∀ bs rest, bs.length = k → ∃ a, (p.run (bs ++ rest)).1 = .ok a) (n : Nat) : Whole (readMany p n) (n * k) := by
  induction n with
  | zero => rw [Nat.zero_mul]; exact Whole.pure _
  | succ n ih =>
    have e : (n + 1) * k = k + n * k := by rw [Nat.succ_mul, Nat.add_comm]
    rw [e]
    exact Whole.bind hp hok fun x => Whole.post ih fun xs => Whole.pure _

theorem Whole.one {α : Type} {p : RProg α} {k : Nat} (hp : Whole p k) : Whole (readMany p 1) k :=
  Whole.post hp fun _ => Whole.pure _

theorem Reads.alwaysOk {α : Type} {p : RProg α} {n : Nat} {f : Bytes → Option α} (h : Reads p n f)
    (hf : ∀ bs, bs.length = n → f bs ≠ none) (bs rest : Bytes) (hl : bs.length = n) : ∃ a, (p.run (bs ++ rest)).1 = .ok a := by
  cases hv : f bs with
  | none => exact absurd hv (hf bs hl)
  | some v => exact ⟨v, by rw [h.ok bs rest v hl hv]⟩

theorem whole_readCodePoint {M : Machine} {e : Endianness} (ho : e ≠ .irrelevant) : Whole (readCodePoint M (swapFor M e)) 4 :=
  Whole.post ((readWord_reads (w := 4) (Or.inl ho)).whole fun _ _ => by simp) fun _ => Whole.lift _

theorem whole_readChar {M : Machine} {e : Endianness} (ho : e ≠ .irrelevant) : Whole (readChar M (swapFor M e)) 4 :=
  Whole.post ((readWord_reads (w := 4) (Or.inl ho)).whole fun _ _ => by simp) fun _ => Whole.lift _

theorem whole_units {α : Type} {p : RProg α} (hp : Whole p 4) {n : Nat} (hn : n ≤ 1) : Whole (readMany p n) (n * 4) := by
  rcases Nat.lt_or_ge n 1 with h | h
  · have : n = 0 := by omega
    subst this; exact Whole.pure _
  · have : n = 1 := by omega
    subst this; exact hp.one

theorem whole_readArrayVec {α : Type} {p : RProg α} (hp : Whole p 4) (isNull : α → Bool) (cap : Nat) {n : Nat} (hn : n ≤ 1) :
    Whole (readArrayVec p isNull cap n) (n * 4) := by
  unfold readArrayVec
  have h1 : Whole (readMany p (min n cap)) (min n cap * 4) := whole_units hp (by omega)
  have h2 : Whole (readMany p (n - cap)) ((n - cap) * 4) := whole_units hp (by omega)
  rcases Nat.eq_zero_or_pos cap with h | h
  · have h0 : ∀ a, a = 0 → ∀ bs rest, bs.length = a * 4 → ∃ x, ((readMany p a).run (bs ++ rest)).1 = .ok x := by
      rintro a rfl bs rest -
      exact ⟨_, rfl⟩
    have e : n * 4 = min n cap * 4 + (n - cap) * 4 := by omega
    rw [e]
    exact Whole.bind h1 (h0 _ (by omega)) fun _ => Whole.post h2 fun _ => Whole.pure _
  · have e : n * 4 = min n cap * 4 := by omega
    have e2 : (n - cap) * 4 = 0 := by omega
    rw [e]
    rw [e2] at h2
    exact Whole.post h1 fun _ => Whole.post h2 fun _ => Whole.pure _

mutual
theorem whole_failsLate {M : Machine} : (t : Ty) → {d : DType} → {p : RProg t.Val} → {n : Nat} → t.reader M d = .ok p → d.Wf →
    exactBytes d = some n → n ≤ M.isizeMax → FailsLate t d → Whole p n
  | .array m t, .array m' d, p, n, h, hw, hn, hm, hl => by
    simp only [Ty.reader, Out.bind_eq_ok, arrayInner_ok] at h
    obtain ⟨d', hd, q, hq, h⟩ := h
    cases hd
    cases h
    obtain ⟨k, hk, rfl⟩ := exact_array hn
    simp only [FailsLate] at hl
    rcases hl with hz | ⟨hl, h1⟩
    · subst hz; rw [Nat.zero_mul]; exact Whole.pure _
    · rcases Nat.eq_zero_or_pos m with hz | hz
      · subst hz; rw [Nat.zero_mul]; exact Whole.pure _
      have hkm : k ≤ M.isizeMax := Nat.le_trans (Nat.le_mul_of_pos_left k hz) hm
      have ih := whole_failsLate t hq hw.2 hk hkm hl
      rcases h1 with h1 | h1
      · subst h1; rw [Nat.one_mul]; exact ih.one
      · exact ih.many ((reader_reads t hq hw.2 hk hkm).alwaysOk fun bs hb => h1 bs (by rw [hb, hk])) m
  | .record fs, .record dfs, p, n, h, hw, hn, hm, hl => by
    obtain ⟨dfs', h1, h2⟩ := (Out.bind_eq_ok (x := extractFields fs.names (.record dfs)) (f := fun dfs => fs.reader M dfs)).mp h
    obtain ⟨h3, hnames⟩ := extractFields_ok.mp h1
    cases h3
    exact whole_fields fs hnames h2 hw hn hm hl
  | .array m t, .plain s, p, n, h, _, _, _, _ => by
    simp only [Ty.reader, Out.bind_eq_ok, arrayInner_ok] at h
    obtain ⟨d', hd, -⟩ := h
    cases hd
  | .array m t, .record s, p, n, h, _, _, _, _ => by
    simp only [Ty.reader, Out.bind_eq_ok, arrayInner_ok] at h
    obtain ⟨d', hd, -⟩ := h
    cases hd
  | .record fs, .plain s, p, n, h, _, _, _, _ => by
    obtain ⟨dfs', h1, h2⟩ := (Out.bind_eq_ok (x := extractFields fs.names (.plain s)) (f := fun dfs => fs.reader M dfs)).mp h
    obtain ⟨h3, hnames⟩ := extractFields_ok.mp h1
    cases h3
  | .record fs, .array m d, p, n, h, _, _, _, _ => by
    obtain ⟨dfs', h1, h2⟩ := (Out.bind_eq_ok (x := extractFields fs.names (.array m d)) (f := fun dfs => fs.reader M dfs)).mp h
    obtain ⟨h3, hnames⟩ := extractFields_ok.mp h1
    cases h3
  | .num q, d, p, n, h, hw, hn, hm, _ => (reader_reads _ h hw hn hm).whole fun bs hl => by
      simp only [Ty.reader, Out.bind_eq_ok, checkPrim_ok] at h
      obtain ⟨e, ⟨s, rfl, -⟩, h⟩ := h
      simp [decode, onPlain]
  | .complex q, d, p, n, h, hw, hn, hm, _ => (reader_reads _ h hw hn hm).whole fun bs hl => by
      simp only [Ty.reader, Out.bind_eq_ok, checkComplex_ok] at h
      obtain ⟨e, ⟨s, rfl, -⟩, h⟩ := h
      simp [decode, onPlain]
  | .bool, d, p, n, h, hw, hn, hm, _ => by
      have h' := h
      simp only [Ty.reader, Out.bind_eq_ok, checkBool_ok] at h'
      obtain ⟨e, ⟨s, rfl, hs, hc⟩, -⟩ := h'
      exact whole_onePiece (by simp [hc]) hw hn hm _ (by simp) (by simp) h
  | .vecU8, d, p, n, h, hw, hn, hm, _ => (reader_reads _ h hw hn hm).whole fun bs hl => by
      simp only [Ty.reader, Out.bind_eq_ok, checkByteVec_ok] at h
      obtain ⟨e, ⟨s, rfl, -⟩, h⟩ := h
      simp [decode, onPlain]
  | .arrayVecU8 cap, d, p, n, h, hw, hn, hm, _ => (reader_reads _ h hw hn hm).whole fun bs hl => by
      simp only [Ty.reader, Out.bind_eq_ok, checkArrayByteVec_ok] at h
      obtain ⟨e, ⟨s, rfl, -⟩, h⟩ := h
      simp [decode, onPlain]
  | .fixedBytes k, d, p, n, h, hw, hn, hm, _ => by
      have h' := h
      simp only [Ty.reader, Out.bind_eq_ok, checkFixed_ok] at h'
      obtain ⟨e, ⟨s, rfl, -, hc, hs⟩, -⟩ := h'
      exact whole_onePiece (by simp [hc]) hw hn hm _ (by simp) (by simp) h
  | .vecU32, d, p, n, h, hw, hn, hm, hl => by
    simp only [Ty.reader, Out.bind_eq_ok, checkUnicode_ok] at h
    obtain ⟨x, ⟨s, rfl, -, hc, rfl⟩, h⟩ := h
    cases h
    rw [exact_unicode hn hc]
    simp only [FailsLate] at hl
    exact Whole.post (whole_units (whole_readCodePoint (ordered_unicode hw hc)) (hl.resolve_left (by simp [hc]))) fun _ => Whole.pure _
  | .vecChar, d, p, n, h, hw, hn, hm, hl => by
    simp only [Ty.reader, Out.bind_eq_ok, checkUnicode_ok] at h
    obtain ⟨x, ⟨s, rfl, -, hc, rfl⟩, h⟩ := h
    cases h
    rw [exact_unicode hn hc]
    simp only [FailsLate] at hl
    exact Whole.post (whole_units (whole_readChar (ordered_unicode hw hc)) (hl.resolve_left (by simp [hc]))) fun _ => Whole.pure _
  | .string, d, p, n, h, hw, hn, hm, hl => by
    have h' := h
    simp only [Ty.reader, Out.bind_eq_ok, readFormat_ok] at h
    obtain ⟨f, ⟨s, rfl, -, ⟨hc, rfl⟩ | ⟨hc, rfl⟩⟩, h⟩ := h
    · exact whole_onePiece (by simp [hc]) hw hn hm _ (by simp) (by simp) h'
    · cases h
      rw [exact_unicode hn hc]
      simp only [FailsLate] at hl
      exact Whole.post (whole_units (whole_readChar (ordered_unicode hw hc)) (hl.resolve_left (by simp [hc]))) fun _ => Whole.pure _
  | .arrayVecU32 cap, d, p, n, h, hw, hn, hm, hl => by
    simp only [Ty.reader, Out.bind_eq_ok, checkUnicodeArrayVec_ok] at h
    obtain ⟨x, ⟨s, rfl, -, hc, rfl⟩, h⟩ := h
    cases h
    rw [exact_unicode hn hc]
    simp only [FailsLate] at hl
    exact whole_readArrayVec (whole_readCodePoint (ordered_unicode hw hc)) _ _ (hl.resolve_left (by simp [hc]))
  | .arrayVecChar cap, d, p, n, h, hw, hn, hm, hl => by
    simp only [Ty.reader, Out.bind_eq_ok, checkUnicodeArrayVec_ok] at h
    obtain ⟨x, ⟨s, rfl, -, hc, rfl⟩, h⟩ := h
    cases h
    rw [exact_unicode hn hc]
    simp only [FailsLate] at hl
    exact whole_readArrayVec (whole_readChar (ordered_unicode hw hc)) _ _ (hl.resolve_left (by simp [hc]))
  | .arrayString cap, d, p, n, h, hw, hn, hm, hl => by
      have h' := h
      simp only [Ty.reader, Out.bind_eq_ok, readArrayFormat_ok] at h'
      obtain ⟨e, ⟨s, rfl, -, hc, -⟩, -⟩ := h'
      exact whole_onePiece (by simp [hc]) hw hn hm _ (by simp) (by simp) h
theorem whole_fields {M : Machine} : (fs : TFields) → {dfs : Fields} → {p : RProg fs.Val} → {n : Nat} →
    dfs.names = fs.names → fs.reader M dfs = .ok p → dfs.Wf → exactFieldBytes dfs = some n → n ≤ M.isizeMax →
    FieldsFailLate fs dfs → Whole p n
  | .nil, .nil, p, n, _, h, hw, hn, hm, _ => by
    simp only [TFields.reader] at h
    cases h
    simp only [exactFieldBytes] at hn
    cases hn
    exact Whole.pure _
  | .nil, .cons _ _ _, p, n, hnames, h, hw, hn, hm, _ => by
    simp [TFields.names, Fields.names] at hnames
  | .cons _ _ _, .nil, p, n, hnames, h, hw, hn, hm, _ => by
    simp [TFields.names, Fields.names] at hnames
  | .cons name t rest, .cons name' d dfs, p, n, hnames, h, hw, hn, hm, hl => by
    simp only [TFields.names, Fields.names, List.cons.injEq] at hnames
    simp only [TFields.reader, Out.bind_eq_ok] at h
    obtain ⟨q, hq, r, hr, h⟩ := h
    cases h
    obtain ⟨a, b, ha, hb, rfl⟩ := exact_cons hn
    simp only [FieldsFailLate] at hl
    obtain ⟨l1, l2, l3⟩ := hl
    have h1 := whole_failsLate t hq hw.1 ha (by omega) l1
    have h2 := whole_fields rest hnames.2 hr hw.2 hb (by omega) l2
    rcases l3 with l3 | l3
    · exact Whole.bind h1 ((reader_reads t hq hw.1 ha (by omega)).alwaysOk fun bs hb => l3 bs (by rw [hb, ha])) fun x =>
        Whole.post h2 fun _ => Whole.pure _
    · rw [hb] at l3
      cases l3
      exact Whole.post h1 fun x => Whole.post h2 fun _ => Whole.pure _
end

/-! ### Items of zero bytes are values of every type -/

theorem wordValue_zeros (e : Endianness) (n : Nat) : wordValue e (List.replicate n 0) = 0 := by
  have h1 : ∀ n : Nat, List.foldr (fun (b : UInt8) acc => b.toNat + 256 * acc) 0 (List.replicate n 0) = 0 := by
    intro n
    induction n with
    | zero => rfl
    | succ n ih => simp [List.replicate_succ, ih]
  have h2 : ∀ n : Nat, List.foldl (fun acc (b : UInt8) => 256 * acc + b.toNat) 0 (List.replicate n 0) = 0 := by
    intro n
    induction n with
    | zero => rfl
    | succ n ih => simpa [List.replicate_succ] using ih
  simp only [wordValue, h1, h2, ite_self]

theorem map_ne_none {α β : Type} {o : Option α} (f : α → β) (h : o ≠ none) : o.map f ≠ none := by
  cases o with
  | none => exact absurd rfl h
  | some v => simp

theorem decodeMany_zeros {α : Type} {f : Bytes → Option α} {k : Nat} (hf : f (List.replicate k 0) ≠ none) (n : Nat) :
    decodeMany f k n (List.replicate (n * k) 0) ≠ none := by
  induction n with
  | zero => simp [decodeMany]
  | succ n ih =>
    have e : (n + 1) * k = k + n * k := by rw [Nat.succ_mul, Nat.add_comm]
    rw [e, ← List.replicate_append_replicate]
    simp only [decodeMany]
    rw [List.take_left' (by simp), List.drop_left' (by simp)]
    cases h1 : f (List.replicate k 0) with
    | none => exact absurd h1 hf
    | some v =>
      cases h2 : decodeMany f k n (List.replicate (n * k) 0) with
      | none => exact absurd h2 ih
      | some vs => simp

theorem decodeUnit_zeros (e : Endianness) : decodeUnit e (List.replicate 4 0) ≠ none := by
  rw [decodeUnit, wordValue_zeros]
  simp

theorem decodeChar_zeros (e : Endianness) : Spec.decodeChar e (List.replicate 4 0) ≠ none := by
  rw [Spec.decodeChar, wordValue_zeros]
  decide

theorem trimEnd_zeros (n : Nat) : trimEnd (fun b : UInt8 => b == 0) (List.replicate n 0) = [] := by
  unfold trimEnd
  rw [List.reverse_replicate]
  have : ∀ n : Nat, (List.replicate n (0 : UInt8)).dropWhile (fun b => b == 0) = [] := by
    intro n
    induction n with
    | zero => rfl
    | succ n ih => rw [List.replicate_succ, List.dropWhile_cons_of_pos (by simp), ih]
  rw [this]; rfl

theorem decodeUtf8_zeros (n : Nat) : decodeUtf8Item (List.replicate n 0) ≠ none := by
  unfold decodeUtf8Item
  rw [trimEnd_zeros]
  decide

mutual
theorem decode_zeros {M : Machine} : (t : Ty) → {d : DType} → {p : RProg t.Val} → {n : Nat} → t.reader M d = .ok p →
    exactBytes d = some n → decode t d (List.replicate n 0) ≠ none
  | .num q, d, p, n, h, hn => by
    simp only [Ty.reader, Out.bind_eq_ok, checkPrim_ok] at h
    obtain ⟨e, ⟨s, rfl, -⟩, h⟩ := h
    simp [decode, onPlain]
  | .complex q, d, p, n, h, hn => by
    simp only [Ty.reader, Out.bind_eq_ok, checkComplex_ok] at h
    obtain ⟨e, ⟨s, rfl, -⟩, h⟩ := h
    simp [decode, onPlain]
  | .bool, d, p, n, h, hn => by
    simp only [Ty.reader, Out.bind_eq_ok, checkBool_ok] at h
    obtain ⟨e, ⟨s, rfl, hs, hc⟩, -⟩ := h
    have hn' : n = 1 := by rw [← hs]; exact exact_other hn (by simp [hc])
    subst hn'
    simp [decode, onPlain]
  | .vecU8, d, p, n, h, hn => by
    simp only [Ty.reader, Out.bind_eq_ok, checkByteVec_ok] at h
    obtain ⟨e, ⟨s, rfl, -⟩, h⟩ := h
    simp [decode, onPlain]
  | .arrayVecU8 cap, d, p, n, h, hn => by
    simp only [Ty.reader, Out.bind_eq_ok, checkArrayByteVec_ok] at h
    obtain ⟨e, ⟨s, rfl, -⟩, h⟩ := h
    simp [decode, onPlain]
  | .fixedBytes k, d, p, n, h, hn => by
    simp only [Ty.reader, Out.bind_eq_ok, checkFixed_ok] at h
    obtain ⟨e, ⟨s, rfl, -, hc, hs⟩, -⟩ := h
    have hn' : n = k := by rw [← hs]; exact exact_other hn (by simp [hc])
    subst hn'
    simp [decode, onPlain]
  | .vecU32, d, p, n, h, hn => by
    simp only [Ty.reader, Out.bind_eq_ok, checkUnicode_ok] at h
    obtain ⟨x, ⟨s, rfl, -, hc, rfl⟩, h⟩ := h
    rw [exact_unicode hn hc]
    exact map_ne_none _ (decodeMany_zeros (decodeUnit_zeros s.endianness) s.size)
  | .vecChar, d, p, n, h, hn => by
    simp only [Ty.reader, Out.bind_eq_ok, checkUnicode_ok] at h
    obtain ⟨x, ⟨s, rfl, -, hc, rfl⟩, h⟩ := h
    rw [exact_unicode hn hc]
    exact map_ne_none _ (decodeMany_zeros (decodeChar_zeros s.endianness) s.size)
  | .string, d, p, n, h, hn => by
    simp only [Ty.reader, Out.bind_eq_ok, readFormat_ok] at h
    obtain ⟨f, ⟨s, rfl, -, ⟨hc, rfl⟩ | ⟨hc, rfl⟩⟩, h⟩ := h
    · simp only [decode, onPlain, hc]
      exact decodeUtf8_zeros n
    · rw [exact_unicode hn hc]
      simp only [decode, onPlain, hc]
      exact map_ne_none _ (decodeMany_zeros (decodeChar_zeros s.endianness) s.size)
  | .arrayVecU32 cap, d, p, n, h, hn => by
    simp only [Ty.reader, Out.bind_eq_ok, checkUnicodeArrayVec_ok] at h
    obtain ⟨x, ⟨s, rfl, -, hc, rfl⟩, h⟩ := h
    rw [exact_unicode hn hc]
    exact map_ne_none _ (decodeMany_zeros (decodeUnit_zeros s.endianness) s.size)
  | .arrayVecChar cap, d, p, n, h, hn => by
    simp only [Ty.reader, Out.bind_eq_ok, checkUnicodeArrayVec_ok] at h
    obtain ⟨x, ⟨s, rfl, -, hc, rfl⟩, h⟩ := h
    rw [exact_unicode hn hc]
    exact map_ne_none _ (decodeMany_zeros (decodeChar_zeros s.endianness) s.size)
  | .arrayString cap, d, p, n, h, hn => by
    simp only [Ty.reader, Out.bind_eq_ok, readArrayFormat_ok] at h
    obtain ⟨e, ⟨s, rfl, -, hc, -⟩, -⟩ := h
    exact map_ne_none _ (decodeUtf8_zeros n)
  | .array m t, d, p, n, h, hn => by
    simp only [Ty.reader, Out.bind_eq_ok, arrayInner_ok] at h
    obtain ⟨d', rfl, q, hq, h⟩ := h
    obtain ⟨k, hk, rfl⟩ := exact_array hn
    have := decodeMany_zeros (decode_zeros t hq hk) m
    simp only [decode, onArray, hk]
    exact this
  | .record fs, d, p, n, h, hn => by
    obtain ⟨dfs, h1, h2⟩ := (Out.bind_eq_ok (x := extractFields fs.names d) (f := fun dfs => fs.reader M dfs)).mp h
    obtain ⟨rfl, hnames⟩ := extractFields_ok.mp h1
    exact decodeFields_zeros fs hnames h2 hn
theorem decodeFields_zeros {M : Machine} : (fs : TFields) → {dfs : Fields} → {p : RProg fs.Val} → {n : Nat} →
    dfs.names = fs.names → fs.reader M dfs = .ok p → exactFieldBytes dfs = some n → decodeFields fs dfs (List.replicate n 0) ≠ none
  | .nil, _, p, n, _, h, hn => by simp [decodeFields]
  | .cons _ _ _, .nil, p, n, hnames, h, hn => by
    simp [TFields.names, Fields.names] at hnames
  | .cons name t rest, .cons name' d dfs, p, n, hnames, h, hn => by
    simp only [TFields.names, Fields.names, List.cons.injEq] at hnames
    simp only [TFields.reader, Out.bind_eq_ok] at h
    obtain ⟨q, hq, r, hr, h⟩ := h
    obtain ⟨a, b, ha, hb, rfl⟩ := exact_cons hn
    have h1 := decode_zeros t hq ha
    have h2 := decodeFields_zeros rest hnames.2 hr hb
    show ((exactBytes d).bind fun k => decodePair k (decode t d) (decodeFields rest dfs) _) ≠ none
    rw [ha, ← List.replicate_append_replicate]
    simp only [Option.bind_some, decodePair]
    rw [List.take_left' (by simp), List.drop_left' (by simp)]
    cases e1 : decode t d (List.replicate a 0) with
    | none => exact absurd e1 h1
    | some v =>
      cases e2 : decodeFields rest dfs (List.replicate b 0) with
      | none => exact absurd e2 h2
      | some vs => simp
end

/-! ### Readers that stop in the middle of a malformed item -/

/-- On some item of `n` bytes the reader reports an error after at most `j` bytes. -/
def Stops {α : Type} (p : RProg α) (n j : Nat) : Prop :=
  ∃ bs : Bytes, bs.length = n ∧ ∀ rest, ∃ e k, k ≤ j ∧ p.run (bs ++ rest) = (.err e, (bs ++ rest).drop k)

theorem Stops.mono {α : Type} {p : RProg α} {n j j' : Nat} (h : Stops p n j) (hj : j ≤ j') : Stops p n j' := by
  obtain ⟨bs, hl, h⟩ := h
  refine ⟨bs, hl, fun rest => ?_⟩
  obtain ⟨e, k, hk, he⟩ := h rest
  exact ⟨e, k, by omega, he⟩

theorem Stops.bind {α β : Type} {p : RProg α} {n j : Nat} (h : Stops p n j) (f : α → RProg β) (m : Nat) :
    Stops (p >>= f) (n + m) j := by
  obtain ⟨bs, hl, h⟩ := h
  refine ⟨bs ++ List.replicate m 0, by simp [hl], fun rest => ?_⟩
  obtain ⟨e, k, hk, he⟩ := h (List.replicate m 0 ++ rest)
  rw [List.append_assoc]
  exact ⟨e, k, hk, RProg.run_bind_of_err he⟩

theorem Stops.after {α β : Type} {p : RProg α} {n m j : Nat} {g : Bytes → Option α} (hp : Reads p n g) {zs : Bytes}
    (hz : zs.length = n) (hg : g zs ≠ none) {f : α → RProg β} (h : ∀ a, Stops (f a) m j) : Stops (p >>= f) (n + m) (n + j) := by
  cases hv : g zs with
  | none => exact absurd hv hg
  | some v =>
    obtain ⟨bs, hl, h⟩ := h v
    refine ⟨zs ++ bs, by simp [hl, hz], fun rest => ?_⟩
    obtain ⟨e, k, hk, he⟩ := h rest
    refine ⟨e, n + k, by omega, ?_⟩
    rw [List.append_assoc, RProg.run_bind_of_ok (hp.ok zs (bs ++ rest) v hz hv), he, ← List.drop_drop, List.drop_left' hz]

/-- An item that does not decode makes the reader stop. -/
theorem Reads.stops {α : Type} {p : RProg α} {n : Nat} {f : Bytes → Option α} (h : Reads p n f) {bs : Bytes}
    (hl : bs.length = n) (hb : f bs = none) : Stops p n n :=
  ⟨bs, hl, fun rest => by
    obtain ⟨why, k, hk, hr⟩ := h.bad bs rest hl hb
    exact ⟨_, k, hk, hr⟩⟩

theorem Stops.many {α : Type} {p : RProg α} {k j : Nat} (h : Stops p k j) (n : Nat) : Stops (readMany p (n + 1)) ((n + 1) * k) j := by
  have e : (n + 1) * k = k + n * k := by rw [Nat.succ_mul, Nat.add_comm]
  rw [e]
  exact h.bind _ _

theorem wordValue_ones (e : Endianness) : wordValue e [255, 255, 255, 255] = 0xFFFFFFFF := by
  cases e <;> decide

theorem stops_readCodePoint {M : Machine} {e : Endianness} (ho : e ≠ .irrelevant) : Stops (readCodePoint M (swapFor M e)) 4 4 :=
  (readCodePoint_reads ho).stops (bs := [255, 255, 255, 255]) rfl (by rw [decodeUnit, wordValue_ones]; rfl)

theorem stops_readChar {M : Machine} {e : Endianness} (ho : e ≠ .irrelevant) : Stops (readChar M (swapFor M e)) 4 4 :=
  (readChar_reads ho).stops (bs := [255, 255, 255, 255]) rfl (by rw [Spec.decodeChar, wordValue_ones]; decide)

theorem stops_units {α : Type} {p : RProg α} (hp : Stops p 4 4) {n : Nat} (hn : 1 ≤ n) : Stops (readMany p n) (n * 4) 4 := by
  obtain ⟨m, rfl⟩ : ∃ m, n = m + 1 := ⟨n - 1, by omega⟩
  exact hp.many m

theorem stops_readArrayVec {α : Type} {p : RProg α} (hp : Stops p 4 4) (isNull : α → Bool) (cap : Nat) {n : Nat} (hn : 1 ≤ n) :
    Stops (readArrayVec p isNull cap n) (n * 4) 4 := by
  unfold readArrayVec
  rcases Nat.eq_zero_or_pos cap with h | h
  · have h0 : ∀ a, a = 0 → Reads (readMany p a) 0 (fun _ => (readMany p a).run [] |>.1 |> fun r => match r with
        | .ok v => some v
        | _ => none) := by
      rintro a rfl
      exact (Reads.pure _).congr fun _ _ => rfl
    have e : n * 4 = 0 + (n - cap) * 4 := by omega
    have e4 : 4 = 0 + 4 := rfl
    rw [e]
    refine Stops.after (j := 4) (h0 _ (by omega)) (zs := []) rfl ?_ fun _ => (stops_units hp (by omega)).bind _ 0
    have : ∀ a, a = 0 → (match ((readMany p a).run []).1 with
        | .ok v => some v
        | _ => none) ≠ none := by
      rintro a rfl
      simp [readMany]
    exact this _ (by omega)
  · have e : n * 4 = min n cap * 4 + (n - cap) * 4 := by omega
    rw [e]
    exact (stops_units hp (by omega)).bind _ _

/-- The reader can report an error before the end of the item. -/
def Early {α : Type} (p : RProg α) (n : Nat) : Prop := ∃ j, j < n ∧ Stops p n j

mutual
theorem early_of_not_failsLate {M : Machine} : (t : Ty) → {d : DType} → {p : RProg t.Val} → {n : Nat} → t.reader M d = .ok p → d.Wf →
    exactBytes d = some n → n ≤ M.isizeMax → ¬ FailsLate t d → Early p n
  | .array m t, d, p, n, h, hw, hn, hm, hl => by
    simp only [Ty.reader, Out.bind_eq_ok, arrayInner_ok] at h
    obtain ⟨d', rfl, q, hq, h⟩ := h
    cases h
    obtain ⟨k, hk, rfl⟩ := exact_array hn
    simp only [FailsLate, not_or] at hl
    obtain ⟨hz, hl⟩ := hl
    obtain ⟨m, rfl⟩ : ∃ m', m = m' + 1 := ⟨m - 1, by omega⟩
    have hkm : k ≤ M.isizeMax := Nat.le_trans (Nat.le_mul_of_pos_left k (Nat.succ_pos m)) hm
    have e : (m + 1) * k = k + m * k := by rw [Nat.succ_mul, Nat.add_comm]
    by_cases h1 : FailsLate t d'
    · simp only [h1, true_and, not_or] at hl
      obtain ⟨hm1, hf⟩ := hl
      simp only [NeverFails, Classical.not_forall, Classical.not_not] at hf
      obtain ⟨bs, hb, hbad⟩ := hf
      rw [hk] at hb
      cases hb
      have hpos : 0 < bs.length := by
        rcases Nat.eq_zero_or_pos bs.length with hz | hz
        · have := decode_zeros t hq hk
          rw [hz] at this
          rw [List.length_eq_zero_iff.mp hz] at hbad
          exact absurd hbad this
        · exact hz
      refine ⟨bs.length, ?_, ((reader_reads t hq hw.2 hk hkm).stops rfl hbad).many m⟩
      have : 1 * bs.length ≤ m * bs.length := Nat.mul_le_mul_right _ (by omega)
      omega
    · obtain ⟨j, hj, hs⟩ := early_of_not_failsLate t hq hw.2 hk hkm h1
      exact ⟨j, by omega, hs.many m⟩
  | .record fs, d, p, n, h, hw, hn, hm, hl => by
    obtain ⟨dfs, h1, h2⟩ := (Out.bind_eq_ok (x := extractFields fs.names d) (f := fun dfs => fs.reader M dfs)).mp h
    obtain ⟨rfl, hnames⟩ := extractFields_ok.mp h1
    exact early_fields fs hnames h2 hw hn hm hl
  | .num q, d, p, n, h, hw, hn, hm, hl => by
    simp only [Ty.reader, Out.bind_eq_ok, checkPrim_ok] at h
    obtain ⟨e, ⟨s, rfl, hs, hc, -⟩, h⟩ := h
    refine absurd (Or.inl ?_) hl
    rcases prim_kind hc with h | h | h | h | h <;> simp [h]
  | .complex q, d, p, n, h, hw, hn, hm, hl => by
    simp only [Ty.reader, Out.bind_eq_ok, checkComplex_ok] at h
    obtain ⟨e, ⟨s, rfl, hs, hc, -⟩, h⟩ := h
    exact absurd (Or.inl (by simp [hc])) hl
  | .bool, d, p, n, h, hw, hn, hm, hl => by
    simp only [Ty.reader, Out.bind_eq_ok, checkBool_ok] at h
    obtain ⟨e, ⟨s, rfl, hs, hc⟩, -⟩ := h
    exact absurd (Or.inl (by simp [hc])) hl
  | .vecU8, d, p, n, h, hw, hn, hm, hl => by
    simp only [Ty.reader, Out.bind_eq_ok, checkByteVec_ok] at h
    obtain ⟨e, ⟨s, rfl, -, hs, hc⟩, h⟩ := h
    refine absurd (Or.inl ?_) hl
    rcases hc with hc | hc <;> simp [hc.1]
  | .arrayVecU8 cap, d, p, n, h, hw, hn, hm, hl => by
    simp only [Ty.reader, Out.bind_eq_ok, checkArrayByteVec_ok] at h
    obtain ⟨e, ⟨s, rfl, -, hs, hc⟩, h⟩ := h
    refine absurd (Or.inl ?_) hl
    rcases hc with hc | hc <;> simp [hc.1]
  | .fixedBytes k, d, p, n, h, hw, hn, hm, hl => by
    simp only [Ty.reader, Out.bind_eq_ok, checkFixed_ok] at h
    obtain ⟨e, ⟨s, rfl, -, hc, hs⟩, -⟩ := h
    exact absurd (Or.inl (by simp [hc])) hl
  | .vecU32, d, p, n, h, hw, hn, hm, hl => by
    simp only [Ty.reader, Out.bind_eq_ok, checkUnicode_ok] at h
    obtain ⟨x, ⟨s, rfl, -, hc, rfl⟩, h⟩ := h
    cases h
    rw [exact_unicode hn hc]
    simp only [FailsLate, not_or, Nat.not_le] at hl
    exact ⟨4, by omega, (stops_units (stops_readCodePoint (ordered_unicode hw hc)) (by omega)).bind _ 0⟩
  | .vecChar, d, p, n, h, hw, hn, hm, hl => by
    simp only [Ty.reader, Out.bind_eq_ok, checkUnicode_ok] at h
    obtain ⟨x, ⟨s, rfl, -, hc, rfl⟩, h⟩ := h
    cases h
    rw [exact_unicode hn hc]
    simp only [FailsLate, not_or, Nat.not_le] at hl
    exact ⟨4, by omega, (stops_units (stops_readChar (ordered_unicode hw hc)) (by omega)).bind _ 0⟩
  | .string, d, p, n, h, hw, hn, hm, hl => by
    simp only [Ty.reader, Out.bind_eq_ok, readFormat_ok] at h
    obtain ⟨f, ⟨s, rfl, -, ⟨hc, rfl⟩ | ⟨hc, rfl⟩⟩, h⟩ := h
    · exact absurd (Or.inl (by simp [hc])) hl
    · cases h
      rw [exact_unicode hn hc]
      simp only [FailsLate, not_or, Nat.not_le] at hl
      exact ⟨4, by omega, (stops_units (stops_readChar (ordered_unicode hw hc)) (by omega)).bind _ 0⟩
  | .arrayVecU32 cap, d, p, n, h, hw, hn, hm, hl => by
    simp only [Ty.reader, Out.bind_eq_ok, checkUnicodeArrayVec_ok] at h
    obtain ⟨x, ⟨s, rfl, -, hc, rfl⟩, h⟩ := h
    cases h
    rw [exact_unicode hn hc]
    simp only [FailsLate, not_or, Nat.not_le] at hl
    exact ⟨4, by omega, stops_readArrayVec (stops_readCodePoint (ordered_unicode hw hc)) _ _ (by omega)⟩
  | .arrayVecChar cap, d, p, n, h, hw, hn, hm, hl => by
    simp only [Ty.reader, Out.bind_eq_ok, checkUnicodeArrayVec_ok] at h
    obtain ⟨x, ⟨s, rfl, -, hc, rfl⟩, h⟩ := h
    cases h
    rw [exact_unicode hn hc]
    simp only [FailsLate, not_or, Nat.not_le] at hl
    exact ⟨4, by omega, stops_readArrayVec (stops_readChar (ordered_unicode hw hc)) _ _ (by omega)⟩
  | .arrayString cap, d, p, n, h, hw, hn, hm, hl => by
    simp only [Ty.reader, Out.bind_eq_ok, readArrayFormat_ok] at h
    obtain ⟨e, ⟨s, rfl, -, hc, -⟩, -⟩ := h
    exact absurd (Or.inl (by simp [hc])) hl
theorem early_fields {M : Machine} : (fs : TFields) → {dfs : Fields} → {p : RProg fs.Val} → {n : Nat} →
    dfs.names = fs.names → fs.reader M dfs = .ok p → dfs.Wf → exactFieldBytes dfs = some n → n ≤ M.isizeMax →
    ¬ FieldsFailLate fs dfs → Early p n
  | .nil, _, p, n, _, h, hw, hn, hm, hl => absurd (by simp [FieldsFailLate]) hl
  | .cons _ _ _, .nil, p, n, hnames, h, hw, hn, hm, _ => by
    simp [TFields.names, Fields.names] at hnames
  | .cons name t rest, .cons name' d dfs, p, n, hnames, h, hw, hn, hm, hl => by
    simp only [TFields.names, Fields.names, List.cons.injEq] at hnames
    simp only [TFields.reader, Out.bind_eq_ok] at h
    obtain ⟨q, hq, r, hr, h⟩ := h
    cases h
    obtain ⟨a, b, ha, hb, rfl⟩ := exact_cons hn
    have hrd := reader_reads t hq hw.1 ha (by omega)
    by_cases h1 : FailsLate t d
    · by_cases h2 : FieldsFailLate rest dfs
      · simp only [FieldsFailLate, h1, h2, true_and, not_or] at hl
        obtain ⟨hf, hb0⟩ := hl
        simp only [NeverFails, Classical.not_forall, Classical.not_not] at hf
        obtain ⟨bs, hbs, hbad⟩ := hf
        rw [ha] at hbs
        cases hbs
        have hpos : 0 < b := by
          rcases Nat.eq_zero_or_pos b with hz | hz
          · rw [hb, hz] at hb0; exact absurd rfl hb0
          · exact hz
        exact ⟨bs.length, by omega, (hrd.stops rfl hbad).bind _ b⟩
      · obtain ⟨j, hj, hs⟩ := early_fields rest hnames.2 hr hw.2 hb (by omega) h2
        exact ⟨a + j, by omega, Stops.after hrd (zs := List.replicate a 0) (by simp) (decode_zeros t hq ha) fun _ => hs.bind _ 0⟩
    · obtain ⟨j, hj, hs⟩ := early_of_not_failsLate t hq hw.1 ha (by omega) h1
      exact ⟨j, by omega, hs.bind _ b⟩
end

end Npyz
