import Verif.Proofs.Writer
import Verif.Spec.Prompt
/-! Values that cannot be stored leave an incomplete item. -/
namespace Npyz
set_option autoImplicit false
open Spec

/-- If there is nothing to write, fewer than `n` bytes are written. -/
def Halts (p : WProg Unit) (n : Nat) (o : Option Bytes) : Prop :=
  o = none → ∃ bs why, bs.length < n ∧ p.Emits bs (.err (.invalidData why))

namespace Halts

theorem some {p : WProg Unit} {n : Nat} {b : Bytes} : Halts p n (some b) := by intro h; cases h

theorem append {p q : WProg Unit} {n m : Nat} {o o' : Option Bytes} (hw : Writes p n o) (hp : Halts p n o) (hq : Halts q m o') :
    Halts (p >>= fun _ => q) (n + m) (both o o') := by
  intro h
  cases o with
  | none =>
    obtain ⟨bs, why, hl, he⟩ := hp rfl
    exact ⟨bs, why, by omega, he.bindErr⟩
  | some a =>
    obtain ⟨hl, he⟩ := hw
    cases o' with
    | none =>
      obtain ⟨bs, why, hl', he'⟩ := hq rfl
      exact ⟨a ++ bs, why, by simp; omega, he.bindOk he'⟩
    | some b => cases h

theorem many {α : Type} {w : α → WProg Unit} {f : α → Option Bytes} {k : Nat} (hw : ∀ x, Writes (w x) k (f x)) (h : ∀ x, Halts (w x) k (f x))
    (l : List α) : Halts (writeMany w l) (l.length * k) (encodeAll f l) := by
  induction l with
  | nil => intro h; cases h
  | cons x xs ih =>
    rw [List.length_cons, Nat.succ_mul, Nat.add_comm]
    exact append (hw x) (h x) ih

theorem liftErr {q : WProg Unit} {r : Res Unit} {n : Nat} {o : Option Bytes} {why : String} (hn : 0 < n) (hr : r = .err (.invalidData why)) :
    Halts (WProg.lift r >>= fun _ => q) n o := by
  subst hr
  exact fun _ => ⟨[], why, hn, .ret _⟩

end Halts

theorem writeBytes_halts {M : Machine} {i : ByteInfo} {s : TypeStr} (hs : i.size = s.size) (hz : s.size ≠ 0)
    (hc : (s.typeChar = .byteStr ∧ i.isByteStr = true) ∨ (s.typeChar = .rawData ∧ i.isByteStr = false)) (b : Bytes) :
    Halts (writeBytes M i b) i.size (encodeBytes s b) := by
  unfold writeBytes encodeBytes padBytes
  rw [← hs]
  have hz : 0 < i.size := by omega
  rcases hc with ⟨hc, hi⟩ | ⟨hc, hi⟩
  · rw [if_pos hc]
    by_cases hl : b.length ≤ i.size
    · rw [if_pos hl]; exact Halts.some
    · exact Halts.liftErr hz (if_pos (Or.inl (by omega)))
  · have hc' : s.typeChar ≠ .byteStr := by simp [hc]
    rw [if_neg hc']
    by_cases hl : b.length = i.size
    · rw [if_pos hl]; exact Halts.some
    · refine Halts.liftErr hz (if_pos ?_)
      rcases Nat.lt_or_gt_of_ne hl with h | h
      · exact Or.inr ⟨h, hi⟩
      · exact Or.inl h

theorem writeCodePoint_halts {M : Machine} {e : Endianness} (x : Word 4) :
    Halts (writeCodePoint M (swapFor M e) x) 4
      (if x.toNat < 0x110000 then some (wordBytes e 4 x.toNat) else none) := by
  unfold writeCodePoint validateCodeUnit
  split
  · exact Halts.some
  · exact fun _ => ⟨[], _, by simp, .ret _⟩

theorem writeVecU32_halts {M : Machine} {s : TypeStr} (ho : s.endianness ≠ .irrelevant) (hz : s.size ≠ 0) (l : List (Word 4)) :
    Halts (writeVecU32 M (swapFor M s.endianness) s.size l) (s.size * 4) (encodeUnits s l) := by
  unfold writeVecU32 encodeUnits padUnits
  rw [List.length_map]
  by_cases hl : l.length ≤ s.size
  · rw [if_pos hl]
    have hck : checkUnits s.size l.length = .ok () := if_neg (by omega)
    rw [hck]
    have h := Halts.append (Writes.many (writeCodePoint_writes (M := M) ho) l)
      (Halts.many (writeCodePoint_writes (M := M) ho) (writeCodePoint_halts (M := M)) l)
      (o' := some ((List.replicate (s.size - l.length) 0).flatMap (wordBytes s.endianness 4)))
      (m := (s.size - l.length) * 4)
      (q := writeMany (writeWord M (swapFor M s.endianness)) (List.replicate (s.size - l.length) (0 : Word 4))) Halts.some
    rw [← Nat.add_mul, show l.length + (s.size - l.length) = s.size by omega,
      encodeAll_check (fun x : Word 4 => x.toNat < 0x110000) (fun x => wordBytes s.endianness 4 x.toNat)] at h
    intro hne
    refine h ?_
    split at hne
    · cases hne
    · rw [if_neg (by assumption)]; rfl
  · exact Halts.liftErr (by omega) (if_pos (by omega))

theorem writeVecChar_halts {M : Machine} {s : TypeStr} (hz : s.size ≠ 0) (l : Text) :
    Halts (writeVecChar M (swapFor M s.endianness) s.size l) (s.size * 4) (encodeChars s l) := by
  unfold writeVecChar encodeChars padUnits
  rw [List.length_map]
  by_cases hl : l.length ≤ s.size
  · rw [if_pos hl]; exact Halts.some
  · exact Halts.liftErr (by omega) (if_pos (by omega))

theorem writeUtf8Str_halts {M : Machine} {n : Nat} (hz : 0 < n) (l : Text) :
    Halts (writeUtf8Str M n l) n (padBytes n (encodeUtf8 l)) := by
  unfold writeUtf8Str padBytes
  by_cases hl : (encodeUtf8 l).length ≤ n
  · rw [if_pos hl]; exact Halts.some
  · exact Halts.liftErr hz (if_pos (by omega))

theorem writeString_halts {M : Machine} {s : TypeStr} {f : StrFormat} {n : Nat}
    (hn : exactBytes (.plain s) = some n) (hu : s.typeChar ≠ .unicodeStr) (hz : s.size ≠ 0)
    (hf : (s.typeChar = .byteStr ∧ f = .utf8 ⟨s.size, true⟩) ∨ (s.typeChar = .unicodeStr ∧ f = .utf32 s.size s.endianness))
    (l : Text) : Halts (writeString M f l) n (encodeText s l) := by
  unfold encodeText
  rcases hf with ⟨hc, rfl⟩ | ⟨hc, rfl⟩
  · rw [if_neg (by simp [hc])]
    have := exact_other hn (by simp [hc])
    subst this
    exact writeUtf8Str_halts (Nat.pos_of_ne_zero hz) l
  · exact absurd hc hu

mutual
theorem writer_halts {M : Machine} : (t : Ty) → {d : DType} → {w : t.Val → WProg Unit} → {n : Nat} →
    t.writer M d = .ok w → d.Wf → exactBytes d = some n → n ≤ M.isizeMax → Prompt t d → ∀ v, Halts (w v) n (encode t d v)
  | .num q, d, p, n, h, hw, hn, hm, hp => by
    simp only [Ty.writer, Out.bind_eq_ok, checkPrim_ok] at h
    obtain ⟨e, ⟨s, rfl, hs, hc, rfl⟩, h⟩ := h
    exact fun v => Halts.some
  | .bool, d, p, n, h, hw, hn, hm, hp => by
    simp only [Ty.writer, Out.bind_eq_ok, checkBool_ok] at h
    obtain ⟨⟨⟩, ⟨s, rfl, hs, hc⟩, h⟩ := h
    exact fun v => Halts.some
  | .complex f, d, p, n, h, hw, hn, hm, hp => by
    simp only [Ty.writer, Out.bind_eq_ok, checkComplex_ok] at h
    obtain ⟨e, ⟨s, rfl, hs, hc, rfl⟩, h⟩ := h
    exact fun v => Halts.some
  | .vecU8, d, p, n, h, hw, hn, hm, hp => by
    simp only [Ty.writer, Out.bind_eq_ok, checkByteVec_ok] at h
    obtain ⟨i, ⟨s, rfl, -, hs, hc⟩, h⟩ := h
    cases h
    have hn' : n = i.size := by rw [hs]; apply exact_other hn; rcases hc with hc | hc <;> simp [hc.1]
    subst hn'
    exact fun v => writeBytes_halts hs hp hc v
  | .arrayVecU8 cap, d, p, n, h, hw, hn, hm, hp => by
    simp only [Ty.writer, Out.bind_eq_ok, checkArrayByteVec_ok] at h
    obtain ⟨i, ⟨s, rfl, -, hs, hc⟩, h⟩ := h
    cases h
    have hn' : n = i.size := by rw [hs]; apply exact_other hn; rcases hc with hc | hc <;> simp [hc.1]
    subst hn'
    refine fun v => writeBytes_halts hs hp ?_ v.1
    rcases hc with hc | hc
    · exact Or.inl hc
    · exact Or.inr ⟨hc.1, hc.2.1⟩
  | .fixedBytes k, d, p, n, h, hw, hn, hm, hp => by
    simp only [Ty.writer, Out.bind_eq_ok, checkFixed_ok] at h
    obtain ⟨⟨⟩, ⟨s, rfl, -, hc, hs⟩, h⟩ := h
    exact fun v => Halts.some
  | .vecU32, d, p, n, h, hw, hn, hm, hp => by
    simp only [Ty.writer, Out.bind_eq_ok, checkUnicode_ok] at h
    obtain ⟨x, ⟨s, rfl, -, hc, rfl⟩, h⟩ := h
    cases h
    rw [exact_unicode hn hc]
    exact fun v => writeVecU32_halts (ordered_unicode hw hc) hp v
  | .vecChar, d, p, n, h, hw, hn, hm, hp => by
    simp only [Ty.writer, Out.bind_eq_ok, checkUnicode_ok] at h
    obtain ⟨x, ⟨s, rfl, -, hc, rfl⟩, h⟩ := h
    cases h
    rw [exact_unicode hn hc]
    exact fun v => writeVecChar_halts hp v
  | .string, d, p, n, h, hw, hn, hm, hp => by
    simp only [Ty.writer, Out.bind_eq_ok, writeFormat_ok] at h
    obtain ⟨f, ⟨s, rfl, -, hc⟩, h⟩ := h
    cases h
    exact fun v => writeString_halts hn hp.1 hp.2 hc v
  | .arrayVecU32 cap, d, p, n, h, hw, hn, hm, hp => by
    simp only [Ty.writer, Out.bind_eq_ok, checkUnicode_ok] at h
    obtain ⟨x, ⟨s, rfl, -, hc, rfl⟩, h⟩ := h
    cases h
    rw [exact_unicode hn hc]
    exact fun v => writeVecU32_halts (ordered_unicode hw hc) hp v.1
  | .arrayVecChar cap, d, p, n, h, hw, hn, hm, hp => by
    simp only [Ty.writer, Out.bind_eq_ok, checkUnicode_ok] at h
    obtain ⟨x, ⟨s, rfl, -, hc, rfl⟩, h⟩ := h
    cases h
    rw [exact_unicode hn hc]
    exact fun v => writeVecChar_halts hp v.1
  | .arrayString cap, d, p, n, h, hw, hn, hm, hp => by
    simp only [Ty.writer, Out.bind_eq_ok, writeFormat_ok] at h
    obtain ⟨f, ⟨s, rfl, -, hc⟩, h⟩ := h
    cases h
    exact fun v => writeString_halts hn hp.1 hp.2 hc v.1
  | .array m t, d, p, n, h, hw, hn, hm, hp => by
    simp only [Ty.writer, Out.bind_eq_ok, arrayInner_ok] at h
    obtain ⟨d', rfl, q, hq, h⟩ := h
    cases h
    obtain ⟨k, hk, rfl⟩ := exact_array hn
    intro v
    cases m with
    | zero =>
      have hv : v.1 = [] := List.length_eq_zero_iff.mp v.2
      show Halts (writeMany q v.1) _ (encodeAll (encode t d') v.1)
      rw [hv]
      exact Halts.some
    | succ m =>
      have hkm : k ≤ M.isizeMax := Nat.le_trans (Nat.le_mul_of_pos_left k (Nat.succ_pos m)) hm
      have h := Halts.many (writer_writes t hq hw.2 hk hkm) (writer_halts t hq hw.2 hk hkm hp) v.1
      rw [v.2] at h
      exact h
  | .record fs, d, p, n, h, hw, hn, hm, hp => by
    obtain ⟨dfs, h1, h2⟩ := (Out.bind_eq_ok (x := extractFields fs.names d) (f := fun dfs => fs.writer M dfs)).mp h
    obtain ⟨rfl, hnames⟩ := extractFields_ok.mp h1
    exact fields_halts fs hnames h2 hw hn hm hp
theorem fields_halts {M : Machine} : (fs : TFields) → {dfs : Fields} → {w : fs.Val → WProg Unit} → {n : Nat} →
    dfs.names = fs.names → fs.writer M dfs = .ok w → dfs.Wf → exactFieldBytes dfs = some n → n ≤ M.isizeMax →
    FieldsPrompt fs dfs → ∀ v, Halts (w v) n (encodeFields fs dfs v)
  | .nil, .nil, p, n, _, h, hw, hn, hm, hp => fun _ => Halts.some
  | .nil, .cons _ _ _, p, n, hnames, h, hw, hn, hm, hp => by
    simp [TFields.names, Fields.names] at hnames
  | .cons _ _ _, .nil, p, n, hnames, h, hw, hn, hm, hp => by
    simp [TFields.names, Fields.names] at hnames
  | .cons name t rest, .cons name' d dfs, p, n, hnames, h, hw, hn, hm, hp => by
    simp only [TFields.names, Fields.names, List.cons.injEq] at hnames
    simp only [TFields.writer, Out.bind_eq_ok] at h
    obtain ⟨q, hq, r, hr, h⟩ := h
    cases h
    obtain ⟨a, b, ha, hb, rfl⟩ := exact_cons hn
    have h1 := writer_halts t hq hw.1 ha (by omega) hp.1
    have h2 := fields_halts rest hnames.2 hr hw.2 hb (by omega) hp.2
    exact fun v => Halts.append (writer_writes t hq hw.1 ha (by omega) v.1) (h1 v.1) (h2 v.2)
end

/-! ### Pushing -/

/-- One push. -/
theorem push_halts {M : Machine} {t : Ty} {d : DType} {n : Nat} {w : NpyWriter t.Val} (hw : t.writer M d = .ok w.prog) (hd : d.Wf)
    (hn : exactBytes d = some n) (hm : n ≤ M.isizeMax) (hp : Prompt t d) (hc : w.numItems + 1 < 2 ^ 64) (v : t.Val) (s : Sink) :
    ∃ bs r, w.push M solid v s = (r, { w with numItems := w.numItems + 1 }, s.put bs) ∧
      ((encode t d v ≠ none ∧ r = .ok () ∧ bs.length = n) ∨ (encode t d v = none ∧ (∃ e, r = .err e) ∧ bs.length < n)) := by
  unfold NpyWriter.push
  rw [counted_ok hc]
  have hwr := writer_writes t hw hd hn hm v
  have hst := writer_halts t hw hd hn hm hp v
  simp only [solid]
  cases he : encode t d v with
  | none =>
    obtain ⟨b, why, hl, hx⟩ := hst he
    rw [hx.exec]
    exact ⟨b, _, rfl, .inr ⟨rfl, ⟨_, rfl⟩, hl⟩⟩
  | some b =>
    rw [he] at hwr
    obtain ⟨hl, hx⟩ := hwr
    rw [hx.exec]
    exact ⟨b, _, rfl, .inl ⟨by simp, rfl, hl⟩⟩

/-- Any pushes, carrying on after errors. -/
theorem pushAll_halts {M : Machine} {t : Ty} {d : DType} {n : Nat} (hd : d.Wf) (hn : exactBytes d = some n) (hm : n ≤ M.isizeMax) (hp : Prompt t d)
    (vs : List t.Val) (w : NpyWriter t.Val) (hw : t.writer M d = .ok w.prog) (hc : w.numItems + vs.length < 2 ^ 64) (s : Sink) :
    ∃ bs, (w.pushAll M solid vs s).2 = ({ w with numItems := w.numItems + vs.length }, s.put bs) ∧ bs.length ≤ vs.length * n ∧
      ((∃ v ∈ vs, encode t d v = none) → bs.length < vs.length * n) := by
  induction vs generalizing w s with
  | nil => exact ⟨[], by simp [NpyWriter.pushAll, Sink.put_nil], by simp, by simp⟩
  | cons v vs ih =>
    have hc' : w.numItems + (vs.length + 1) < 2 ^ 64 := hc
    obtain ⟨b, r, h1, h2⟩ := push_halts (M := M) hw hd hn hm hp (by omega) v s
    obtain ⟨bs, g1, g2, g3⟩ := ih { w with numItems := w.numItems + 1 } hw (by simp only; omega) (s.put b)
    simp only [NpyWriter.pushAll, h1]
    refine ⟨b ++ bs, ?_, ?_, ?_⟩
    · rw [g1, Sink.put_put]
      simp only [List.length_cons]
      congr 2
      omega
    · simp only [List.length_append, List.length_cons, Nat.succ_mul]
      rcases h2 with ⟨-, -, h2⟩ | ⟨-, -, h2⟩ <;> omega
    · rintro ⟨v', hv', hx⟩
      simp only [List.length_append, List.length_cons, Nat.succ_mul]
      rcases h2 with ⟨h3, -, h2⟩ | ⟨-, -, h2⟩
      · rcases List.mem_cons.mp hv' with rfl | hv'
        · exact absurd hx h3
        · have := g3 ⟨v', hv', hx⟩
          omega
      · omega

/-- Pushing until an error occurs. -/
theorem extend_halts {M : Machine} {t : Ty} {d : DType} {n : Nat} (hd : d.Wf) (hn : exactBytes d = some n) (hm : n ≤ M.isizeMax) (hp : Prompt t d)
    (vs : List t.Val) (w : NpyWriter t.Val) (hw : t.writer M d = .ok w.prog) (hc : w.numItems + vs.length < 2 ^ 64) (s : Sink) :
    (∃ bs, w.extend M solid vs s = (.ok (), { w with numItems := w.numItems + vs.length }, s.put bs) ∧ bs.length = vs.length * n) ∨
    (∃ e k bs, k ≤ vs.length ∧ w.extend M solid vs s = (.err e, { w with numItems := w.numItems + k }, s.put bs) ∧ bs.length < k * n) := by
  induction vs generalizing w s with
  | nil => exact .inl ⟨[], by simp [NpyWriter.extend, Sink.put_nil], by simp⟩
  | cons v vs ih =>
    have hc' : w.numItems + (vs.length + 1) < 2 ^ 64 := hc
    obtain ⟨b, r, h1, h2⟩ := push_halts (M := M) hw hd hn hm hp (by omega) v s
    unfold NpyWriter.extend
    rw [h1]
    rcases h2 with ⟨-, rfl, h2⟩ | ⟨-, ⟨e, rfl⟩, h2⟩
    · simp only
      rcases ih { w with numItems := w.numItems + 1 } hw (by simp only; omega) (s.put b) with ⟨bs, g1, g2⟩ | ⟨e, k, bs, g0, g1, g2⟩
      · refine .inl ⟨b ++ bs, ?_, ?_⟩
        · rw [g1, Sink.put_put]
          simp only [List.length_cons]
          congr 3
          omega
        · simp only [List.length_append, List.length_cons, Nat.succ_mul]; omega
      · refine .inr ⟨e, k + 1, b ++ bs, by simp; omega, ?_, ?_⟩
        · rw [g1, Sink.put_put]
          simp only
          congr 3
          omega
        · simp only [List.length_append, Nat.succ_mul]; omega
    · exact .inr ⟨e, 1, b, by simp, rfl, by omega⟩

/-! ### Strings that are too long -/

/-- As many characters as there is room for are written. -/
theorem writeStrLoop_long {M : Machine} {e : Endianness} (ho : e ≠ .irrelevant) (n : Nat) (l : Text) (used : Nat) (hu : used ≤ n) (h : n < used + l.length) :
    (writeStrLoop M (swapFor M e) n used l).Emits (((l.take (n - used)).map (·.toNat)).flatMap (wordBytes e 4))
      (.err (.invalidData "string has too many code units")) := by
  induction l generalizing used with
  | nil => simp at h; omega
  | cons c cs ih =>
    rw [writeStrLoop]
    by_cases hu' : n < used + 1
    · rw [if_pos hu', show n - used = 0 by omega]
      exact .ret _
    · rw [if_neg hu', show n - used = n - (used + 1) + 1 by omega]
      have h1 := (writeWord_writes (M := M) (e := e) (Or.inl ho) (charWord c)).2
      rw [charWord_toNat] at h1
      exact h1.bindOk (ih (used + 1) (by omega) (by simp at h; omega))

theorem padUnits_full {e : Endianness} {n : Nat} {l : List Nat} (h : l.length = n) : padUnits e n l = some (l.flatMap (wordBytes e 4)) := by
  unfold padUnits
  rw [if_pos (by omega), show n - l.length = 0 by omega]
  simp

theorem encodeAll_snoc {α : Type} {f : α → Option Bytes} {x : α} {b : Bytes} (hx : f x = some b) (xs : List α) {data : Bytes}
    (h : encodeAll f xs = some data) : encodeAll f (xs ++ [x]) = some (data ++ b) := by
  induction xs generalizing data with
  | nil => cases h; simp [encodeAll, hx, both]
  | cons y ys ih =>
    rw [encodeAll] at h
    rw [List.cons_append, encodeAll]
    cases h1 : f y with
    | none => rw [h1] at h; cases h
    | some a =>
      cases h2 : encodeAll f ys with
      | none => rw [h1, h2] at h; cases h
      | some c =>
        rw [h1, h2] at h
        cases h
        rw [ih h2]
        simp [both]

/-- Values that can be stored, followed by one that cannot. -/
theorem extend_cut {M : Machine} {t : Ty} {d : DType} {n : Nat} (hd : d.Wf) (hn : exactBytes d = some n) (hm : n ≤ M.isizeMax)
    {l : t.Val} {b : Bytes} {e : Err} (rest : List t.Val)
    (vs : List t.Val) (w : NpyWriter t.Val) (hw : t.writer M d = .ok w.prog) (hl : (w.prog l).Emits b (.err e))
    (hc : w.numItems + vs.length + 1 < 2 ^ 64) (s : Sink) {data : Bytes} (he : encodeAll (encode t d) vs = some data) :
    w.extend M solid (vs ++ l :: rest) s = (.err e, { w with numItems := w.numItems + vs.length + 1 }, s.put (data ++ b)) := by
  induction vs generalizing w s data with
  | nil =>
    cases he
    rw [List.nil_append]
    unfold NpyWriter.extend NpyWriter.push
    rw [counted_ok (by simp at hc; omega)]
    simp only [solid]
    rw [hl.exec]
    simp
  | cons v vs ih =>
    have hc' : w.numItems + (vs.length + 1) + 1 < 2 ^ 64 := hc
    simp only [encodeAll] at he
    cases hev : encode t d v with
    | none => rw [hev] at he; cases he
    | some b' =>
      cases hes : encodeAll (encode t d) vs with
      | none => rw [hev, hes] at he; cases he
      | some bs' =>
        rw [hev, hes] at he
        cases he
        obtain ⟨bs, r, hp, hr⟩ := push_solid (M := M) hw hd hn hm (by omega) v s
        rcases hr with ⟨he', rfl, -⟩ | ⟨he', -⟩
        · rw [hev] at he'; cases he'
          rw [List.cons_append]
          unfold NpyWriter.extend
          rw [hp]
          simp only
          rw [ih { w with numItems := w.numItems + 1 } hw hl (by simp only; omega) _ hes, Sink.put_put]
          simp only [List.length_cons, List.append_assoc]
          congr 3
          omega
        · rw [hev] at he'; cases he'

end Npyz
