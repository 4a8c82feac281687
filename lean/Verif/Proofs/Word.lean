import Verif.Spec.Codec
import Verif.Proofs.Write
/-!
Machine words and trailing NULs: the model's primitives agree with the specification.
-/
namespace Npyz
open Spec

theorem leNat_lt (bs : Bytes) : leNat bs < 256 ^ bs.length := by
  induction bs with
  | nil => simp [leNat]
  | cons b bs ih =>
    have := b.toNat_lt
    simp only [leNat, List.length_cons, Nat.pow_succ]
    omega

theorem leBytes_leNat (bs : Bytes) : leBytes bs.length (leNat bs) = bs := by
  induction bs with
  | nil => rfl
  | cons b bs ih =>
    have := b.toNat_lt
    have h1 : (b.toNat + 256 * leNat bs) % 256 = b.toNat := by omega
    have h2 : (b.toNat + 256 * leNat bs) / 256 = leNat bs := by omega
    simp only [leNat, List.length_cons, leBytes, h1, h2, ih]
    simp

theorem two_pow_eight (w : Nat) : 2 ^ (8 * w) = 256 ^ w := by
  rw [Nat.pow_mul]

theorem wordValue_eq (e : Endianness) (bs : Bytes) :
    wordValue e bs = leNat (if e = .big then bs.reverse else bs) := by
  have h : ∀ l : Bytes, l.foldr (fun b acc => b.toNat + 256 * acc) 0 = leNat l := by
    intro l
    induction l with
    | nil => rfl
    | cons b l ih => simp [leNat, ih]
  unfold wordValue
  split
  · rw [← h, List.foldr_reverse]
    congr 1
    funext a b
    omega
  · exact h bs

theorem leBytes_eq_map (w n : Nat) : leBytes w n = (List.range w).map fun i => UInt8.ofNat (n / 256 ^ i) := by
  induction w generalizing n with
  | zero => rfl
  | succ w ih =>
    rw [leBytes, ih, List.range_succ_eq_map, List.map_cons, List.map_map]
    congr 1
    · apply UInt8.toNat.inj
      simp
    · apply List.map_congr_left
      intro i _
      simp only [Function.comp, Nat.succ_eq_add_one]
      rw [Nat.pow_succ, Nat.mul_comm, Nat.div_div_eq_div_mul]

theorem wordBytes_eq (e : Endianness) (w n : Nat) :
    wordBytes e w n = if e = .big then (leBytes w n).reverse else leBytes w n := by
  unfold wordBytes
  split
  · rw [leBytes_eq_map]
    apply List.ext_getElem
    · simp
    · intro i h1 h2
      simp
  · rw [leBytes_eq_map]

@[simp] theorem wordBytes_length (e : Endianness) (w n : Nat) : (wordBytes e w n).length = w := by
  rw [wordBytes_eq]; split <;> simp [leBytes_length]

theorem wordValue_wordBytes {e : Endianness} {w n : Nat} (h : n < 256 ^ w) : wordValue e (wordBytes e w n) = n := by
  rw [wordValue_eq, wordBytes_eq]
  split <;> simp [leNat_leBytes h]

theorem wordBytes_wordValue (e : Endianness) (bs : Bytes) : wordBytes e bs.length (wordValue e bs) = bs := by
  rw [wordValue_eq, wordBytes_eq]
  split
  · conv => lhs; rw [← List.length_reverse, leBytes_leNat]
    simp
  · exact leBytes_leNat bs

theorem wordValue_lt (e : Endianness) (bs : Bytes) : wordValue e bs < 256 ^ bs.length := by
  rw [wordValue_eq]
  split
  · simpa using leNat_lt bs.reverse
  · exact leNat_lt bs

theorem ofNat_word {w n : Nat} (h : n < 256 ^ w) : (BitVec.ofNat (8 * w) n).toNat = n := by
  rw [BitVec.toNat_ofNat, two_pow_eight, Nat.mod_eq_of_lt h]

theorem word_lt {w : Nat} (x : Word w) : x.toNat < 256 ^ w := by
  rw [← two_pow_eight]; exact x.isLt

/-- A one-byte word or a definite byte order: the byte order is unambiguous. -/
def Ordered (e : Endianness) (w : Nat) : Prop := e ≠ .irrelevant ∨ w = 1

theorem swapBytes_ofNat {bs : Bytes} {w : Nat} (h : bs.length = w) :
    swapBytes (BitVec.ofNat (8 * w) (leNat bs)) = BitVec.ofNat (8 * w) (leNat bs.reverse) := by
  subst h
  unfold swapBytes
  rw [ofNat_word (leNat_lt bs), leBytes_leNat]

theorem reverse_singleton_of_length {bs : Bytes} (h : bs.length = 1) : bs.reverse = bs := by
  match bs, h with
  | [b], _ => rfl

theorem readWord_value {M : Machine} {e : Endianness} {bs : Bytes} {w : Nat} (h : bs.length = w) (ho : Ordered e w) :
    (if swapFor M e then swapBytes (fromNe M w bs) else fromNe M w bs) = BitVec.ofNat (8 * w) (wordValue e bs) := by
  rw [wordValue_eq]
  unfold fromNe swapFor
  rcases M with ⟨be, _, _⟩
  have hr : bs.reverse.length = w := by simpa using h
  cases be <;> cases e <;> simp [Endianness.ofMachine, Endianness.requiresSwap]
  · exact swapBytes_ofNat h
  · simpa using swapBytes_ofNat hr
  · rcases ho with ho | ho
    · exact absurd rfl ho
    · rw [reverse_singleton_of_length (h.trans ho)]

theorem writeWord_value {M : Machine} {e : Endianness} {w : Nat} (x : Word w) (ho : Ordered e w) :
    toNe M (if swapFor M e then swapBytes x else x) = wordBytes e w x.toNat := by
  rw [wordBytes_eq]
  have hs : leBytes w (swapBytes x).toNat = (leBytes w x.toNat).reverse := by
    unfold swapBytes
    have hl : (leBytes w x.toNat).reverse.length = w := by simp [leBytes_length]
    have h2 := leNat_lt (leBytes w x.toNat).reverse
    rw [hl] at h2
    rw [ofNat_word h2]
    have h3 := leBytes_leNat (leBytes w x.toNat).reverse
    rw [hl] at h3
    exact h3
  unfold toNe swapFor
  rcases M with ⟨be, _, _⟩
  cases be <;> cases e <;> simp [Endianness.ofMachine, Endianness.requiresSwap, hs]
  rcases ho with ho | ho
  · exact absurd rfl ho
  · rw [reverse_singleton_of_length ((leBytes_length w _).trans ho)]

/-! ### Trailing NULs -/

theorem rposition_none {α : Type} {p : α → Bool} {l : List α} : rposition p l = none ↔ ∀ x ∈ l, p x = false := by
  induction l with
  | nil => simp [rposition]
  | cons x xs ih =>
    simp only [rposition, List.mem_cons, forall_eq_or_imp]
    cases hr : rposition p xs with
    | some i =>
      simp only [reduceCtorEq, false_iff, not_and]
      intro _ h
      exact absurd (hr.symm.trans (ih.mpr h)) (by simp)
    | none =>
      have := ih.mp hr
      cases hp : p x <;> simp [hp]
      exact this

theorem rposition_append {α : Type} {p : α → Bool} {l t : List α} (h : ∀ x ∈ t, p x = false) :
    rposition p (l ++ t) = rposition p l := by
  induction l with
  | nil => simpa [rposition] using rposition_none.mpr h
  | cons x xs ih => simp [rposition, ih]

theorem rposition_concat {α : Type} {p : α → Bool} {l : List α} {x : α} (h : p x = true) :
    rposition p (l ++ [x]) = some l.length := by
  induction l with
  | nil => simp [rposition, h]
  | cons y ys ih => simp [rposition, ih]

theorem trimEnd_append_zeros {α : Type} {p : α → Bool} {l t : List α} (h : ∀ x ∈ t, p x = true) :
    trimEnd p (l ++ t) = trimEnd p l := by
  unfold trimEnd
  rw [List.reverse_append]
  congr 1
  have : ∀ t : List α, (∀ x ∈ t, p x = true) → ∀ l, (t ++ l).dropWhile p = l.dropWhile p := by
    intro t
    induction t with
    | nil => simp
    | cons x xs ih =>
      intro h l
      rw [List.cons_append, List.dropWhile_cons, if_pos (h x (by simp))]
      exact ih (fun y hy => h y (by simp [hy])) l
  exact this _ (fun x hx => h x (by simpa using hx)) _

theorem trimEnd_concat {α : Type} {p : α → Bool} {l : List α} {x : α} (h : p x = false) :
    trimEnd p (l ++ [x]) = l ++ [x] := by
  simp [trimEnd, h]

/-- Every list is a list not ending in a zero, followed by zeros. -/
theorem split_zeros {α : Type} (p : α → Bool) (l : List α) :
    ∃ t, (∀ x ∈ t, p x = true) ∧ (l = t ∨ ∃ k x, p x = false ∧ l = k ++ [x] ++ t) := by
  refine ⟨(l.reverse.takeWhile p).reverse, fun x hx => List.all_eq_true.mp List.all_takeWhile x (by simpa using hx), ?_⟩
  have h : l = (l.reverse.dropWhile p).reverse ++ (l.reverse.takeWhile p).reverse := by
    rw [← List.reverse_append, List.takeWhile_append_dropWhile, List.reverse_reverse]
  cases hd : l.reverse.dropWhile p with
  | nil => left; rw [hd] at h; simpa using h
  | cons x xs =>
    right
    refine ⟨xs.reverse, x, ?_, ?_⟩
    · have := List.head?_dropWhile_not p l.reverse
      rw [hd] at this
      simpa using this
    · rw [hd] at h; simpa using h

theorem truncateNuls_eq {α : Type} (p : α → Bool) (l : List α) : truncateNuls p l = trimEnd p l := by
  obtain ⟨t, ht, hl | ⟨k, x, hx, rfl⟩⟩ := split_zeros p l
  · subst hl
    have h1 : rposition (fun x => !p x) l = none := rposition_none.mpr (fun x hx => by simp [ht x hx])
    have h2 := trimEnd_append_zeros (l := []) ht
    simp only [List.nil_append] at h2
    rw [truncateNuls, h1, h2]
    simp [trimEnd]
  · rw [trimEnd_append_zeros ht, trimEnd_concat hx, truncateNuls,
      rposition_append (fun x hx => by simp [ht x hx]), rposition_concat (by simp [hx])]
    exact List.take_left' (by simp)

theorem popNuls_eq (s : Text) : popNuls s = trimEnd (· == '\x00') s := by
  obtain ⟨t, ht, hs⟩ := split_zeros (· == '\x00') s
  have key : ∀ (t k : Text), (∀ x ∈ t, (x == '\x00') = true) → popNuls (k ++ t.reverse) = popNuls k := by
    intro t
    induction t with
    | nil => simp
    | cons c t ih =>
      intro k h
      rw [List.reverse_cons, ← List.append_assoc]
      have hc : c = '\x00' := by simpa using h c (by simp)
      rw [popNuls]
      split
      · rename_i h'; simp at h'
      · rename_i c' h'
        simp at h'
        rw [← h', if_pos hc, List.dropLast_concat]
        exact ih k (fun x hx => h x (by simp [hx]))
  have key' := key t.reverse
  simp only [List.mem_reverse, List.reverse_reverse] at key'
  rcases hs with rfl | ⟨k, x, hx, rfl⟩
  · have h2 := trimEnd_append_zeros (l := []) ht
    simp only [List.nil_append] at h2
    rw [h2]
    have := key' [] ht
    simp only [List.nil_append] at this
    rw [this, popNuls]
    simp [trimEnd]
  · rw [trimEnd_append_zeros ht, trimEnd_concat (p := (· == '\x00')) hx, key' _ ht, popNuls]
    split
    · rfl
    · rename_i c h
      simp at h
      subst h
      rw [if_neg]
      simpa using hx

theorem fitPrefix_of_le {n : Nat} {s : Text} (h : (encodeUtf8 s).length ≤ n) : fitPrefix n s = s := by
  induction s generalizing n with
  | nil => rfl
  | cons c cs ih =>
    have hc : (String.utf8EncodeChar c).length = c.utf8Size := by simp
    rw [encodeUtf8_cons, List.length_append] at h
    rw [fitPrefix, if_pos (by omega), ih (by omega)]

theorem fitPrefix_concat {n : Nat} {s : Text} {c : Char} (h : n < (encodeUtf8 (s ++ [c])).length) :
    fitPrefix n (s ++ [c]) = fitPrefix n s := by
  induction s generalizing n with
  | nil =>
    have hc : (String.utf8EncodeChar c).length = c.utf8Size := by simp
    rw [List.nil_append, encodeUtf8_cons, encodeUtf8_nil, List.append_nil] at h
    simp only [List.nil_append, fitPrefix]
    rw [if_neg (by omega)]
  | cons d ds ih =>
    have hc : (String.utf8EncodeChar d).length = d.utf8Size := by simp
    simp only [List.cons_append, fitPrefix]
    rw [List.cons_append, encodeUtf8_cons, List.length_append] at h
    split
    · rw [ih (by omega)]
    · rfl

theorem popToBytes_eq (n : Nat) (s : Text) : popToBytes n s = fitPrefix n s := by
  induction h : s.length generalizing s with
  | zero =>
    have : s = [] := List.length_eq_zero_iff.mp h
    subst this
    rw [popToBytes, if_neg (by simp)]
    rfl
  | succ k ih =>
    rw [popToBytes]
    split
    · rename_i hlt
      have hne : s ≠ [] := by intro h0; subst h0; simp at h
      rw [ih _ (by simp [h])]
      have hs : s = s.dropLast ++ [s.getLast hne] := (List.dropLast_concat_getLast hne).symm
      conv => rhs; rw [hs]
      rw [hs] at hlt
      rw [fitPrefix_concat hlt]
    · rename_i hle
      rw [fitPrefix_of_le (by omega)]

end Npyz
