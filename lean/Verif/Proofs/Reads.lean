import Verif.Proofs.Word
import Verif.Proofs.IO
/-!
Combinators: what a reader program does on every input (`Reads`), what a writer program emits
(`Emits`, `Writes`).
-/
namespace Npyz
open Spec

/-- `p` consumes exactly `n` bytes and decodes them by `f`: on `n` bytes that decode it returns the
value and leaves the rest, on others an `InvalidData` error (having read at most `n` bytes), and on
fewer bytes some error; it never panics. -/
structure Reads {α : Type} (p : RProg α) (n : Nat) (f : Bytes → Option α) : Prop where
  ok : ∀ bs rest v, bs.length = n → f bs = some v → p.run (bs ++ rest) = (.ok v, rest)
  bad : ∀ bs rest, bs.length = n → f bs = none →
    ∃ why k, k ≤ n ∧ p.run (bs ++ rest) = (.err (.invalidData why), (bs ++ rest).drop k)
  short : ∀ bs, bs.length < n → ∃ e r, p.run bs = (.err e, r) ∧ (e = .unexpectedEof ∨ ∃ why, e = .invalidData why)

namespace Reads

theorem congr {α : Type} {p : RProg α} {n : Nat} {f g : Bytes → Option α} (h : Reads p n f)
    (hfg : ∀ bs, bs.length = n → f bs = g bs) : Reads p n g where
  ok bs rest v hl hv := h.ok bs rest v hl ((hfg bs hl).trans hv)
  bad bs rest hl hv := h.bad bs rest hl ((hfg bs hl).trans hv)
  short := h.short

theorem pure {α : Type} (a : α) : Reads (Pure.pure a : RProg α) 0 (fun _ => some a) where
  ok bs rest v hl hv := by
    have : bs = [] := List.length_eq_zero_iff.mp hl
    subst this; cases hv; rfl
  bad bs rest hl hv := by cases hv
  short bs h := by omega

theorem liftOk {α : Type} (a : α) : Reads (RProg.lift (.ok a)) 0 (fun _ => some a) := pure a

theorem liftErr {α : Type} (why : String) : Reads (RProg.lift (.err (.invalidData why)) : RProg α) 0 (fun _ => none) where
  ok bs rest v hl hv := by cases hv
  bad bs rest hl hv := ⟨why, 0, Nat.le_refl _, rfl⟩
  short bs h := by omega

theorem readExact (n : Nat) : Reads (RProg.readExact n) n some where
  ok bs rest v hl hv := by
    cases hv
    rw [RProg.run_readExact, if_pos (by simp [hl]), List.take_left' hl, List.drop_left' hl]
  bad bs rest hl hv := by cases hv
  short bs h := by
    refine ⟨.unexpectedEof, [], ?_, Or.inl rfl⟩
    rw [RProg.run_readExact, if_neg (by omega)]

theorem bind {α β : Type} {p : RProg α} {n m : Nat} {f : Bytes → Option α} {q : α → RProg β} {g : α → Bytes → Option β}
    (hp : Reads p n f) (hq : ∀ a, Reads (q a) m (g a)) :
    Reads (p >>= q) (n + m) (fun bs => (f (bs.take n)).bind fun a => g a (bs.drop n)) where
  ok bs rest v hl hv := by
    simp only [Option.bind_eq_some_iff] at hv
    obtain ⟨a, ha, hg⟩ := hv
    have h1 : (bs.take n).length = n := by simp; omega
    have h2 : (bs.drop n).length = m := by simp; omega
    have e : bs ++ rest = bs.take n ++ (bs.drop n ++ rest) := by rw [← List.append_assoc, List.take_append_drop]
    rw [e, RProg.run_bind_of_ok (hp.ok _ _ _ h1 ha)]
    exact (hq a).ok _ _ _ h2 hg
  bad bs rest hl hv := by
    have h1 : (bs.take n).length = n := by simp; omega
    have h2 : (bs.drop n).length = m := by simp; omega
    have e : bs ++ rest = bs.take n ++ (bs.drop n ++ rest) := by rw [← List.append_assoc, List.take_append_drop]
    cases ha : f (bs.take n) with
    | none =>
      obtain ⟨why, k, hk, hr⟩ := hp.bad _ (bs.drop n ++ rest) h1 ha
      rw [← e] at hr
      exact ⟨why, k, by omega, RProg.run_bind_of_err hr⟩
    | some a =>
      rw [ha, Option.bind_some] at hv
      obtain ⟨why, k, hk, hr⟩ := (hq a).bad _ rest h2 hv
      refine ⟨why, n + k, by omega, ?_⟩
      rw [← List.drop_drop]
      rw [List.drop_append_of_le_length (by omega), ← hr, e]
      exact RProg.run_bind_of_ok (hp.ok _ _ _ h1 ha)
  short bs hl := by
    by_cases hn : bs.length < n
    · obtain ⟨e, r, hr, he⟩ := hp.short bs hn
      exact ⟨e, r, RProg.run_bind_of_err hr, he⟩
    · have h1 : (bs.take n).length = n := by simp; omega
      have h2 : (bs.drop n).length < m := by simp; omega
      cases ha : f (bs.take n) with
      | none =>
        obtain ⟨why, k, hk, hr⟩ := hp.bad _ (bs.drop n) h1 ha
        rw [List.take_append_drop] at hr
        exact ⟨_, _, RProg.run_bind_of_err hr, Or.inr ⟨why, rfl⟩⟩
      | some a =>
        have hr := hp.ok _ (bs.drop n) _ h1 ha
        rw [List.take_append_drop] at hr
        obtain ⟨e, r, hr', he⟩ := (hq a).short _ h2
        exact ⟨e, r, by rw [RProg.run_bind_of_ok hr, hr'], he⟩

/-- A pure step before reading. -/
theorem liftBind {α β : Type} {r : Res α} {a : α} {q : α → RProg β} {n : Nat} {g : Bytes → Option β}
    (hr : r = .ok a) (hq : Reads (q a) n g) : Reads (RProg.lift r >>= q) n g := by
  subst hr
  exact hq

/-- Post-processing that can fail. -/
theorem mapRes {α β : Type} {p : RProg α} {n : Nat} {f : Bytes → Option α} (hp : Reads p n f) (r : α → Res β)
    (o : α → Option β) (h : ∀ a, (∃ b, r a = .ok b ∧ o a = some b) ∨ (∃ why, r a = .err (.invalidData why) ∧ o a = none)) :
    Reads (p >>= fun a => RProg.lift (r a)) n (fun bs => (f bs).bind o) := by
  have hq : ∀ a, Reads (RProg.lift (r a)) 0 (fun _ => o a) := by
    intro a
    rcases h a with ⟨b, h1, h2⟩ | ⟨why, h1, h2⟩
    · rw [h1, h2]; exact liftOk b
    · rw [h1, h2]; exact liftErr why
  refine (bind hp hq).congr fun bs hl => ?_
  rw [List.take_of_length_le (by omega)]

/-- Post-processing that cannot fail. -/
theorem map {α β : Type} {p : RProg α} {n : Nat} {f : Bytes → Option α} (hp : Reads p n f) (r : α → β) :
    Reads (p >>= fun a => (Pure.pure (r a) : RProg β)) n (fun bs => (f bs).map r) := by
  refine (hp.mapRes (fun a => .ok (r a)) (fun a => some (r a)) fun a => Or.inl ⟨_, rfl, rfl⟩).congr fun bs _ => ?_
  cases f bs <;> rfl

theorem many {α : Type} {p : RProg α} {k : Nat} {f : Bytes → Option α} (hp : Reads p k f) (n : Nat) :
    Reads (readMany p n) (n * k) (decodeMany f k n) := by
  induction n with
  | zero =>
    rw [Nat.zero_mul]
    exact (pure _).congr fun _ _ => rfl
  | succ n ih =>
    have e : (n + 1) * k = k + n * k := by rw [Nat.succ_mul, Nat.add_comm]
    rw [e]
    refine (hp.bind fun x => ih.map fun xs => (⟨x :: xs.1, by simp [xs.2]⟩ : { l : List α // l.length = n + 1 })).congr fun bs _ => ?_
    simp only [decodeMany]
    cases f (bs.take k) with
    | none => rfl
    | some x =>
      cases decodeMany f k n (bs.drop k) with
      | none => rfl
      | some xs => rfl

end Reads

/-! ### Writers -/

/-- `p` only writes: the bytes `bs` in total, ending with the result `r`. -/
inductive WProg.Emits {α : Type} : WProg α → Bytes → Res α → Prop where
  | ret (r) : Emits (.ret r) [] r
  | write {b k bs r} : Emits k bs r → Emits (.write b k) (b ++ bs) r

namespace WProg.Emits

theorem exec {α : Type} {p : WProg α} {bs : Bytes} {r : Res α} (h : p.Emits bs r) (s : Sink) :
    p.exec s = (r, s.put bs) := by
  induction h generalizing s with
  | ret r => rw [Sink.put_nil]; rfl
  | write _ ih => rw [WProg.exec, ih, Sink.put_put]

theorem crash {α : Type} {p : WProg α} {bs : Bytes} {r : Res α} (h : p.Emits bs r) (s : Sink) (n : Nat) :
    p.crash n s = s.put (bs.take n) := by
  induction h generalizing s n with
  | ret r => simp [WProg.crash, Sink.put_nil]
  | @write b k bs r _ ih =>
    rw [WProg.crash]
    split
    · rw [List.take_append_of_le_length (by omega)]
    · rw [ih, Sink.put_put, List.take_append, List.take_of_length_le (l := b) (by omega)]

theorem put (b : Bytes) : (WProg.put b).Emits b (.ok ()) := by
  have := write (b := b) (ret (.ok ()))
  rwa [List.append_nil] at this

theorem bindOk {α β : Type} {p : WProg α} {f : α → WProg β} {a : α} {bs bs' : Bytes} {r : Res β}
    (hp : p.Emits bs (.ok a)) (hf : (f a).Emits bs' r) : (p >>= f).Emits (bs ++ bs') r := by
  generalize ho : (Out.ok a : Res α) = o at hp
  induction hp with
  | ret r => subst ho; exact hf
  | write _ ih =>
    rw [List.append_assoc]
    exact .write (ih ho)

theorem bindErr {α β : Type} {p : WProg α} {f : α → WProg β} {e : Err} {bs : Bytes}
    (hp : p.Emits bs (.err e)) : (p >>= f).Emits bs (.err e) := by
  generalize ho : (Out.err e : Res α) = o at hp
  induction hp with
  | ret r => subst ho; exact .ret _
  | write _ ih => exact .write (ih ho)

end WProg.Emits

/-- Writing an item: exactly the bytes `o`, or (when there are none) an `InvalidData` error after at
most `n` bytes. -/
def Writes (p : WProg Unit) (n : Nat) (o : Option Bytes) : Prop :=
  match o with
  | some bs => bs.length = n ∧ p.Emits bs (.ok ())
  | none => ∃ bs why, bs.length ≤ n ∧ p.Emits bs (.err (.invalidData why))

namespace Writes

theorem put {b : Bytes} {n : Nat} (h : b.length = n) : Writes (WProg.put b) n (some b) := ⟨h, .put b⟩

theorem nil : Writes (Pure.pure ()) 0 (some []) := ⟨rfl, .ret _⟩

/-- Sequencing. -/
theorem append {p q : WProg Unit} {n m : Nat} {o o' : Option Bytes} (hp : Writes p n o) (hq : Writes q m o') :
    Writes (p >>= fun _ => q) (n + m) (both o o') := by
  cases o with
  | none =>
    obtain ⟨bs, why, hl, he⟩ := hp
    exact ⟨bs, why, by omega, he.bindErr⟩
  | some a =>
    obtain ⟨hl, he⟩ := hp
    cases o' with
    | none =>
      obtain ⟨bs, why, hl', he'⟩ := hq
      exact ⟨a ++ bs, why, by simp; omega, he.bindOk he'⟩
    | some b =>
      obtain ⟨hl', he'⟩ := hq
      exact ⟨by simp; omega, he.bindOk he'⟩

theorem many {α : Type} {w : α → WProg Unit} {f : α → Option Bytes} {k : Nat} (h : ∀ x, Writes (w x) k (f x)) (l : List α) :
    Writes (writeMany w l) (l.length * k) (encodeAll f l) := by
  induction l with
  | nil => rw [List.length_nil, Nat.zero_mul]; exact nil
  | cons x xs ih =>
    rw [List.length_cons, Nat.succ_mul, Nat.add_comm]
    exact append (h x) ih

end Writes

theorem encodeAll_flatMap {α : Type} (f : α → Bytes) (l : List α) : encodeAll (fun x => some (f x)) l = some (l.flatMap f) := by
  induction l with
  | nil => rfl
  | cons x xs ih => simp [encodeAll, both, ih]

end Npyz
