import Verif.Spec.Compose
import Verif.Model.Buffer
import Verif.Model.Npz
import Verif.Proofs.User
/-!
Proofs about element types made of other element types.
-/
namespace Npyz
open Spec
set_option autoImplicit false

namespace WProg

theorem assoc {α β γ : Type} (p : WProg α) (f : α → WProg β) (g : β → WProg γ) :
    (p.bind f).bind g = p.bind fun a => (f a).bind g := by
  induction p with
  | ret r => cases r <;> rfl
  | write b k ih => simp only [bind, ih]
  | tell k ih => simp only [bind, ih]
  | seek q k ih => simp only [bind, ih]
  | flush k ih => simp only [bind, ih]

/-- Change the result. -/
def after {α β : Type} (g : α → β) (p : WProg α) : WProg β := p.bind fun a => ret (.ok (g a))

end WProg

theorem solid_lawful : Lawful solid := by
  intro α β g p s
  show (p.after g).exec s = ((p.exec s).1.map g, (p.exec s).2)
  unfold WProg.after
  induction p generalizing s with
  | ret r => cases r <;> rfl
  | write b k ih => exact ih _
  | tell k ih =>
    simp only [WProg.bind, WProg.exec]
    by_cases h : s.seekable = true
    · rw [if_pos h, if_pos h]; exact ih _ _
    · rw [if_neg h, if_neg h]; rfl
  | seek q k ih =>
    simp only [WProg.bind, WProg.exec]
    by_cases h : s.seekable = true
    · rw [if_pos h, if_pos h]; exact ih _
    · rw [if_neg h, if_neg h]; rfl
  | flush k ih => exact ih _


theorem shaky_lawful : Lawful shaky := by
  intro α β g p s
  obtain ⟨s, evs⟩ := s
  show (p.after g).runSched s evs = ((p.runSched s evs).1.map g, (p.runSched s evs).2)
  unfold WProg.after
  induction p generalizing s evs with
  | ret r => cases r <;> rfl
  | write b k ih =>
    simp only [WProg.bind, WProg.runSched]
    rcases WProg.writeLoop evs b s with ⟨(_ | c), s', evs'⟩
    · exact ih _ _
    · rfl
  | tell k ih =>
    simp only [WProg.bind, WProg.runSched]
    by_cases h : s.seekable = true
    · rw [if_pos h, if_pos h]
      rcases WProg.opEvent evs with ⟨(_ | c), evs'⟩
      · exact ih _ _ _
      · rfl
    · rw [if_neg h, if_neg h]; rfl
  | seek q k ih =>
    simp only [WProg.bind, WProg.runSched]
    by_cases h : s.seekable = true
    · rw [if_pos h, if_pos h]
      rcases WProg.opEvent evs with ⟨(_ | c), evs'⟩
      · exact ih _ _
      · rfl
    · rw [if_neg h, if_neg h]; rfl
  | flush k ih =>
    simp only [WProg.bind, WProg.runSched]
    rcases WProg.opEvent evs with ⟨(_ | c), evs'⟩
    · exact ih _ _
    · rfl

theorem buffered_lawful (cap : Nat) : Lawful (buffered cap) := by
  intro α β g p t
  show (p.after g).runBuf cap t = ((p.runBuf cap t).1.map g, (p.runBuf cap t).2)
  unfold WProg.after
  induction p generalizing t with
  | ret r => cases r <;> rfl
  | write b k ih =>
    simp only [WProg.bind, WProg.runBuf]
    rcases t.writeAll cap b with ⟨(_ | c), t'⟩
    · exact ih _
    · rfl
  | tell k ih =>
    simp only [WProg.bind, WProg.runBuf]
    by_cases h : t.inner.seekable = true
    · rw [if_pos h, if_pos h]
      rcases t.flushOp with ⟨(_ | c), t'⟩
      · exact ih _ _
      · rfl
    · rw [if_neg h, if_neg h]; rfl
  | seek q k ih =>
    simp only [WProg.bind, WProg.runBuf]
    by_cases h : t.inner.seekable = true
    · rw [if_pos h, if_pos h]
      rcases t.flushOp with ⟨(_ | c), t'⟩
      · exact ih _
      · rfl
    · rw [if_neg h, if_neg h]; rfl
  | flush k ih =>
    simp only [WProg.bind, WProg.runBuf]
    rcases t.flushOp with ⟨(_ | c), t'⟩
    · exact ih _
    · rfl

theorem plainStream_lawful : Lawful plainStream := by
  intro α β g p c
  have := solid_lawful g p ⟨c, c.length, false⟩
  simp only [solid] at this
  simp only [plainStream, this]

theorem zipStream_lawful : Lawful zipStream := by
  intro α β g p z
  simp only [zipStream]
  cases z.members.getLast? with
  | none => rfl
  | some m => simp only [plainStream_lawful g p m.2]

/-! ### Pointers -/

namespace NpyWriter
variable {U V σ : Type} {M : Machine} {T : Target σ}

/-- The writer of pointers to what a writer writes. -/
def point (deref : U → V) (w : NpyWriter V) : NpyWriter U := ⟨w.startPos, w.info, w.numItems, fun u => w.prog (deref u), w.props⟩

theorem beginWith_point (deref : U → V) (wr : DType → DRes (V → WProg Unit)) (d : DType) (o : Order) (hint : ShapeHint) :
    beginWith M (viaDeref deref wr) d o hint = (beginWith M wr d o hint >>= fun w => pure (w.point deref)) := by
  show WProg.bind _ _ = WProg.bind (WProg.bind _ _) _
  rw [WProg.assoc]
  congr 1; funext start
  show WProg.bind _ _ = WProg.bind (WProg.bind _ _) _
  rw [WProg.assoc]
  congr 1; funext r
  show WProg.bind _ _ = WProg.bind (WProg.bind _ _) _
  rw [WProg.assoc]
  unfold viaDeref
  cases wr d <;> rfl

theorem push_point (deref : U → V) (w : NpyWriter V) (u : U) (s : σ) :
    (w.point deref).push M T u s = ((w.push M T (deref u) s).1, (w.push M T (deref u) s).2.1.point deref, (w.push M T (deref u) s).2.2) := by
  have h : (w.point deref).counted M = (w.counted M).map (point deref) := by
    show (M.addU64 w.numItems 1 >>= _) = Out.map _ (M.addU64 w.numItems 1 >>= _)
    cases M.addU64 w.numItems 1 <;> rfl
  unfold push
  rw [h]
  cases w.counted M <;> rfl

theorem extend_point (deref : U → V) (us : List U) : ∀ (w : NpyWriter V) (s : σ), (w.point deref).extend M T us s =
    ((w.extend M T (us.map deref) s).1, (w.extend M T (us.map deref) s).2.1.point deref, (w.extend M T (us.map deref) s).2.2) := by
  induction us with
  | nil => intro w s; rfl
  | cons u us ih =>
    intro w s
    simp only [List.map_cons, extend]
    rw [push_point]
    rcases w.push M T (deref u) s with ⟨(⟨⟩ | e | _), w', s'⟩
    · exact ih w' s'
    · rfl
    · rfl

theorem pushAll_point (deref : U → V) (us : List U) : ∀ (w : NpyWriter V) (s : σ), (w.point deref).pushAll M T us s =
    ((w.pushAll M T (us.map deref) s).1, (w.pushAll M T (us.map deref) s).2.1.point deref, (w.pushAll M T (us.map deref) s).2.2) := by
  induction us with
  | nil => intro w s; rfl
  | cons u us ih =>
    intro w s
    simp only [List.map_cons, pushAll]
    rw [push_point, ih]

theorem finish__point (deref : U → V) (w : NpyWriter V) : (w.point deref).finish_ M = w.finish_ M := rfl

theorem drop_point (deref : U → V) (w : NpyWriter V) (s : σ) : (w.point deref).drop M T s = w.drop M T s := rfl

theorem finish_point (deref : U → V) (w : NpyWriter V) (s : σ) : (w.point deref).finish M T s = w.finish M T s := rfl

theorem saveWith_point (hT : Lawful T) (deref : U → V) (wr : DType → DRes (V → WProg Unit)) (d : DType) (o : Order) (hint : ShapeHint)
    (us : List U) (s : σ) : saveWith M T (viaDeref deref wr) d o hint us s = saveWith M T wr d o hint (us.map deref) s := by
  unfold saveWith
  rw [beginWith_point, hT]
  rcases T.exec (beginWith M wr d o hint) s with ⟨(w | e | _), s1⟩
  · simp only [Out.map]
    rw [extend_point]
    rcases w.extend M T (us.map deref) s1 with ⟨(⟨⟩ | e | _), w', s2⟩ <;> rfl
  · rfl
  · rfl

theorem pushSession_point (deref : U → V) (us : List U) : ∀ w : NpyWriter V, (w.point deref).pushSession M us =
    (w.pushSession M (us.map deref)).after (point deref) := by
  induction us with
  | nil => intro w; rfl
  | cons u us ih =>
    intro w
    have h : (w.point deref).counted M = (w.counted M).map (point deref) := by
      show (M.addU64 w.numItems 1 >>= _) = Out.map _ (M.addU64 w.numItems 1 >>= _)
      cases M.addU64 w.numItems 1 <;> rfl
    show WProg.bind _ _ = WProg.bind (WProg.bind _ _) _
    rw [h]
    cases w.counted M with
    | err e => rfl
    | panic => rfl
    | ok w' =>
      show WProg.bind (w'.prog (deref u)).catchErr _ = WProg.bind (WProg.bind (w'.prog (deref u)).catchErr _) _
      rw [WProg.assoc]
      congr 1; funext x
      exact ih w'

theorem sessionWith_point (deref : U → V) (wr : DType → DRes (V → WProg Unit)) (d : DType) (o : Order) (hint : ShapeHint)
    (us : List U) : sessionWith M (viaDeref deref wr) d o hint us = (sessionWith M wr d o hint (us.map deref)).after (point deref) := by
  show WProg.bind _ _ = WProg.bind (WProg.bind _ _) _
  rw [beginWith_point]
  show WProg.bind (WProg.bind _ _) _ = _
  rw [WProg.assoc, WProg.assoc]
  congr 1; funext w
  exact pushSession_point deref us w

end NpyWriter

theorem WProg.crash_after {α β : Type} (g : α → β) (p : WProg α) (n : Nat) (s : Sink) : (p.after g).crash n s = p.crash n s := by
  unfold after
  induction p generalizing n s with
  | ret r => cases r <;> rfl
  | write b k ih =>
    simp only [bind, crash]
    by_cases h : n < b.length
    · rw [if_pos h, if_pos h]
    · rw [if_neg h, if_neg h]; exact ih _ _
  | tell k ih =>
    simp only [bind, crash]
    by_cases h : s.seekable = true
    · rw [if_pos h, if_pos h]; exact ih _ _ _
    · rw [if_neg h, if_neg h]
  | seek q k ih =>
    simp only [bind, crash]
    by_cases h : s.seekable = true
    · rw [if_pos h, if_pos h]; exact ih _ _
    · rw [if_neg h, if_neg h]
  | flush k ih => exact ih _ _


/-! ### Reading composites -/

theorem decodes_pure {V : Type} (v : V) : Decodes (pure v : RProg V) 0 (fun _ => some v) where
  ok bs rest w hl h := by
    cases h
    rw [List.length_eq_zero_iff.mp hl]; rfl
  bad bs rest hl h := by cases h
  short bs h := by omega

theorem decodes_pair {V W : Type} {p : RProg V} {q : RProg W} {n m : Nat} {f : Bytes → Option V} {g : Bytes → Option W} (hp : Decodes p n f)
    (hq : Decodes q m g) : Decodes (do let x ← p; let y ← q; pure (x, y)) (n + m) (decodePair n f g) where
  ok bs rest v hl h := by
    have hb : bs = bs.take n ++ bs.drop n := (List.take_append_drop n bs).symm
    unfold decodePair at h
    cases h1 : f (bs.take n) with
    | none => rw [h1] at h; cases h
    | some a =>
      cases h2 : g (bs.drop n) with
      | none => rw [h1, h2] at h; cases h
      | some b =>
        rw [h1, h2] at h
        cases h
        rw [hb, List.append_assoc, RProg.run_bind_of_ok (hp.ok _ _ a (by simp; omega) h1),
          RProg.run_bind_of_ok (hq.ok _ _ b (by simp; omega) h2)]
        rfl
  bad bs rest hl h := by
    have hb : bs = bs.take n ++ bs.drop n := (List.take_append_drop n bs).symm
    unfold decodePair at h
    rw [hb, List.append_assoc]
    cases h1 : f (bs.take n) with
    | none =>
      obtain ⟨e, he⟩ := hp.bad (bs.take n) (bs.drop n ++ rest) (by simp; omega) h1
      exact ⟨e, by rw [RProg.run_bind_of_err (Prod.ext he rfl)]⟩
    | some a =>
      rw [RProg.run_bind_of_ok (hp.ok _ _ a (by simp; omega) h1)]
      cases h2 : g (bs.drop n) with
      | none =>
        obtain ⟨e, he⟩ := hq.bad (bs.drop n) rest (by simp; omega) h2
        exact ⟨e, by rw [RProg.run_bind_of_err (Prod.ext he rfl)]⟩
      | some b => rw [h1, h2] at h; cases h
  short bs hl := by
    by_cases hn : bs.length < n
    · obtain ⟨e, he⟩ := hp.short bs hn
      exact ⟨e, by rw [RProg.run_bind_of_err (Prod.ext he rfl)]⟩
    · have hb : bs = bs.take n ++ bs.drop n := (List.take_append_drop n bs).symm
      rw [hb]
      cases h1 : f (bs.take n) with
      | none =>
        obtain ⟨e, he⟩ := hp.bad (bs.take n) (bs.drop n) (by simp; omega) h1
        exact ⟨e, by rw [RProg.run_bind_of_err (Prod.ext he rfl)]⟩
      | some a =>
        rw [RProg.run_bind_of_ok (hp.ok _ _ a (by simp; omega) h1)]
        obtain ⟨e, he⟩ := hq.short (bs.drop n) (by simp; omega)
        exact ⟨e, by rw [RProg.run_bind_of_err (Prod.ext he rfl)]⟩

theorem decodes_mapped {V W : Type} {p : RProg V} {n : Nat} {f : Bytes → Option V} (hp : Decodes p n f) (g : V → W) :
    Decodes (do let x ← p; pure (g x)) n (fun bs => (f bs).map g) where
  ok bs rest v hl h := by
    cases h1 : f bs with
    | none => rw [h1] at h; cases h
    | some a =>
      rw [h1] at h
      cases h
      rw [RProg.run_bind_of_ok (hp.ok _ _ a hl h1)]
      rfl
  bad bs rest hl h := by
    cases h1 : f bs with
    | none =>
      obtain ⟨e, he⟩ := hp.bad bs rest hl h1
      exact ⟨e, by rw [RProg.run_bind_of_err (Prod.ext he rfl)]⟩
    | some a => rw [h1] at h; cases h
  short bs hl := by
    obtain ⟨e, he⟩ := hp.short bs hl
    exact ⟨e, by rw [RProg.run_bind_of_err (Prod.ext he rfl)]⟩

theorem decodes_congr {V : Type} {p : RProg V} {n m : Nat} {f g : Bytes → Option V} (h : Decodes p n f) (hn : n = m) (hf : ∀ bs, f bs = g bs) :
    Decodes p m g := by
  subst hn
  obtain rfl : f = g := funext hf
  exact h

theorem rprog_assoc {α β γ : Type} (p : RProg α) (f : α → RProg β) (g : β → RProg γ) :
    ((p >>= f) >>= g) = (p >>= fun a => f a >>= g) := by
  show (p.bind f).bind g = p.bind fun a => (f a).bind g
  induction p with
  | ret r => cases r <;> rfl
  | read n eof k ih => simp only [RProg.bind, ih]

theorem decodes_many {V : Type} {p : RProg V} {k : Nat} {f : Bytes → Option V} (hp : Decodes p k f) :
    ∀ n, Decodes (readMany p n) (n * k) (decodeMany f k n)
  | 0 => decodes_congr (decodes_pure _) (by simp) (fun _ => rfl)
  | n + 1 => by
    have h := decodes_mapped (decodes_pair hp (decodes_many hp n))
      (fun x => (⟨x.1 :: x.2.1, by simp [x.2.2]⟩ : { l : List V // l.length = n + 1 }))
    have e : readMany p (n + 1) = ((do let x ← p; let y ← readMany p n; pure (x, y)) >>= fun x =>
        pure (⟨x.1 :: x.2.1, by simp [x.2.2]⟩ : { l : List V // l.length = n + 1 })) := by
      rw [rprog_assoc]
      show (p >>= _) = _
      congr 1; funext x
      rw [rprog_assoc]
      rfl
    rw [e]
    refine decodes_congr h (by rw [Nat.add_mul, Nat.one_mul, Nat.add_comm]) (fun bs => ?_)
    simp only [decodePair, decodeMany]
    cases f (bs.take k) with
    | none => rfl
    | some a => cases decodeMany f k n (bs.drop k) <;> rfl

/-! ### Writing composites -/

theorem emits_written {α : Type} {p : WProg α} {bs : Bytes} {r : Res α} (h : p.Emits bs r) : written p = some (bs, r) := by
  induction h with
  | ret r => rfl
  | write h ih => simp only [written, ih]; rfl

theorem written_bind_ok {α β : Type} {p : WProg α} {f : α → WProg β} {bs bs' : Bytes} {a : α} {r : Res β} (h : written p = some (bs, .ok a))
    (h' : written (f a) = some (bs', r)) : written (p >>= f) = some (bs ++ bs', r) := by
  show written (p.bind f) = _
  induction p generalizing bs with
  | ret r' =>
    simp only [written, Option.some.injEq, Prod.mk.injEq] at h
    obtain ⟨rfl, rfl⟩ := h
    exact h'
  | write b k ih =>
    simp only [written] at h
    cases hk : written k with
    | none => rw [hk] at h; cases h
    | some x =>
      rw [hk] at h
      obtain ⟨x1, x2⟩ := x
      simp only [Option.map_some, Option.some.injEq, Prod.mk.injEq] at h
      obtain ⟨rfl, rfl⟩ := h
      simp only [WProg.bind, written, ih hk, Option.map_some, List.append_assoc]
  | tell k _ => cases h
  | seek q k _ => cases h
  | flush k _ => cases h

theorem written_bind_err {α β : Type} {p : WProg α} {f : α → WProg β} {bs : Bytes} {e : Err} (h : written p = some (bs, .err e)) :
    written (p >>= f) = some (bs, .err e) := by
  show written (p.bind f) = _
  induction p generalizing bs with
  | ret r' =>
    simp only [written, Option.some.injEq, Prod.mk.injEq] at h
    obtain ⟨rfl, rfl⟩ := h
    rfl
  | write b k ih =>
    simp only [written] at h
    cases hk : written k with
    | none => rw [hk] at h; cases h
    | some x =>
      rw [hk] at h
      obtain ⟨x1, x2⟩ := x
      simp only [Option.map_some, Option.some.injEq, Prod.mk.injEq] at h
      obtain ⟨rfl, rfl⟩ := h
      simp only [WProg.bind, written, ih hk, Option.map_some]
  | tell k _ => cases h
  | seek q k _ => cases h
  | flush k _ => cases h

theorem writes_pair {V W : Type} {w : V → WProg Unit} {ws : W → WProg Unit} {n m : Nat} {f : V → Option Bytes} {g : W → Option Bytes}
    (hw : WritesItems w n f) (hs : WritesItems ws m g) :
    WritesItems (fun v : V × W => do w v.1; ws v.2) (n + m) (fun v => both (f v.1) (g v.2)) := by
  intro v
  have h1 := hw v.1
  have h2 := hs v.2
  cases hf : f v.1 with
  | none =>
    rw [hf] at h1
    obtain ⟨bs, e, h⟩ := h1
    simp only [hf, both]
    exact ⟨bs, e, written_bind_err h⟩
  | some a =>
    rw [hf] at h1
    cases hg : g v.2 with
    | none =>
      rw [hg] at h2
      obtain ⟨bs, e, h⟩ := h2
      simp only [hf, hg, both]
      exact ⟨_, e, written_bind_ok h1.2 h⟩
    | some b =>
      rw [hg] at h2
      simp only [hf, hg, both]
      exact ⟨by rw [List.length_append, h1.1, h2.1], written_bind_ok h1.2 h2.2⟩

theorem writes_many {V : Type} {w : V → WProg Unit} {k : Nat} {f : V → Option Bytes} (hw : WritesItems w k f) : ∀ l : List V,
    match encodeAll f l with
    | some bs => bs.length = l.length * k ∧ written (writeMany w l) = some (bs, .ok ())
    | none => ∃ bs e, written (writeMany w l) = some (bs, .err e)
  | [] => by simp only [encodeAll]; exact ⟨by simp, rfl⟩
  | v :: l => by
    have h1 := hw v
    have h2 := writes_many hw l
    simp only [encodeAll]
    cases hf : f v with
    | none =>
      rw [hf] at h1
      obtain ⟨bs, e, h⟩ := h1
      simp only [both]
      exact ⟨bs, e, written_bind_err h⟩
    | some a =>
      rw [hf] at h1
      cases hg : encodeAll f l with
      | none =>
        rw [hg] at h2
        obtain ⟨bs, e, h⟩ := h2
        simp only [both]
        exact ⟨_, e, written_bind_ok h1.2 h⟩
      | some b =>
        rw [hg] at h2
        simp only [both]
        exact ⟨by rw [List.length_append, h1.1, h2.1, List.length_cons, Nat.add_mul]; omega, written_bind_ok h1.2 h2.2⟩

end Npyz
