import Verif.Proofs.Buffer
/-! Writers that do not seek. -/
namespace Npyz
open Spec Py

/-! ### Items are written by writing only -/

theorem Straight.pure {α : Type} (a : α) : Straight (Pure.pure a : WProg α) := ⟨[], _, .ret _⟩

theorem Straight.ite {α : Type} {c : Prop} [Decidable c] {p q : WProg α} (hp : Straight p) (hq : Straight q) : Straight (if c then p else q) := by
  split <;> assumption

theorem writeMany_straight {α : Type} {w : α → WProg Unit} (h : ∀ x, Straight (w x)) : (l : List α) → Straight (writeMany w l)
  | [] => .pure ()
  | x :: xs => .bind (h x) fun _ => writeMany_straight h xs

theorem writeWord_straight (M : Machine) {w : Nat} (swap : Bool) (x : Word w) : Straight (writeWord M swap x) := .put _

theorem writeBytes_straight (M : Machine) (i : ByteInfo) (b : Bytes) : Straight (writeBytes M i b) :=
  .bind (.lift _) fun _ => .bind (.put _) fun _ => .ite (.bind (.lift _) fun _ => .put _) (.pure ())

theorem writeVecU32_straight (M : Machine) (swap : Bool) (n : Nat) (l : List (Word 4)) : Straight (writeVecU32 M swap n l) :=
  .bind (.lift _) fun _ => .bind (writeMany_straight (fun _ => .bind (.lift _) fun _ => .put _) _) fun _ => writeMany_straight (fun _ => .put _) _

theorem writeVecChar_straight (M : Machine) (swap : Bool) (n : Nat) (l : Text) : Straight (writeVecChar M swap n l) :=
  .bind (.lift _) fun _ => .bind (writeMany_straight (fun _ => .put _) _) fun _ => writeMany_straight (fun _ => .put _) _

theorem writeStrLoop_straight (M : Machine) (swap : Bool) (n : Nat) : (used : Nat) → (l : Text) → Straight (writeStrLoop M swap n used l)
  | _, [] => writeMany_straight (fun _ => .put _) _
  | used, _ :: cs => by
    unfold writeStrLoop
    exact .ite (.lift _) (.bind (.put _) fun _ => writeStrLoop_straight M swap n (used + 1) cs)

theorem writeString_straight (M : Machine) (f : StrFormat) (l : Text) : Straight (writeString M f l) := by
  cases f with
  | utf8 i => exact .bind (.lift _) fun _ => .bind (.put _) fun _ => .ite (.bind (.lift _) fun _ => .put _) (.pure ())
  | utf32 n e => exact writeStrLoop_straight M _ n 0 l

theorem dbind_ok {α β : Type} {x : DRes α} {f : α → DRes β} {b : β} (h : (x >>= f) = .ok b) : ∃ a, x = .ok a ∧ f a = .ok b := by
  cases x with
  | ok a => exact ⟨a, rfl, h⟩
  | err e => cases h
  | panic => cases h

mutual
/-- A writer of items does nothing but write. -/
theorem writer_straight {M : Machine} (t : Ty) {d : DType} {w : t.Val → WProg Unit} (h : t.writer M d = .ok w) (v : t.Val) : Straight (w v) := by
  cases t with
  | num p => obtain ⟨x, -, h⟩ := dbind_ok h; cases h; exact .put _
  | bool => obtain ⟨x, -, h⟩ := dbind_ok h; cases h; exact .put _
  | complex p => obtain ⟨x, -, h⟩ := dbind_ok h; cases h; exact .bind (.put _) fun _ => .put _
  | vecU8 => obtain ⟨x, -, h⟩ := dbind_ok h; cases h; exact writeBytes_straight _ _ _
  | arrayVecU8 cap => obtain ⟨x, -, h⟩ := dbind_ok h; cases h; exact writeBytes_straight _ _ _
  | fixedBytes n => obtain ⟨x, -, h⟩ := dbind_ok h; cases h; exact .put _
  | vecU32 => obtain ⟨x, -, h⟩ := dbind_ok h; cases h; exact writeVecU32_straight _ _ _ _
  | vecChar => obtain ⟨x, -, h⟩ := dbind_ok h; cases h; exact writeVecChar_straight _ _ _ _
  | string => obtain ⟨x, -, h⟩ := dbind_ok h; cases h; exact writeString_straight _ _ _
  | arrayVecU32 cap => obtain ⟨x, -, h⟩ := dbind_ok h; cases h; exact writeVecU32_straight _ _ _ _
  | arrayVecChar cap => obtain ⟨x, -, h⟩ := dbind_ok h; cases h; exact writeVecChar_straight _ _ _ _
  | arrayString cap => obtain ⟨x, -, h⟩ := dbind_ok h; cases h; exact writeString_straight _ _ _
  | array n t =>
    obtain ⟨x, -, h⟩ := dbind_ok h
    obtain ⟨w', h1, h⟩ := dbind_ok h
    cases h
    exact writeMany_straight (fun x => writer_straight t h1 x) _
  | record fs =>
    obtain ⟨x, -, h⟩ := dbind_ok h
    exact writers_straight fs h v
theorem writers_straight {M : Machine} (fs : TFields) {dfs : Fields} {w : fs.Val → WProg Unit} (h : fs.writer M dfs = .ok w) (v : fs.Val) : Straight (w v) := by
  cases fs with
  | nil => unfold TFields.writer at h; cases h; exact .pure ()
  | cons name t rest =>
    cases dfs with
    | nil => unfold TFields.writer at h; cases h
    | cons n d dfs =>
      unfold TFields.writer at h
      obtain ⟨w1, h1, h⟩ := dbind_ok h
      obtain ⟨w2, h2, h⟩ := dbind_ok h
      cases h
      exact .bind (writer_straight t h1 v.1) fun _ => writers_straight rest h2 v.2
end

/-! ### Appending -/

/-- Writes and flushes only. -/
inductive WProg.Plain {α : Type} : WProg α → Prop where
  | ret (r) : Plain (.ret r)
  | write {b k} : Plain k → Plain (.write b k)
  | flush {k} : Plain k → Plain (.flush k)

theorem WProg.Emits.plain {α : Type} {p : WProg α} {bs : Bytes} {r : Res α} (h : p.Emits bs r) : p.Plain := by
  induction h with
  | ret r => exact .ret r
  | write _ ih => exact .write ih

theorem Straight.plain {α : Type} {p : WProg α} (h : Straight p) : p.Plain := by
  obtain ⟨_, _, h⟩ := h
  exact h.plain

/-- The stream as one that can, or cannot, seek. -/
def Sink.as (s : Sink) (b : Bool) : Sink := { s with seekable := b }

theorem Sink.as_put (s : Sink) (b : Bool) (x : Bytes) : (s.as b).put x = (s.put x).as b := by
  unfold Sink.as Sink.put
  split <;> rfl

/-- The loop of `write_all` appends. -/
theorem writeLoop_appends (evs : List RProg.Ev) (x : Bytes) (s : Sink) :
    ∃ e bs evs', ∀ b, WProg.writeLoop evs x (s.as b) = (e, (s.put bs).as b, evs') := by
  induction evs generalizing x s with
  | nil => exact ⟨none, x, [], fun b => by rw [WProg.writeLoop, Sink.as_put]⟩
  | cons ev evs ih =>
    by_cases hx : x = []
    · exact ⟨none, [], ev :: evs, fun b => by cases ev <;> rw [WProg.writeLoop, if_pos hx, Sink.put_nil]⟩
    · cases ev with
      | interrupted =>
        obtain ⟨e, bs, evs', h⟩ := ih x s
        exact ⟨e, bs, evs', fun b => by rw [WProg.writeLoop, if_neg hx]; exact h b⟩
      | fail c => exact ⟨some c, [], evs, fun b => by rw [WProg.writeLoop, if_neg hx, Sink.put_nil]⟩
      | short k =>
        obtain ⟨e, bs, evs', h⟩ := ih (x.drop (k + 1)) (s.put (x.take (k + 1)))
        refine ⟨e, x.take (k + 1) ++ bs, evs', fun b => ?_⟩
        rw [WProg.writeLoop, if_neg hx, Sink.as_put, h b, Sink.put_put]

theorem WProg.Plain.appends {α : Type} {p : WProg α} (hp : p.Plain) (s : Sink) (evs : List RProg.Ev) :
    ∃ r bs evs', ∀ b, p.runSched (s.as b) evs = (r, (s.put bs).as b, evs') := by
  induction hp generalizing s evs with
  | ret r => exact ⟨r, [], evs, fun b => by rw [Sink.put_nil]; rfl⟩
  | @write x k _ ih =>
    obtain ⟨e, bs, evs', h⟩ := writeLoop_appends evs x s
    cases e with
    | none =>
      obtain ⟨r, bs', evs'', h'⟩ := ih (s.put bs) evs'
      refine ⟨r, bs ++ bs', evs'', fun b => ?_⟩
      rw [WProg.runSched, h b]
      simp only
      rw [h' b, Sink.put_put]
    | some c => exact ⟨.err (.source c), bs, evs', fun b => by rw [WProg.runSched, h b]⟩
  | @flush k _ ih =>
    rcases ho : WProg.opEvent evs with ⟨(_ | c), evs'⟩
    · obtain ⟨r, bs', evs'', h'⟩ := ih s evs'
      exact ⟨r, bs', evs'', fun b => by rw [WProg.runSched, ho]; exact h' b⟩
    · exact ⟨.err (.source c), [], evs', fun b => by rw [WProg.runSched, ho, Sink.put_nil]⟩

namespace NpyWriter
variable {t : Ty}

theorem push_appends {M : Machine} {w : NpyWriter t.Val} (hw : ∀ v, Straight (w.prog v)) (v : t.Val) (s : Sink) (evs : List RProg.Ev) :
    ∃ r w' bs evs', w'.prog = w.prog ∧ w'.info = w.info ∧ ∀ b, w.push M shaky v (s.as b, evs) = (r, w', ((s.put bs).as b, evs')) := by
  unfold push
  rcases hc : w.counted M with w' | e | _
  · have hp : w'.prog = w.prog ∧ w'.info = w.info := by
      unfold counted at hc
      rcases ha : M.addU64 w.numItems 1 with n | e | _ <;> rw [ha] at hc
      · cases hc; exact ⟨rfl, rfl⟩
      · cases hc
      · cases hc
    obtain ⟨r, bs, evs', h⟩ := (hp.1 ▸ (hw v).plain : (w'.prog v).Plain).appends s evs
    exact ⟨r, w', bs, evs', hp.1, hp.2, fun b => by
      show ((w'.prog v).runSched (s.as b) evs |>.1, w', (w'.prog v).runSched (s.as b) evs |>.2) = _
      rw [h b]⟩
  · exact ⟨.err e, w, [], evs, rfl, rfl, fun b => by rw [Sink.put_nil]⟩
  · exact ⟨.panic, w, [], evs, rfl, rfl, fun b => by rw [Sink.put_nil]⟩

theorem extend_appends {M : Machine} (vs : List t.Val) {w : NpyWriter t.Val} (hw : ∀ v, Straight (w.prog v)) (s : Sink) (evs : List RProg.Ev) :
    ∃ r w' bs evs', w'.info = w.info ∧ ∀ b, w.extend M shaky vs (s.as b, evs) = (r, w', ((s.put bs).as b, evs')) := by
  induction vs generalizing w s evs with
  | nil => exact ⟨.ok (), w, [], evs, rfl, fun b => by rw [Sink.put_nil]; rfl⟩
  | cons v vs ih =>
    obtain ⟨r, w1, bs, evs1, hp, hi, h⟩ := push_appends (M := M) hw v s evs
    rcases r with ⟨⟩ | e | _
    · obtain ⟨r, w2, bs', evs2, hi2, h2⟩ := ih (w := w1) (by rw [hp]; exact hw) (s.put bs) evs1
      refine ⟨r, w2, bs ++ bs', evs2, hi2.trans hi, fun b => ?_⟩
      rw [extend, h b]
      simp only
      rw [h2 b, Sink.put_put]
    · exact ⟨.err e, w1, bs, evs1, hi, fun b => by rw [extend, h b]⟩
    · exact ⟨.panic, w1, bs, evs1, hi, fun b => by rw [extend, h b]⟩

theorem finish_plain {M : Machine} {w : NpyWriter t.Val} {n : Nat} (hi : w.info = .known n) : (w.finish_ M).Plain := by
  unfold finish_ patch
  rw [hi]
  simp only
  by_cases h : n ≠ w.numItems
  · rw [if_pos h]; exact .ret _
  · rw [if_neg h]; exact .flush (.ret _)

theorem drop_appends {M : Machine} {w : NpyWriter t.Val} {n : Nat} (hi : w.info = .known n) (s : Sink) (evs : List RProg.Ev) :
    ∃ r bs evs', ∀ b, w.drop M shaky (s.as b, evs) = (r, ((s.put bs).as b, evs')) := by
  obtain ⟨r, bs, evs', h⟩ := (finish_plain (M := M) hi).appends s evs
  have h : ∀ b, shaky.exec (w.finish_ M) (s.as b, evs) = (r, ((s.put bs).as b, evs')) := h
  unfold drop
  rcases r with a | e | _
  · exact ⟨.ok (), bs, evs', fun b => by rw [h b]⟩
  · exact ⟨.ok (), bs, evs', fun b => by rw [h b]⟩
  · exact ⟨.panic, bs, evs', fun b => by rw [h b]⟩

theorem finish_appends {M : Machine} {w : NpyWriter t.Val} {n : Nat} (hi : w.info = .known n) (s : Sink) (evs : List RProg.Ev) :
    ∃ r bs evs', ∀ b, w.finish M shaky (s.as b, evs) = (r, ((s.put bs).as b, evs')) := by
  obtain ⟨r, bs, evs', h⟩ := (finish_plain (M := M) hi).appends s evs
  have h : ∀ b, shaky.exec (w.finish_ M) (s.as b, evs) = (r, ((s.put bs).as b, evs')) := h
  obtain ⟨r', bs', evs'', h'⟩ := drop_appends (M := M) hi (s.put bs) evs'
  unfold finish
  rcases r' with a | e | _
  · exact ⟨r, bs ++ bs', evs'', fun b => by rw [h b]; simp only; rw [h' b, Sink.put_put]⟩
  · exact ⟨r, bs ++ bs', evs'', fun b => by rw [h b]; simp only; rw [h' b, Sink.put_put]⟩
  · exact ⟨.panic, bs ++ bs', evs'', fun b => by rw [h b]; simp only; rw [h' b, Sink.put_put]⟩

theorem save_appends (M : Machine) (d : DType) (o : Order) (dims : List Nat) (vs : List t.Val) (s : Sink) (evs : List RProg.Ev) :
    ∃ r bs evs', ∀ b, save M shaky t d o (.nd dims) vs (s.as b, evs) = (r, ((s.put bs).as b, evs')) := by
  obtain ⟨r, bs, evs1, h⟩ := (beginRest_straight M (t.writer M) d o (.nd dims) none).plain.appends s evs
  rw [← begin_nd] at h
  have hx : ∀ b, shaky.exec (NpyWriter.begin M t d o (.nd dims)) (s.as b, evs) = (r, ((s.put bs).as b, evs1)) := h
  unfold save saveWith
  rcases r with w | e | _
  · have hst : Started M d o (.nd dims) (s.as true).pos w := by
      rcases shaky_full (NpyWriter.begin M t d o (.nd dims)) (s.as true) evs with ⟨_, h1, -⟩ | ⟨_, _, _, _, _, h1, -⟩
      · rw [hx true] at h1
        simp only [Prod.mk.injEq] at h1
        exact (begin_ok (s' := (solid.exec (NpyWriter.begin M t d o (.nd dims)) (s.as true)).2) (Prod.ext h1.1.symm rfl)).1
      · rw [hx true] at h1; cases h1
    obtain ⟨n, -, hi⟩ : ∃ n, shapeProduct M 1 dims = .ok n ∧ w.info = .known n := hst.info
    obtain ⟨r2, w', bs2, evs2, hi2, h2⟩ := extend_appends (M := M) vs (fun v => writer_straight t hst.prog v) (s.put bs) evs1
    rw [hi] at hi2
    rcases r2 with ⟨⟩ | e | _
    · obtain ⟨r3, bs3, evs3, h3⟩ := finish_appends (M := M) hi2 ((s.put bs).put bs2) evs2
      refine ⟨r3, bs ++ bs2 ++ bs3, evs3, fun b => ?_⟩
      rw [hx b]
      simp only
      rw [h2 b]
      simp only
      rw [h3 b, Sink.put_put, Sink.put_put, List.append_assoc]
    · obtain ⟨r3, bs3, evs3, h3⟩ := drop_appends (M := M) hi2 ((s.put bs).put bs2) evs2
      have : (((s.put bs).put bs2).put bs3) = s.put (bs ++ bs2 ++ bs3) := by rw [Sink.put_put, Sink.put_put, List.append_assoc]
      rw [this] at h3
      rcases r3 with ⟨⟩ | e' | _
      · exact ⟨.err e, _, evs3, fun b => by rw [hx b]; simp only; rw [h2 b]; simp only; rw [h3 b]⟩
      · exact ⟨.err e, _, evs3, fun b => by rw [hx b]; simp only; rw [h2 b]; simp only; rw [h3 b]⟩
      · exact ⟨.panic, _, evs3, fun b => by rw [hx b]; simp only; rw [h2 b]; simp only; rw [h3 b]⟩
    · obtain ⟨r3, bs3, evs3, h3⟩ := drop_appends (M := M) hi2 ((s.put bs).put bs2) evs2
      have : (((s.put bs).put bs2).put bs3) = s.put (bs ++ bs2 ++ bs3) := by rw [Sink.put_put, Sink.put_put, List.append_assoc]
      rw [this] at h3
      exact ⟨.panic, _, evs3, fun b => by rw [hx b]; simp only; rw [h2 b]; simp only; rw [h3 b]⟩
  · exact ⟨.err e, bs, evs1, fun b => by rw [hx b]⟩
  · exact ⟨.panic, bs, evs1, fun b => by rw [hx b]⟩

/-- Finishing with a known shape does not touch the data or the position. -/
theorem finish_known_keeps {M : Machine} {w : NpyWriter t.Val} {n : Nat} (hi : w.info = .known n) (s : Sink) (evs : List RProg.Ev) :
    (shaky.exec (w.finish_ M) (s, evs)).2.1 = s := by
  show ((w.finish_ M).runSched s evs).2.1 = s
  unfold finish_ patch
  rw [hi]
  simp only
  by_cases h : n ≠ w.numItems
  · rw [if_pos h]; rfl
  · rw [if_neg h]
    show ((WProg.flush (.ret (.ok ()))).runSched s evs).2.1 = s
    rw [WProg.runSched]
    rcases WProg.opEvent evs with ⟨(_ | c), evs'⟩ <;> rfl

/-- With a known shape, a session that reports success leaves the stream as a reliable stream would be left, the position included. -/
theorem save_shaky_known {M : Machine} {d : DType} {o : Order} {dims : List Nat} {vs : List t.Val} {s s' : Sink} {evs evs' : List RProg.Ev}
    (h : save M shaky t d o (.nd dims) vs (s, evs) = (.ok (), (s', evs'))) :
    save M solid t d o (.nd dims) vs s = (.ok (), s') := by
  unfold save saveWith at h ⊢
  rcases shaky_full (NpyWriter.begin M t d o (.nd dims)) s evs with ⟨ev1, h1, -⟩ | ⟨c, n, s1, ev1, -, h1, -⟩
  · rw [h1] at h
    rcases hb : solid.exec (NpyWriter.begin M t d o (.nd dims)) s with ⟨(w | e | _), s1⟩ <;> rw [hb] at h
    · simp only at h ⊢
      have hst := (begin_ok hb).1
      obtain ⟨n, -, hi⟩ : ∃ n, shapeProduct M 1 dims = .ok n ∧ w.info = .known n := hst.info
      rcases extend_shaky M vs w s1 ev1 with ⟨ev2, h2, -⟩ | ⟨c, w', s2, ev2, -, h2, -⟩
      · rw [h2] at h
        obtain ⟨r2, w2, bs2, evs2, hi2, hx⟩ := extend_appends (M := M) vs (fun v => writer_straight t hst.prog v) s1 []
        have hx := hx s1.seekable
        obtain ⟨ev3, hx3, -⟩ := extend_nofail M vs w s1 (evs := []) (by simp)
        have : s1.as s1.seekable = s1 := rfl
        rw [this, hx3] at hx
        simp only [Prod.mk.injEq] at hx
        rcases he : w.extend M solid vs s1 with ⟨(⟨⟩ | e | _), w', s2⟩ <;> rw [he] at h hx
        · simp only at h hx ⊢
          have hi' : w'.info = .known n := by rw [hx.2.1, hi2, hi]
          unfold finish drop at h ⊢
          have k1 := finish_known_keeps (M := M) hi' s2 ev2
          rcases hf : shaky.exec (w'.finish_ M) (s2, ev2) with ⟨r1, s3, ev4⟩
          rw [hf] at h k1
          simp only at k1; subst k1
          have k2 := finish_known_keeps (M := M) hi' s3 ev4
          rcases hg : shaky.exec (w'.finish_ M) (s3, ev4) with ⟨r3, s4, ev5⟩
          simp only at h
          rw [hg] at h k2
          simp only at k2; subst k2
          have hz := exec_finish_nd (M := M) hi' s4
          have hz : solid.exec (w'.finish_ M) s4 = _ := hz
          rcases shaky_full (w'.finish_ M) s4 ev2 with ⟨ev6, h6, -⟩ | ⟨c, m, s5, ev6, -, h6, -⟩
          · rw [hf, hz] at h6
            simp only [Prod.mk.injEq] at h6
            rw [hz]
            simp only
            rw [hz]
            by_cases hnn : n = w'.numItems
            · simp only [hnn, if_true]
              cases r3 <;> simp only [Prod.mk.injEq] at h
              · rw [h.2.1]
              · rw [h.2.1]
              · exact absurd h.1 (by simp)
            · rw [if_neg hnn] at h6
              rw [h6.1] at h
              cases r3 <;> simp at h
          · rw [hf] at h6
            simp only [Prod.mk.injEq] at h6
            rw [h6.1] at h
            cases r3 <;> simp at h
        · simp only at h
          rcases hd : w'.drop M shaky (s2, ev2) with ⟨(⟨⟩ | e | _), s3⟩ <;> rw [hd] at h <;> cases h
        · cases h
      · rw [h2] at h
        simp only at h
        rcases hd : w'.drop M shaky (s2, ev2) with ⟨(⟨⟩ | e | _), s3⟩ <;> rw [hd] at h <;> cases h
    · cases h
    · cases h
  · rw [h1] at h
    cases h
end NpyWriter

end Npyz
