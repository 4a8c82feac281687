import Verif.Proofs.Read
/-!
Sessions on sources that behave alike.
-/
namespace Npyz
set_option autoImplicit false

/-- A source that behaves like a sound one, or fails with one of the errors `F`.  (`seek` only to places `G`.) -/
structure AlikeOrFails {σ : Type} (S : Source σ) (R : σ → Src → Prop) (G : Src → Prop) (F : Err → Prop) : Prop where
  exec : ∀ {α : Type} (p : RProg α) s u, R s u →
    ((S.exec p s).1 = (disk.exec p u).1 ∧ R (S.exec p s).2 (disk.exec p u).2) ∨ ∃ e, F e ∧ (S.exec p s).1 = .err e
  seek : ∀ off s u, R s u → G (disk.seek off u).2 →
    ((S.seek off s).1 = (disk.seek off u).1 ∧ R (S.seek off s).2 (disk.seek off u).2) ∨ ∃ e, F e ∧ (S.seek off s).1 = .err e

section
variable {σ : Type} {S : Source σ} {R : σ → Src → Prop} {G : Src → Prop} {F : Err → Prop} {M : Machine} {V : Type}

/-- Readers that behave alike. -/
structure ReadersAlike (R : σ → Src → Prop) (r : NpyReader V σ) (q : NpyReader V Src) : Prop where
  header : r.header = q.header
  prog : r.prog = q.prog
  cur : r.cur = q.cur
  src : R r.src q.src

theorem alike_new (hS : AlikeOrFails S R G F) (py : PyParser) {s : σ} {u : Src} (h : R s u) :
    ((∃ f g, NpyFile.new M py S s = (.ok f, f.src) ∧ NpyFile.new M py disk u = (.ok g, g.src) ∧ f.header = g.header ∧ R f.src g.src) ∨
     (∃ e s' u', NpyFile.new M py S s = (.err e, s') ∧ NpyFile.new M py disk u = (.err e, u') ∧ R s' u') ∨
     (∃ s' u', NpyFile.new M py S s = (.panic, s') ∧ NpyFile.new M py disk u = (.panic, u') ∧ R s' u')) ∨
    ∃ c, F c ∧ (NpyFile.new M py S s).1 = .err c := by
  unfold NpyFile.new
  rcases hS.exec (NpyHeader.fromReader M py) s u h with ⟨h1, h2⟩ | ⟨c, h1, h2⟩
  · left
    rcases hx : S.exec (NpyHeader.fromReader M py) s with ⟨(hd | e | _), s'⟩ <;>
      rcases hy : disk.exec (NpyHeader.fromReader M py) u with ⟨(hd' | e' | _), u'⟩ <;> rw [hx, hy] at h1 h2 <;> cases h1
    · exact .inl ⟨⟨hd, s'⟩, ⟨hd, u'⟩, rfl, rfl, rfl, h2⟩
    · exact .inr (.inl ⟨e, s', u', rfl, rfl, h2⟩)
    · exact .inr (.inr ⟨s', u', rfl, rfl, h2⟩)
  · right
    refine ⟨c, h1, ?_⟩
    rcases hx : S.exec (NpyHeader.fromReader M py) s with ⟨(hd | e | _), s'⟩ <;> rw [hx] at h2 <;> cases h2
    rfl

theorem alike_next (hS : AlikeOrFails S R G F) {r : NpyReader V σ} {q : NpyReader V Src} (h : ReadersAlike R r q) :
    ((r.next S).1 = (q.next disk).1 ∧ ReadersAlike R (r.next S).2 (q.next disk).2) ∨ ∃ c, F c ∧ (r.next S).1 = some (.err c) := by
  obtain ⟨h1, h2, h3, h4⟩ := h
  by_cases hlt : q.cur < q.header.nRecords
  · rw [next_some hlt, next_some (by rw [h1, h3]; exact hlt)]
    rcases hS.exec q.prog r.src q.src h4 with ⟨k1, k2⟩ | ⟨c, k1, k2⟩
    · left
      rw [h2]
      exact ⟨congrArg some k1, h1, rfl, congrArg (· + 1) h3, k2⟩
    · right
      rw [h2]
      exact ⟨c, k1, congrArg some k2⟩
  · rw [next_none hlt, next_none (by rw [h1, h3]; exact hlt)]
    exact .inl ⟨rfl, h1, h2, h3, h4⟩

theorem alike_seekBy (hS : AlikeOrFails S R G F) {r : NpyReader V σ} {q : NpyReader V Src} (h : ReadersAlike R r q) (d : Int) (i : Nat)
    (hG : G (q.seekBy M disk d i).2.src) :
    ((r.seekBy M S d i).1 = (q.seekBy M disk d i).1 ∧ ReadersAlike R (r.seekBy M S d i).2 (q.seekBy M disk d i).2) ∨
      ∃ c, F c ∧ (r.seekBy M S d i).1 = .err c := by
  rcases r with ⟨⟨hd1, hd2, hd3, hd4, hd5, sz, hd7⟩, p, s, cur⟩
  rcases q with ⟨hd', p', u, cur'⟩
  have h0 := h
  obtain ⟨h1, h2, h3, h4⟩ := h
  simp only at h1 h2 h3 h4
  subst h1 h2 h3
  cases sz with
  | none => exact .inl ⟨rfl, h0⟩
  | some n =>
    simp only [NpyReader.seekBy] at hG ⊢
    generalize M.i64 (d * wrapI64 n) = x at hG ⊢
    cases x with
    | err e => exact .inl ⟨rfl, h0⟩
    | panic => exact .inl ⟨rfl, h0⟩
    | ok off =>
      simp only at hG ⊢
      have hG' : G (disk.seek off u).2 := by
        rcases hy : disk.seek off u with ⟨(⟨⟩ | e' | _), u'⟩ <;> rw [hy] at hG <;> exact hG
      rcases hS.seek off s u h4 hG' with ⟨k1, k2⟩ | ⟨c, k1, k2⟩
      · left
        rcases hx : S.seek off s with ⟨(⟨⟩ | e | _), s'⟩ <;> rcases hy : disk.seek off u with ⟨(⟨⟩ | e' | _), u'⟩ <;>
          rw [hx, hy] at k1 k2 <;> cases k1 <;> exact ⟨rfl, ⟨rfl, rfl, rfl, k2⟩⟩
      · right
        rcases hx : S.seek off s with ⟨(⟨⟩ | e | _), s'⟩ <;> rw [hx] at k2 <;> cases k2
        exact ⟨c, k1, rfl⟩

theorem alike_seekTo (hS : AlikeOrFails S R G F) {r : NpyReader V σ} {q : NpyReader V Src} (h : ReadersAlike R r q) (i : Nat)
    (hG : i ≤ q.header.nRecords → G (q.seekTo M disk i).2.src) :
    ((r.seekTo M S i).1 = (q.seekTo M disk i).1 ∧ ReadersAlike R (r.seekTo M S i).2 (q.seekTo M disk i).2) ∨
      ∃ c, F c ∧ (r.seekTo M S i).1 = .err c := by
  have key := fun d => alike_seekBy (M := M) hS h d i
  unfold NpyReader.seekTo NpyReader.totalLen at hG ⊢
  rw [h.header, h.cur]
  by_cases hi : i ≤ q.header.nRecords
  · rw [if_pos hi, if_pos hi]
    have hG := hG hi
    rw [if_pos hi] at hG
    generalize M.i64 (wrapI64 i - wrapI64 q.cur) = x at hG ⊢
    cases x with
    | err e => exact .inl ⟨rfl, h⟩
    | panic => exact .inl ⟨rfl, h⟩
    | ok d =>
      simp only at hG ⊢
      by_cases hz : d ≠ 0
      · rw [if_pos hz, if_pos hz]
        rw [if_pos hz] at hG
        exact key d hG
      · rw [if_neg hz, if_neg hz]
        exact .inl ⟨rfl, h⟩
  · rw [if_neg hi, if_neg hi]
    exact .inl ⟨rfl, h⟩

theorem alike_readAt (hS : AlikeOrFails S R G F) {r : NpyReader V σ} {q : NpyReader V Src} (h : ReadersAlike R r q) (i : Nat)
    (hG : i ≤ q.header.nRecords → G (q.seekTo M disk i).2.src) :
    ((r.readAt M S i).1 = (q.readAt M disk i).1 ∧ ReadersAlike R (r.readAt M S i).2 (q.readAt M disk i).2) ∨
      ∃ c, F c ∧ (r.readAt M S i).1 = .err c := by
  unfold NpyReader.readAt NpyReader.totalLen
  rw [h.header]
  by_cases hi : i < q.header.nRecords
  · rw [if_pos hi, if_pos hi]
    rcases alike_seekTo (M := M) hS h i hG with ⟨k1, k2⟩ | ⟨c, k1, k2⟩
    · rcases hx : r.seekTo M S i with ⟨(⟨⟩ | e | _), r'⟩ <;> rcases hy : q.seekTo M disk i with ⟨(⟨⟩ | e' | _), q'⟩ <;>
        rw [hx, hy] at k1 k2 <;> cases k1
      · simp only [NpyReader.nextUnwrap]
        rcases alike_next hS k2 with ⟨j1, j2⟩ | ⟨c, j1, j2⟩
        · left
          rcases hx : r'.next S with ⟨(_ | a), r''⟩ <;> rcases hy : q'.next disk with ⟨(_ | b), q''⟩ <;> rw [hx, hy] at j1 j2 <;> cases j1
          · exact ⟨rfl, j2⟩
          · exact ⟨rfl, j2⟩
        · right
          rcases hx : r'.next S with ⟨(_ | a), r''⟩ <;> rw [hx] at j2 <;> cases j2
          exact ⟨c, j1, rfl⟩
      · exact .inl ⟨rfl, k2⟩
      · exact .inl ⟨rfl, k2⟩
    · right
      rcases hx : r.seekTo M S i with ⟨(⟨⟩ | e | _), r'⟩ <;> rw [hx] at k2 <;> cases k2
      exact ⟨c, k1, rfl⟩
  · rw [if_neg hi, if_neg hi]
    exact .inl ⟨rfl, h⟩

theorem alike_step (hS : AlikeOrFails S R G F) {r : NpyReader V σ} {q : NpyReader V Src} (h : ReadersAlike R r q) (op : ROp)
    (hG : ∀ i, i ≤ q.header.nRecords → G (q.seekTo M disk i).2.src) :
    ((r.step M S op).1 = (q.step M disk op).1 ∧ ReadersAlike R (r.step M S op).2 (q.step M disk op).2) ∨
      ∃ c, F c ∧ Spec.FailsWith c (r.step M S op).1 := by
  cases op with
  | next =>
    rcases alike_next hS h with ⟨h1, h2⟩ | ⟨c, h1, h2⟩
    · exact .inl ⟨congrArg ROut.item h1, h2⟩
    · exact .inr ⟨c, h1, .inl (congrArg ROut.item h2)⟩
  | seekTo i =>
    rcases alike_seekTo (M := M) hS h i (hG i) with ⟨h1, h2⟩ | ⟨c, h1, h2⟩
    · exact .inl ⟨congrArg ROut.moved h1, h2⟩
    · exact .inr ⟨c, h1, .inr (.inl (congrArg ROut.moved h2))⟩
  | readAt i =>
    rcases alike_readAt (M := M) hS h i (hG i) with ⟨h1, h2⟩ | ⟨c, h1, h2⟩
    · exact .inl ⟨congrArg ROut.value h1, h2⟩
    · exact .inr ⟨c, h1, .inr (.inr (congrArg ROut.value h2))⟩

theorem alike_steps (hS : AlikeOrFails S R G F) (I : NpyReader V Src → Prop) (hI : ∀ q op, I q → I (q.step M disk op).2)
    (hG : ∀ q i, I q → i ≤ q.header.nRecords → G (q.seekTo M disk i).2.src) (ops : List ROp) {r : NpyReader V σ} {q : NpyReader V Src}
    (h : ReadersAlike R r q) (hq : I q) :
    ((r.steps M S ops).1 = (q.steps M disk ops).1 ∧ ReadersAlike R (r.steps M S ops).2 (q.steps M disk ops).2) ∨
      ∃ k c o, k < ops.length ∧ F c ∧ (r.steps M S ops).1.take k = (q.steps M disk ops).1.take k ∧ (r.steps M S ops).1[k]? = some o ∧
        Spec.FailsWith c o := by
  induction ops generalizing r q with
  | nil => exact .inl ⟨rfl, h⟩
  | cons op ops ih =>
    rw [steps_cons, steps_cons]
    rcases alike_step (M := M) hS h op (fun i => hG q i hq) with ⟨h1, h2⟩ | ⟨c, h1, h2⟩
    · rcases ih h2 (hI _ op hq) with ⟨k1, k2⟩ | ⟨k, c, o, k1, k2, k3, k4, k5⟩
      · exact .inl ⟨by rw [h1, k1], k2⟩
      · refine .inr ⟨k + 1, c, o, by simpa using k1, k2, ?_, by simpa using k4, k5⟩
        simp only [List.take_succ_cons, k3, h1]
    · exact .inr ⟨0, c, _, by simp, h1, rfl, rfl, h2⟩

theorem alike_collectLoop (hS : AlikeOrFails S R G F) (k : Nat) {r : NpyReader V σ} {q : NpyReader V Src} (h : ReadersAlike R r q) :
    ((r.collectLoop S k).1 = (q.collectLoop disk k).1 ∧ ReadersAlike R (r.collectLoop S k).2 (q.collectLoop disk k).2) ∨
      ∃ c, F c ∧ (r.collectLoop S k).1 = .err c := by
  induction k generalizing r q with
  | zero => exact .inl ⟨rfl, h⟩
  | succ k ih =>
    unfold NpyReader.collectLoop
    rcases alike_next hS h with ⟨h1, h2⟩ | ⟨c, h1, h2⟩
    · rcases hx : r.next S with ⟨(_ | (v | e | _)), r'⟩ <;> rcases hy : q.next disk with ⟨(_ | (v' | e' | _)), q'⟩ <;>
        rw [hx, hy] at h1 h2 <;> cases h1
      · exact .inl ⟨rfl, h2⟩
      · simp only
        rcases ih h2 with ⟨k1, k2⟩ | ⟨c, k1, k2⟩
        · left
          rcases hx : r'.collectLoop S k with ⟨(vs | e | _), r''⟩ <;> rcases hy : q'.collectLoop disk k with ⟨(vs' | e' | _), q''⟩ <;>
            rw [hx, hy] at k1 k2 <;> cases k1 <;> exact ⟨rfl, k2⟩
        · right
          rcases hx : r'.collectLoop S k with ⟨(vs | e | _), r''⟩ <;> rw [hx] at k2 <;> cases k2
          exact ⟨c, k1, rfl⟩
      · exact .inl ⟨rfl, h2⟩
      · exact .inl ⟨rfl, h2⟩
    · right
      rcases hx : r.next S with ⟨(_ | (v | e | _)), r'⟩ <;> rw [hx] at h2 <;> cases h2
      exact ⟨c, h1, rfl⟩

end

end Npyz
