import Verif.Model.BufRead
import Verif.Proofs.Alike
/-!
A `BufReader` behaves like the source.
-/
namespace Npyz
set_option autoImplicit false

namespace RProg

theorem fillLoop_cases (cap : Nat) (evs : List Ev) (need : Nat) (src got : Bytes) :
    (need ≤ src.length ∧ ∃ buf' src' evs', fillLoop cap evs need src got = (.ok (got ++ src.take need), buf', src', evs') ∧
      buf' ++ src' = src.drop need ∧ ∀ e ∈ evs', e ∈ evs) ∨
    (src.length < need ∧ ∃ evs', fillLoop cap evs need src got = (.eof, [], [], evs') ∧ ∀ e ∈ evs', e ∈ evs) ∨
    (∃ c buf' src' evs', Ev.fail c ∈ evs ∧ fillLoop cap evs need src got = (.fail c, buf', src', evs')) := by
  induction evs generalizing need src got with
  | nil =>
    unfold fillLoop
    by_cases h : need ≤ src.length
    · left
      rw [if_pos h]
      refine ⟨h, ?_⟩
      split
      · exact ⟨_, _, _, rfl, rfl, fun _ h => h⟩
      · refine ⟨_, _, _, rfl, ?_, fun _ h => h⟩
        have : need ≤ cap := by omega
        have e := congrArg (List.drop need) (List.take_append_drop cap src)
        rw [List.drop_append, List.length_take] at e
        have h0 : need - min cap src.length = 0 := by omega
        rwa [h0, List.drop_zero] at e
    · right; left
      rw [if_neg h]
      exact ⟨by omega, _, rfl, fun _ h => h⟩
  | cons ev evs ih =>
    unfold fillLoop
    by_cases hz : need = 0
    · left
      subst hz
      rw [if_pos rfl]
      exact ⟨Nat.zero_le _, _, _, _, by rw [List.take_zero, List.append_nil], rfl, fun _ h => h⟩
    rw [if_neg hz]
    cases ev with
    | interrupted =>
      rcases ih need src got with ⟨h1, b, s, e, h2, h3, h4⟩ | ⟨h1, e, h2, h3⟩ | ⟨c, b, s, e, h1, h2⟩
      · exact .inl ⟨h1, b, s, e, h2, h3, fun x hx => List.mem_cons_of_mem _ (h4 x hx)⟩
      · exact .inr (.inl ⟨h1, e, h2, fun x hx => List.mem_cons_of_mem _ (h3 x hx)⟩)
      · exact .inr (.inr ⟨c, b, s, e, List.mem_cons_of_mem _ h1, h2⟩)
    | fail c => exact .inr (.inr ⟨c, _, _, _, List.mem_cons_self, rfl⟩)
    | short k =>
      simp only
      have hn : min (k + 1) (min (max need cap) src.length) ≤ src.length := by omega
      have hn0 : min (k + 1) (min (max need cap) src.length) = 0 → src.length = 0 := by omega
      generalize min (k + 1) (min (max need cap) src.length) = n at hn hn0
      by_cases h0 : n = 0
      · rw [if_pos h0]
        exact .inr (.inl ⟨by have := hn0 h0; omega, _, rfl, fun x hx => List.mem_cons_of_mem _ hx⟩)
      rw [if_neg h0]
      by_cases hle : need ≤ n
      · rw [if_pos hle]
        refine .inl ⟨by omega, _, _, _, rfl, ?_, fun x hx => List.mem_cons_of_mem _ hx⟩
        have e := congrArg (List.drop need) (List.take_append_drop n src)
        rw [List.drop_append, List.length_take] at e
        have h0 : need - min n src.length = 0 := by omega
        rwa [h0, List.drop_zero] at e
      · rw [if_neg hle]
        rcases ih (need - n) (src.drop n) (got ++ src.take n) with ⟨h1, b, s, e, h2, h3, h4⟩ | ⟨h1, e, h2, h3⟩ | ⟨c, b, s, e, h1, h2⟩
        · rw [List.length_drop] at h1
          refine .inl ⟨by omega, b, s, e, ?_, ?_, fun x hx => List.mem_cons_of_mem _ (h4 x hx)⟩
          · rw [h2, List.append_assoc]
            congr 3
            rw [show need = n + (need - n) by omega, List.take_add, Nat.add_sub_cancel_left]
          · rw [h3, List.drop_drop]
            congr 1
            omega
        · rw [List.length_drop] at h1
          exact .inr (.inl ⟨by omega, e, h2, fun x hx => List.mem_cons_of_mem _ (h3 x hx)⟩)
        · exact .inr (.inr ⟨c, b, s, e, List.mem_cons_of_mem _ h1, h2⟩)

/-- A run on a `BufReader` is a run on what is in the buffer and behind it, unless the source fails. -/
theorem runBuf_cases {α : Type} (cap : Nat) (p : RProg α) (buf src : Bytes) (evs : List Ev) :
    (∃ buf' src' evs', p.runBuf cap buf src evs = ((p.run (buf ++ src)).1, buf', src', evs') ∧ (p.run (buf ++ src)).2 = buf' ++ src' ∧
      src'.length ≤ src.length ∧ src' <:+ src ∧ (∀ e ∈ evs', e ∈ evs)) ∨
    (∃ c, Ev.fail c ∈ evs ∧ (p.runBuf cap buf src evs).1 = .err (.source c)) := by
  induction p generalizing buf src evs with
  | ret r => exact .inl ⟨buf, src, evs, rfl, rfl, Nat.le_refl _, List.suffix_refl _, fun _ h => h⟩
  | read n eof k ih =>
    simp only [runBuf, run, bufReadExact]
    by_cases h : n ≤ buf.length
    · rw [if_pos h, if_pos (by rw [List.length_append]; omega)]
      rw [List.take_append_of_le_length h, List.drop_append_of_le_length h]
      exact ih _ _ _ _
    · rw [if_neg h]
      rcases fillLoop_cases cap evs (n - buf.length) src buf with ⟨h1, b, s, e, h2, h3, h4⟩ | ⟨h1, e, h2, h3⟩ | ⟨c, b, s, e, h1, h2⟩
      · rw [h2, if_pos (by rw [List.length_append]; omega)]
        simp only
        rw [List.take_append, List.drop_append, List.take_of_length_le (l := buf) (i := n) (by omega), List.drop_eq_nil_of_le (as := buf) (i := n) (by omega),
          List.nil_append, ← h3]
        have hlen := congrArg List.length h3
        rw [List.length_append, List.length_drop] at hlen
        have hsuf : s <:+ src := (List.suffix_append b s).trans (h3 ▸ List.drop_suffix _ _)
        rcases ih (buf ++ src.take (n - buf.length)) b s e with ⟨b', s', e', k1, k2, k3, k4, k5⟩ | ⟨c, k1, k2⟩
        · exact .inl ⟨b', s', e', k1, k2, by omega, k4.trans hsuf, fun x hx => h4 x (k5 x hx)⟩
        · exact .inr ⟨c, h4 _ k1, k2⟩
      · rw [h2, if_neg (by rw [List.length_append]; omega)]
        exact .inl ⟨[], [], e, rfl, rfl, Nat.zero_le _, List.nil_suffix, h3⟩
      · rw [h2]
        exact .inr ⟨c, h1, rfl⟩

end RProg

/-- What the `BufReader` stands for: the file, at the position of the next byte that will be read. -/
def BufReadSrc.view (s : BufReadSrc) : Src := ⟨s.inner.src.data, s.inner.src.pos - s.buf.length⟩

/-- The state of a `BufReader` and of the file it stands for. -/
structure Stands (evs : List RProg.Ev) (s : BufReadSrc) (u : Src) : Prop where
  view : s.view = u
  le : s.buf.length ≤ s.inner.src.pos
  rest : u.rest = s.buf ++ s.inner.src.rest
  evs : ∀ e ∈ s.inner.evs, e ∈ evs
  small : u.pos < u64Lim ∧ u.data.length < u64Lim

theorem run_suffix {α : Type} (p : RProg α) (bs : Bytes) : (p.run bs).2 <:+ bs := by
  induction p generalizing bs with
  | ret r => exact List.suffix_refl _
  | read n eof k ih =>
    simp only [RProg.run]
    split
    · exact (ih _ _).trans (List.drop_suffix _ _)
    · exact List.nil_suffix

theorem Src.leave_suffix {s : Src} {rest : Bytes} (h : rest <:+ s.rest) : (s.leave rest).rest = rest := by
  obtain ⟨pre, hp⟩ := h
  unfold Src.leave
  show s.data.drop (s.pos + (s.rest.length - rest.length)) = rest
  rw [← List.drop_drop]
  show s.rest.drop _ = rest
  rw [← hp, List.length_append, Nat.add_sub_cancel, List.drop_left]

theorem flakySeek_cases (off : Int) (s : FlakySrc) :
    (∃ evs', s.seek off = ((s.src.seek off).1, ⟨(s.src.seek off).2, evs'⟩) ∧ ∀ e ∈ evs', e ∈ s.evs) ∨
    (∃ c evs', RProg.Ev.fail c ∈ s.evs ∧ s.seek off = (.err (.source c), ⟨s.src, evs'⟩)) := by
  unfold FlakySrc.seek
  split
  · rename_i c evs h
    exact .inr ⟨c, evs, by rw [h]; exact List.mem_cons_self, rfl⟩
  · exact .inl ⟨_, rfl, fun e he => List.mem_of_mem_tail he⟩

theorem bufRead_alike (cap : Nat) (evs : List RProg.Ev) : AlikeOrFails (bufRead cap) (Stands evs) (fun _ => True) (fun e => ∃ c, .fail c ∈ evs ∧ e = .source c) where
  exec := by
    intro α p s u h
    have hrun : disk.exec p u = ((p.run (s.buf ++ s.inner.src.rest)).1, u.leave (p.run (s.buf ++ s.inner.src.rest)).2) := by
      simp only [disk, h.rest]
    have hsuf := run_suffix p (s.buf ++ s.inner.src.rest)
    rw [hrun]
    simp only [bufRead]
    rcases RProg.runBuf_cases cap p s.buf s.inner.src.rest s.inner.evs with ⟨b, r, e, h1, h2, h3, h4, h5⟩ | ⟨c, h1, h2⟩
    · left
      rw [h1]
      refine ⟨rfl, ?_⟩
      rw [h2] at hsuf ⊢
      have hlen := hsuf.length_le
      simp only [List.length_append] at hlen
      have hle := h.le
      refine ⟨?_, ?_, ?_, fun x hx => h.evs x (h5 x hx), ?_, h.small.2⟩
      · rw [← h.view]
        unfold BufReadSrc.view Src.leave
        have hr := h.rest
        rw [← h.view] at hr
        unfold BufReadSrc.view at hr
        simp only [hr, List.length_append, Src.mk.injEq, true_and]
        omega
      · show b.length ≤ s.inner.src.pos + (s.inner.src.rest.length - r.length)
        omega
      · rw [Src.leave_suffix (by rw [h.rest]; exact hsuf)]
        show b ++ r = b ++ (s.inner.src.leave r).rest
        rw [Src.leave_suffix h4]
      · have h1 := h.small
        have h2 : u.rest.length = u.data.length - u.pos := List.length_drop
        show u.pos + (u.rest.length - (b ++ r).length) < u64Lim
        omega
    · exact .inr ⟨_, ⟨c, h.evs _ h1, rfl⟩, h2⟩
  seek := by
    intro off s u h _
    obtain ⟨hv, hle, hr, hev, hsm⟩ := h
    subst hv
    rcases s with ⟨⟨⟨data, pos⟩, es⟩, buf⟩
    simp only at hle hr hev
    have hsm' : pos - buf.length < u64Lim ∧ data.length < u64Lim := hsm
    have hd : disk.seek off (BufReadSrc.view ⟨⟨⟨data, pos⟩, es⟩, buf⟩) = Src.seek off ⟨data, pos - buf.length⟩ := rfl
    have hst : ∀ (p : Nat) (e : List RProg.Ev), p < u64Lim → (∀ x ∈ e, x ∈ es) → Stands evs ⟨⟨⟨data, p⟩, e⟩, []⟩ ⟨data, p⟩ := fun p e hp he =>
      ⟨rfl, Nat.zero_le _, rfl, fun x hx => hev x (he x hx), hp, hsm'.2⟩
    rw [hd, show (bufRead cap).seek off ⟨⟨⟨data, pos⟩, es⟩, buf⟩ = BufReadSrc.seek off ⟨⟨⟨data, pos⟩, es⟩, buf⟩ from rfl]
    unfold BufReadSrc.seek
    simp only
    by_cases hi : -2 ^ 63 ≤ off - (buf.length : Int) ∧ off - (buf.length : Int) < 2 ^ 63
    · rw [if_pos hi]
      rcases flakySeek_cases (off - (buf.length : Int)) ⟨⟨data, pos⟩, es⟩ with ⟨e, h1, h2⟩ | ⟨c, e, h1, h2⟩
      · left
        rw [h1]
        have ec : (pos : Int) + (off - (buf.length : Int)) = ((pos - buf.length : Nat) : Int) + off := by omega
        by_cases hin : 0 ≤ ((pos - buf.length : Nat) : Int) + off ∧ ((pos - buf.length : Nat) : Int) + off < u64Lim
        · have hA : Src.seek (off - (buf.length : Int)) ⟨data, pos⟩ = (.ok (), ⟨data, (((pos - buf.length : Nat) : Int) + off).toNat⟩) := by
            unfold Src.seek
            rw [ec, if_pos hin]
          have hB : Src.seek off ⟨data, pos - buf.length⟩ = (.ok (), ⟨data, (((pos - buf.length : Nat) : Int) + off).toNat⟩) := by
            unfold Src.seek
            rw [if_pos hin]
          have hT : (((pos - buf.length : Nat) : Int) + off).toNat < u64Lim := by omega
          simp only [hA, hB]
          exact ⟨trivial, hst _ _ hT h2⟩
        · have hA : Src.seek (off - (buf.length : Int)) ⟨data, pos⟩ = (.err (.source 22), ⟨data, pos⟩) := by
            unfold Src.seek
            rw [ec, if_neg hin]
          have hB : Src.seek off ⟨data, pos - buf.length⟩ = (.err (.source 22), ⟨data, pos - buf.length⟩) := by
            unfold Src.seek
            rw [if_neg hin]
          simp only [hA, hB]
          exact ⟨trivial, ⟨rfl, hle, hr, fun x hx => hev x (h2 x hx), hsm'⟩⟩
      · right
        rw [h2]
        exact ⟨_, ⟨c, hev _ h1, rfl⟩, rfl⟩
    · rw [if_neg hi]
      rcases flakySeek_cases (-(buf.length : Int)) ⟨⟨data, pos⟩, es⟩ with ⟨e, h1, h2⟩ | ⟨c, e, h1, h2⟩
      · rw [h1]
        have h3 : Src.seek (-(buf.length : Int)) ⟨data, pos⟩ = (.ok (), ⟨data, pos - buf.length⟩) := by
          unfold Src.seek
          rw [if_pos (by show 0 ≤ (pos : Int) + _ ∧ (pos : Int) + _ < _; omega)]
          simp only [Prod.mk.injEq, Src.mk.injEq, true_and]
          omega
        simp only [h3]
        rcases flakySeek_cases off ⟨⟨data, pos - buf.length⟩, e⟩ with ⟨e', k1, k2⟩ | ⟨c, e', k1, k2⟩
        · left
          rw [k1]
          simp only
          refine ⟨trivial, ?_⟩
          by_cases hin : 0 ≤ ((pos - buf.length : Nat) : Int) + off ∧ ((pos - buf.length : Nat) : Int) + off < u64Lim
          · have hB : Src.seek off ⟨data, pos - buf.length⟩ = (.ok (), ⟨data, (((pos - buf.length : Nat) : Int) + off).toNat⟩) := by
              unfold Src.seek
              rw [if_pos hin]
            have hT : (((pos - buf.length : Nat) : Int) + off).toNat < u64Lim := by omega
            rw [hB]
            exact hst _ _ hT fun x hx => h2 x (k2 x hx)
          · have hB : Src.seek off ⟨data, pos - buf.length⟩ = (.err (.source 22), ⟨data, pos - buf.length⟩) := by
              unfold Src.seek
              rw [if_neg hin]
            rw [hB]
            exact hst _ _ hsm'.1 fun x hx => h2 x (k2 x hx)
        · right
          rw [k2]
          exact ⟨_, ⟨c, hev _ (h2 _ k1), rfl⟩, rfl⟩
      · right
        rw [h2]
        exact ⟨_, ⟨c, hev _ h1, rfl⟩, rfl⟩

end Npyz
