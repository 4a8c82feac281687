import Verif.Model.Live
import Verif.Proofs.BufRead
import Verif.Proofs.Buffer
/-!
Reading a file that changes.
-/
namespace Npyz
set_option autoImplicit false

/-- The byte is at this place in the file at one of the moments of the schedule that were used, or in the end when the schedule is used up. -/
def ShownAt (used : List (Bytes × Nat)) (over : Prop) (now : Bytes) (i : Nat) (x : UInt8) : Prop :=
  (∃ c ∈ used.map (·.1), c[i]? = some x) ∨ (over ∧ now[i]? = some x)

namespace RProg

theorem liveLoop_cases (now : Bytes) (cap : Nat) (evs : List (Bytes × Nat)) (need pos : Nat) (got : Bytes) (hn : 0 < need) :
    ∃ (used evs' : List (Bytes × Nat)) (bs : Bytes), evs = used ++ evs' ∧ (∀ (i : Nat) x, bs[i]? = some x → ShownAt used (evs' = []) now (pos + i) x) ∧
      ((need ≤ bs.length ∧ liveLoop now cap evs need pos got = (some (got ++ bs.take need), bs.drop need, pos + bs.length, evs')) ∨
       (bs.length < need ∧ liveLoop now cap evs need pos got = (none, [], pos + bs.length, evs') ∧
        ∃ c, (c ∈ used.map (·.1) ∨ (evs' = [] ∧ c = now)) ∧ c.length ≤ pos + bs.length)) := by
  induction evs generalizing need pos got with
  | nil =>
    unfold liveLoop
    by_cases h : need ≤ (now.drop pos).length
    · rw [if_pos h]
      refine ⟨[], [], (now.drop pos).take (max need cap), rfl, ?_, .inl ⟨by rw [List.length_take]; omega, ?_⟩⟩
      · intro i x hx
        refine .inr ⟨rfl, ?_⟩
        rw [List.getElem?_take] at hx
        split at hx
        · rwa [List.getElem?_drop] at hx
        · cases hx
      · rw [List.take_take, Nat.min_eq_left (by omega)]
    · rw [if_neg h]
      refine ⟨[], [], now.drop pos, rfl, ?_, .inr ⟨by omega, rfl, now, .inr ⟨rfl, rfl⟩, by rw [List.length_drop]; omega⟩⟩
      intro i x hx
      exact .inr ⟨rfl, by rwa [List.getElem?_drop] at hx⟩
  | cons ev evs ih =>
    obtain ⟨c, k⟩ := ev
    unfold liveLoop
    by_cases hd : c.drop pos = []
    · rw [if_pos hd]
      refine ⟨[(c, k)], evs, [], rfl, by simp, .inr ⟨by simp; omega, by simp, c, .inl (by simp), ?_⟩⟩
      have := List.drop_eq_nil_iff.mp hd
      simpa using this
    rw [if_neg hd]
    simp only
    generalize hb : (c.drop pos).take (min (k + 1) (max need cap)) = b
    have hshown : ∀ (i : Nat) x, b[i]? = some x → c[pos + i]? = some x := by
      intro i x hx
      rw [← hb, List.getElem?_take] at hx
      split at hx
      · rwa [List.getElem?_drop] at hx
      · cases hx
    by_cases hle : need ≤ b.length
    · rw [if_pos hle]
      exact ⟨[(c, k)], evs, b, rfl, fun i x hx => .inl ⟨c, by simp, hshown i x hx⟩, .inl ⟨hle, rfl⟩⟩
    rw [if_neg hle]
    obtain ⟨used, evs', bs, h1, h2, h3⟩ := ih (need - b.length) (pos + b.length) (got ++ b) (by omega)
    refine ⟨(c, k) :: used, evs', b ++ bs, by rw [h1]; rfl, ?_, ?_⟩
    · intro i x hx
      by_cases hi : i < b.length
      · rw [List.getElem?_append_left hi] at hx
        exact .inl ⟨c, by simp, hshown i x hx⟩
      · rw [List.getElem?_append_right (by omega)] at hx
        have := h2 _ x hx
        rw [show pos + b.length + (i - b.length) = pos + i by omega] at this
        rcases this with ⟨c', h, h'⟩ | h
        · exact .inl ⟨c', List.mem_cons_of_mem _ h, h'⟩
        · exact .inr h
    · rw [List.length_append, ← Nat.add_assoc]
      rcases h3 with ⟨h3, h4⟩ | ⟨h3, h4, c', h5, h6⟩
      · refine .inl ⟨by omega, ?_⟩
        rw [h4, List.take_append, List.drop_append, List.take_of_length_le (l := b) (i := need) (by omega),
          List.drop_eq_nil_of_le (as := b) (i := need) (by omega), List.append_assoc, List.nil_append]
      · refine .inr ⟨by omega, h4, c', ?_, h6⟩
        rcases h5 with h5 | h5
        · exact .inl (List.mem_cons_of_mem _ h5)
        · exact .inr h5

theorem shown_first {used used' evs'' : List (Bytes × Nat)} {evs' : List (Bytes × Nat)} {now : Bytes} {i : Nat} {x : UInt8} (he : evs' = used' ++ evs'')
    (h : ShownAt used (evs' = []) now i x) : ShownAt (used ++ used') (evs'' = []) now i x := by
  rcases h with ⟨c, hc, hc'⟩ | ⟨hn, hc⟩
  · exact .inl ⟨c, by rw [List.map_append]; exact List.mem_append_left _ hc, hc'⟩
  · rw [hn] at he
    exact .inr ⟨(List.append_eq_nil_iff.mp he.symm).2, hc⟩

theorem shown_second {used used' : List (Bytes × Nat)} {over : Prop} {now : Bytes} {i : Nat} {x : UInt8} (h : ShownAt used' over now i x) :
    ShownAt (used ++ used') over now i x := by
  rcases h with ⟨c, hc, hc'⟩ | h
  · exact .inl ⟨c, by rw [List.map_append]; exact List.mem_append_right _ hc, hc'⟩
  · exact .inr h

/-- A run on a changing file is a run on bytes each of which was there at some moment; it ends as on these bytes, or with the end of the file. -/
theorem runLive_cases {α : Type} (now : Bytes) (cap : Nat) (p : RProg α) (buf : Bytes) (pos : Nat) (evs : List (Bytes × Nat)) :
    ∃ (used evs' : List (Bytes × Nat)) (bs buf' : Bytes) (r : Res α), evs = used ++ evs' ∧ p.runLive now cap buf pos evs = (r, buf', pos + bs.length, evs') ∧
      (∀ (i : Nat) x, bs[i]? = some x → ShownAt used (evs' = []) now (pos + i) x) ∧
      ((∃ cs, buf ++ bs = cs ++ buf' ∧ ∀ rest, p.run (cs ++ rest) = (r, rest)) ∨
       (∃ e c, r = .err e ∧ buf' = [] ∧ p.run (buf ++ bs) = (.err e, []) ∧ (c ∈ used.map (·.1) ∨ (evs' = [] ∧ c = now)) ∧ c.length ≤ pos + bs.length)) := by
  induction p generalizing buf pos evs with
  | ret r => exact ⟨[], evs, [], buf, r, rfl, by simp [runLive], by simp, .inl ⟨[], by simp, fun rest => rfl⟩⟩
  | read n eof k ih =>
    have hrun : ∀ b rest, b.length = n → (read n eof k).run (b ++ rest) = (k b).run rest := by
      intro b rest hb
      simp only [run]
      rw [if_pos (by rw [List.length_append]; omega), ← hb, List.take_left, List.drop_left]
    simp only [runLive, liveExact]
    by_cases hle : n ≤ buf.length
    · rw [if_pos hle]
      simp only
      obtain ⟨used, evs', bs, buf', r, k1, k2, k3, k4⟩ := ih (buf.take n) (buf.drop n) pos evs
      have hsp : ∀ l, buf ++ l = buf.take n ++ (buf.drop n ++ l) := fun l => by rw [← List.append_assoc, List.take_append_drop]
      have hl : (buf.take n).length = n := by rw [List.length_take]; omega
      refine ⟨used, evs', bs, buf', r, k1, k2, k3, ?_⟩
      rcases k4 with ⟨cs, j1, j2⟩ | ⟨e, c, j1, j2, j3, j4⟩
      · refine .inl ⟨buf.take n ++ cs, by rw [hsp, j1, List.append_assoc], fun rest => ?_⟩
        rw [List.append_assoc, hrun _ _ hl, j2]
      · refine .inr ⟨e, c, j1, j2, ?_, j4⟩
        rw [hsp, hrun _ _ hl, j3]
    · rw [if_neg hle]
      obtain ⟨used, evs', b, h1, h2, h3⟩ := liveLoop_cases now cap evs (n - buf.length) pos buf (by omega)
      rcases h3 with ⟨h3, h4⟩ | ⟨h3, h4, c, h5, h6⟩
      · rw [h4]
        simp only
        obtain ⟨used', evs'', b', buf', r, k1, k2, k3, k4⟩ := ih (buf ++ b.take (n - buf.length)) (b.drop (n - buf.length)) (pos + b.length) evs'
        have hl : (buf ++ b.take (n - buf.length)).length = n := by rw [List.length_append, List.length_take]; omega
        have hsp : buf ++ (b ++ b') = (buf ++ b.take (n - buf.length)) ++ (b.drop (n - buf.length) ++ b') := by
          rw [List.append_assoc, ← List.append_assoc (b.take _), List.take_append_drop]
        refine ⟨used ++ used', evs'', b ++ b', buf', r, by rw [h1, k1, List.append_assoc], by rw [k2, List.length_append, Nat.add_assoc], ?_, ?_⟩
        · intro i x hx
          by_cases hi : i < b.length
          · rw [List.getElem?_append_left hi] at hx
            exact shown_first k1 (h2 i x hx)
          · rw [List.getElem?_append_right (by omega)] at hx
            have := k3 _ x hx
            rw [show pos + b.length + (i - b.length) = pos + i by omega] at this
            exact shown_second this
        · rcases k4 with ⟨cs, j1, j2⟩ | ⟨e, c, j1, j2, j3, j4, j5⟩
          · refine .inl ⟨(buf ++ b.take (n - buf.length)) ++ cs, by rw [hsp, j1, List.append_assoc _ cs], fun rest => ?_⟩
            rw [List.append_assoc _ cs, hrun _ _ hl, j2]
          · refine .inr ⟨e, c, j1, j2, by rw [hsp, hrun _ _ hl, j3], ?_, by rw [List.length_append]; omega⟩
            rcases j4 with j4 | j4
            · exact .inl (by rw [List.map_append]; exact List.mem_append_right _ j4)
            · exact .inr j4
      · rw [h4]
        refine ⟨used, evs', b, [], .err eof, h1, rfl, h2, .inr ⟨eof, c, rfl, rfl, ?_, h5, h6⟩⟩
        simp only [run]
        rw [if_neg (by rw [List.length_append]; omega)]

end RProg

/-- From this place on, the contents agree with the final ones as far as they go. -/
def AgreesFrom (base : Nat) (final c : Bytes) : Prop := ∀ (i : Nat) x, base ≤ i → c[i]? = some x → final[i]? = some x

/-- The state of a reader behind `base` on a file that changes, and of the same reader on the final file. -/
structure Follows (base : Nat) (final : Bytes) (s : LiveSrc) (u : Src) : Prop where
  data : u.data = final
  pos : s.pos = u.pos + s.buf.length
  above : base ≤ u.pos
  buf : ∀ (i : Nat) x, s.buf[i]? = some x → final[u.pos + i]? = some x
  evs : ∀ c ∈ s.evs.map (·.1), AgreesFrom base final c
  now : AgreesFrom base final s.now

theorem drop_of_agree {final bs : Bytes} {pos : Nat} (h : ∀ (i : Nat) x, bs[i]? = some x → final[pos + i]? = some x) :
    ∃ rest, final.drop pos = bs ++ rest := by
  refine ⟨(final.drop pos).drop bs.length, ?_⟩
  apply List.ext_getElem?
  intro i
  by_cases hi : i < bs.length
  · rw [List.getElem?_append_left hi, List.getElem?_drop, h i _ (List.getElem?_eq_getElem hi)]
    exact (List.getElem?_eq_getElem hi).symm
  · rw [List.getElem?_append_right (by omega), List.getElem?_drop, List.getElem?_drop, List.getElem?_drop]
    congr 1
    omega

theorem AgreesFrom.shown {base : Nat} {final now : Bytes} {used : List (Bytes × Nat)} {over : Prop} (h1 : ∀ c ∈ used.map (·.1), AgreesFrom base final c)
    (h2 : AgreesFrom base final now) {i : Nat} {x : UInt8} (hi : base ≤ i) (h : ShownAt used over now i x) : final[i]? = some x := by
  rcases h with ⟨c, hc, hx⟩ | ⟨-, hx⟩
  · exact h1 c hc i x hi hx
  · exact h2 i x hi hx

/-- The bytes that have been fetched, before and now. -/
theorem Follows.fetched {base : Nat} {final : Bytes} {s : LiveSrc} {u : Src} (h : Follows base final s u) {used evs' : List (Bytes × Nat)} {bs : Bytes}
    (h1 : s.evs = used ++ evs') (h3 : ∀ (i : Nat) x, bs[i]? = some x → ShownAt used (evs' = []) s.now (s.pos + i) x) :
    ∀ (i : Nat) x, (s.buf ++ bs)[i]? = some x → final[u.pos + i]? = some x := by
  intro i x hx
  by_cases hi : i < s.buf.length
  · rw [List.getElem?_append_left hi] at hx
    exact h.buf i x hx
  · rw [List.getElem?_append_right (by omega)] at hx
    have := h3 _ x hx
    rw [h.pos, show u.pos + s.buf.length + (i - s.buf.length) = u.pos + i by omega] at this
    exact AgreesFrom.shown (fun c hc => h.evs c (by rw [h1, List.map_append]; exact List.mem_append_left _ hc)) h.now
      (Nat.le_trans h.above (Nat.le_add_right _ _)) this

/-- The state after a read that ended as on the final file. -/
theorem Follows.after {base : Nat} {final : Bytes} {s : LiveSrc} {u : Src} (h : Follows base final s u) {used evs' : List (Bytes × Nat)} {bs cs buf' : Bytes}
    (h1 : s.evs = used ++ evs') (h3 : ∀ (i : Nat) x, bs[i]? = some x → ShownAt used (evs' = []) s.now (s.pos + i) x)
    (hcs : s.buf ++ bs = cs ++ buf') : Follows base final ⟨buf', s.pos + bs.length, evs', s.now⟩ ⟨final, u.pos + cs.length⟩ := by
  have hl := congrArg List.length hcs
  rw [List.length_append, List.length_append] at hl
  have hp := h.pos
  refine ⟨rfl, by simp only; omega, Nat.le_trans h.above (Nat.le_add_right _ _), fun i x hx => ?_, fun c hc => h.evs c ?_, h.now⟩
  · have := h.fetched h1 h3 (cs.length + i) x (by rw [hcs, List.getElem?_append_right (by omega), Nat.add_sub_cancel_left]; exact hx)
    rwa [← Nat.add_assoc] at this
  · rw [h1, List.map_append]
    exact List.mem_append_right _ hc

theorem exec_prefix {α : Type} {p : RProg α} {r : Res α} {u : Src} {cs rest : Bytes} (h : ∀ rest, p.run (cs ++ rest) = (r, rest))
    (hr : u.rest = cs ++ rest) : disk.exec p u = (r, ⟨u.data, u.pos + cs.length⟩) := by
  simp only [disk, hr, h, Src.leave, List.length_append, Nat.add_sub_cancel]

theorem seek_quiet (off : Int) (u : Src) : FlakySrc.seek off ⟨u, []⟩ = ((u.seek off).1, ⟨(u.seek off).2, []⟩) := by
  rcases flakySeek_cases off ⟨u, []⟩ with ⟨e, h1, h2⟩ | ⟨c, e, h1, -⟩
  · have : e = [] := by
      cases e with
      | nil => rfl
      | cons x e => exact absurd (h2 x (by simp)) (by simp)
    rw [h1, this]
  · cases h1

theorem seek_result (off : Int) (c : Bytes) (pos : Nat) :
    (∃ p : Nat, p < u64Lim ∧ (p : Int) = pos + off ∧ Src.seek off ⟨c, pos⟩ = (.ok (), ⟨c, p⟩)) ∨
    (¬ (0 ≤ (pos : Int) + off ∧ (pos : Int) + off < u64Lim) ∧ Src.seek off ⟨c, pos⟩ = (.err (.source 22), ⟨c, pos⟩)) := by
  unfold Src.seek
  by_cases h : 0 ≤ (pos : Int) + off ∧ (pos : Int) + off < u64Lim
  · rw [if_pos h]
    exact .inl ⟨((pos : Int) + off).toNat, by omega, by omega, rfl⟩
  · rw [if_neg h]
    exact .inr ⟨h, rfl⟩

theorem seek_follows {cap : Nat} {base : Nat} {final : Bytes} {off : Int} {s : LiveSrc} {u : Src} (h : Follows base final s u)
    (hG : base ≤ (disk.seek off u).2.pos) :
    (((live cap).seek off s).1 = (disk.seek off u).1 ∧ Follows base final ((live cap).seek off s).2 (disk.seek off u).2 ∧
      ((live cap).seek off s).2.evs = s.evs ∧ ((live cap).seek off s).2.now = s.now ∧ (u.pos < u64Lim → (disk.seek off u).2.pos < u64Lim)) ∨
    (¬ u.pos < u64Lim ∧ ∃ e, ((live cap).seek off s).1 = .err e) := by
  obtain ⟨buf, spos, evs, now⟩ := s
  obtain ⟨data, upos⟩ := u
  obtain ⟨h1, h2, h3, h4, h5, h6⟩ := h
  simp only at h1 h2 h3 h4 h5 h6
  subst h1 h2
  have hd : disk.seek off ⟨data, upos⟩ = Src.seek off ⟨data, upos⟩ := rfl
  rw [hd] at hG ⊢
  have hmoved : ∀ p, base ≤ p → Follows base data ⟨[], p, evs, now⟩ ⟨data, p⟩ := fun p hp => ⟨rfl, rfl, hp, by simp, h5, h6⟩
  simp only [live, BufReadSrc.seek, seek_quiet]
  by_cases hi : -2 ^ 63 ≤ off - (buf.length : Int) ∧ off - (buf.length : Int) < 2 ^ 63
  · rw [if_pos hi]
    left
    rcases seek_result off data upos with ⟨p, k1, k2, k3⟩ | ⟨k1, k3⟩
    · rw [k3] at hG ⊢
      rcases seek_result (off - buf.length) now (upos + buf.length) with ⟨p', j1, j2, j3⟩ | ⟨j1, j3⟩
      · rw [j3]
        obtain rfl : p = p' := by omega
        exact ⟨rfl, hmoved p hG, trivial, trivial, fun _ => k1⟩
      · exact absurd ⟨by omega, by omega⟩ j1
    · rw [k3]
      rcases seek_result (off - buf.length) now (upos + buf.length) with ⟨p', j1, j2, j3⟩ | ⟨j1, j3⟩
      · exact absurd ⟨by omega, by omega⟩ k1
      · rw [j3]
        exact ⟨rfl, ⟨rfl, rfl, h3, h4, h5, h6⟩, trivial, trivial, id⟩
  · rw [if_neg hi]
    rcases seek_result (-buf.length) now (upos + buf.length) with ⟨p', j1, j2, j3⟩ | ⟨j1, j3⟩
    · left
      obtain rfl : upos = p' := by omega
      rw [j3]
      simp only [seek_quiet]
      rcases seek_result off data upos with ⟨p, k1, k2, k3⟩ | ⟨k1, k3⟩
      · rw [k3] at hG ⊢
        rcases seek_result off now upos with ⟨p', i1, i2, i3⟩ | ⟨i1, i3⟩
        · rw [i3]
          obtain rfl : p = p' := by omega
          exact ⟨rfl, hmoved p hG, trivial, trivial, fun _ => k1⟩
        · exact absurd ⟨by omega, by omega⟩ i1
      · rw [k3]
        rcases seek_result off now upos with ⟨p', i1, i2, i3⟩ | ⟨i1, i3⟩
        · exact absurd ⟨by omega, by omega⟩ k1
        · rw [i3]
          exact ⟨rfl, hmoved _ h3, trivial, trivial, id⟩
    · right
      rw [j3]
      exact ⟨fun hu => j1 ⟨by omega, by omega⟩, _, rfl⟩

/-- Reading behind a place from which the contents agree with the final ones. -/
theorem live_alike (cap base : Nat) (final : Bytes) : AlikeOrFails (live cap) (Follows base final) (fun u => base ≤ u.pos) (fun _ => True) where
  exec := by
    intro α p s u h
    obtain ⟨used, evs', bs, buf', r, h1, h2, h3, h4⟩ := RProg.runLive_cases s.now cap p s.buf s.pos s.evs
    rcases h4 with ⟨cs, h4, h5⟩ | ⟨e, c, h5, -⟩
    · left
      obtain ⟨rest, hr⟩ := drop_of_agree (final := final) (bs := s.buf ++ bs) (pos := u.pos) (h.fetched h1 h3)
      have hrest : u.rest = cs ++ (buf' ++ rest) := by unfold Src.rest; rw [h.data, hr, h4, List.append_assoc]
      rw [exec_prefix h5 hrest, h.data]
      simp only [live, h2, true_and]
      exact h.after h1 h3 h4
    · right
      exact ⟨e, trivial, by simp only [live, h2, h5]⟩
  seek := by
    intro off s u h hG
    rcases seek_follows (cap := cap) h hG with ⟨h1, h2, -⟩ | ⟨-, e, h1⟩
    · exact .inl ⟨h1, h2⟩
    · exact .inr ⟨e, trivial, h1⟩

/-- The state when the contents, from a place on, are already the final ones. -/
structure Settled (base : Nat) (final : Bytes) (s : LiveSrc) (u : Src) : Prop extends Follows base final s u where
  full : ∀ c ∈ s.evs.map (·.1), final.length ≤ c.length
  fullNow : final.length ≤ s.now.length
  small : u.pos < u64Lim

/-- Then the file is like one that does not change. -/
theorem settled_alike (cap base : Nat) {final : Bytes} (hf : final.length < u64Lim) :
    AlikeOrFails (live cap) (Settled base final) (fun u => base ≤ u.pos) (fun _ => False) where
  exec := by
    intro α p s u h
    obtain ⟨used, evs', bs, buf', r, h1, h2, h3, h4⟩ := RProg.runLive_cases s.now cap p s.buf s.pos s.evs
    left
    obtain ⟨rest, hr⟩ := drop_of_agree (final := final) (bs := s.buf ++ bs) (pos := u.pos) (h.fetched h1 h3)
    have hsub : ∀ c ∈ evs'.map (·.1), c ∈ s.evs.map (·.1) := fun c hc => by
      rw [h1, List.map_append]
      exact List.mem_append_right _ hc
    have hsmall : ∀ cs : Bytes, cs.length ≤ (final.drop u.pos).length → u.pos + cs.length < u64Lim := by
      intro cs hc
      rw [List.length_drop] at hc
      have := h.small
      omega
    have key : ∃ cs, s.buf ++ bs = cs ++ buf' ∧ disk.exec p u = (r, ⟨u.data, u.pos + cs.length⟩) := by
      rcases h4 with ⟨cs, h4, h5⟩ | ⟨e, c, h5, rfl, h6, h7, h8⟩
      · exact ⟨cs, h4, exec_prefix h5 (rest := buf' ++ rest) (by unfold Src.rest; rw [h.data, hr, h4, List.append_assoc])⟩
      · have hc : final.length ≤ c.length := by
          rcases h7 with h7 | ⟨-, rfl⟩
          · exact h.full c (by rw [h1, List.map_append]; exact List.mem_append_left _ h7)
          · exact h.fullNow
        have hl := congrArg List.length hr
        rw [List.length_drop, List.length_append, List.length_append] at hl
        have hp := h.pos
        have hnil : rest = [] := List.length_eq_zero_iff.mp (by omega)
        refine ⟨s.buf ++ bs, by rw [List.append_nil], ?_⟩
        have hrest : u.rest = s.buf ++ bs := by unfold Src.rest; rw [h.data, hr, hnil, List.append_nil]
        simp only [disk, hrest, h6, h5, Src.leave, List.length_nil, Nat.sub_zero]
    obtain ⟨cs, hcs, hd⟩ := key
    rw [hd, h.data]
    simp only [live, h2, true_and]
    refine ⟨h.after h1 h3 hcs, fun c hc => h.full c (hsub c hc), h.fullNow, hsmall cs ?_⟩
    have hl := congrArg List.length hcs
    rw [hr, List.length_append, hl, List.length_append]
    omega
  seek := by
    intro off s u h hG
    rcases seek_follows (cap := cap) h.toFollows hG with ⟨h1, h2, h3, h4, h5⟩ | ⟨h1, -⟩
    · exact .inl ⟨h1, h2, by rw [h3]; exact h.full, by rw [h4]; exact h.fullNow, h5 h.small⟩
    · exact absurd h.small h1

namespace WProg

theorem crash_write_nil {α : Type} (p : WProg α) (n : Nat) (s : Sink) : (WProg.write [] p).crash n s = p.crash n s := by
  rw [crash, if_neg (by simp), Sink.put_nil]
  rfl

theorem crash_write_write {α : Type} (a b : Bytes) (p : WProg α) (n : Nat) (s : Sink) :
    (WProg.write a (.write b p)).crash n s = (WProg.write (a ++ b) p).crash n s := by
  simp only [crash]
  rw [List.length_append]
  by_cases h : n < a.length
  · rw [if_pos h, if_pos (by omega), List.take_append_of_le_length (by omega)]
  · rw [if_neg h]
    by_cases h2 : n - a.length < b.length
    · rw [if_pos h2, if_pos (by omega), Sink.put_put, List.take_append, List.take_of_length_le (l := a) (i := n) (by omega)]
    · rw [if_neg h2, if_neg (by omega), Sink.put_put, Nat.sub_sub]

theorem crash_write_congr {α : Type} {a : Bytes} {p q : WProg α} (n : Nat) (s : Sink) (h : ∀ n s, p.crash n s = q.crash n s) :
    (WProg.write a p).crash n s = (WProg.write a q).crash n s := by
  simp only [crash, h]

/-- A `BufWriter` hands the same bytes to the file, in the same order. -/
theorem throughBuf_crash {α : Type} (cap : Nat) (p : WProg α) (buf : Bytes) (n : Nat) (s : Sink) :
    (p.throughBuf cap buf).crash n s = (WProg.write buf p).crash n s := by
  induction p generalizing buf n s with
  | ret r => rfl
  | write b k ih =>
    rw [crash_write_write]
    unfold throughBuf
    by_cases hb : b = []
    · rw [if_pos hb, hb, List.append_nil, ih]
    rw [if_neg hb]
    by_cases hf : buf.length + b.length ≤ cap ∧ b.length < cap
    · rw [if_pos hf, ih]
    rw [if_neg hf]
    by_cases hl : b.length < cap
    · rw [if_pos hl, crash_write_congr n s (fun n s => ih b n s), crash_write_write]
    · rw [if_neg hl, crash_write_congr n s (fun n s => crash_write_congr n s fun n s => (ih [] n s).trans (crash_write_nil k n s)), crash_write_write]
  | tell k ih =>
    unfold throughBuf
    refine crash_write_congr n s fun n s => ?_
    simp only [crash, fun a n s => (ih a [] n s).trans (crash_write_nil _ n s)]
  | seek p k ih =>
    unfold throughBuf
    refine crash_write_congr n s fun n s => ?_
    simp only [crash, fun n s => (ih [] n s).trans (crash_write_nil _ n s)]
  | flush k ih =>
    unfold throughBuf
    refine crash_write_congr n s fun n s => ?_
    simp only [crash, fun n s => (ih [] n s).trans (crash_write_nil _ n s)]

/-- The calls are those of the `BufWriter`. -/
theorem throughBuf_exec {α : Type} (cap : Nat) (p : WProg α) (buf : Bytes) (s : Sink) :
    (p.throughBuf cap buf).exec s = ((p.runBuf cap ⟨buf, s, []⟩).1, (p.runBuf cap ⟨buf, s, []⟩).2.close) := by
  induction p generalizing buf s with
  | ret r => rfl
  | write b k ih =>
    unfold throughBuf
    simp only [runBuf, BufSink.writeAll]
    by_cases hb : b = []
    · rw [if_pos hb, if_pos hb, ih]
    rw [if_neg hb, if_neg hb]
    by_cases hf : buf.length + b.length ≤ cap ∧ b.length < cap
    · rw [if_pos hf, if_pos hf, ih]
    rw [if_neg hf, if_neg hf]
    simp only [BufSink.flushBuf, BufSink.flushLoop, BufSink.directLoop, exec]
    by_cases hl : b.length < cap
    · rw [if_pos hl, if_pos hl, ih]
    · rw [if_neg hl, if_neg hl]
      simp only [exec]
      rw [ih]
  | tell k ih =>
    unfold throughBuf
    simp only [runBuf, exec, Sink.put_seekable]
    by_cases hs : s.seekable = true
    · rw [if_pos hs, if_pos hs]
      exact ih _ _ _
    · rw [if_neg hs, if_neg hs]
      rfl
  | seek p k ih =>
    unfold throughBuf
    simp only [runBuf, exec]
    rw [Sink.put_seekable]
    by_cases hs : s.seekable = true
    · rw [if_pos hs, if_pos hs]
      have hf : (⟨buf, s, []⟩ : BufSink).flushOp = (none, ⟨[], s.put buf, []⟩) := rfl
      simp only [hf, Sink.put_seekable]
      exact ih [] ⟨(s.put buf).data, p, s.seekable⟩
    · rw [if_neg hs, if_neg hs]
      rfl
  | flush k ih =>
    unfold throughBuf
    simp only [runBuf, exec]
    exact ih _ _

end WProg

end Npyz
