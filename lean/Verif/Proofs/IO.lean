import Verif.Model.IO
/-! General facts about reader programs. -/
namespace Npyz
namespace RProg

/-- Continue with `f` after a run. -/
def andThen {α β : Type} (x : Res α × Bytes) (f : α → RProg β) : Res β × Bytes :=
  match x with
  | (.ok a, r) => (f a).run r
  | (.err e, r) => (.err e, r)
  | (.panic, r) => (.panic, r)

theorem run_bind {α β : Type} (p : RProg α) (f : α → RProg β) (bs : Bytes) :
    (p >>= f).run bs = andThen (p.run bs) f := by
  show (p.bind f).run bs = _
  induction p generalizing bs with
  | ret r => cases r <;> rfl
  | read n eof k ih =>
    simp only [bind, run]
    split
    · exact ih _ _
    · rfl

@[simp] theorem run_pure {α : Type} (a : α) (bs : Bytes) : (pure a : RProg α).run bs = (.ok a, bs) := rfl
@[simp] theorem run_lift {α : Type} (r : Res α) (bs : Bytes) : (lift r).run bs = (r, bs) := rfl

theorem run_readExact (n : Nat) (bs : Bytes) : (readExact n).run bs =
    if n ≤ bs.length then (.ok (bs.take n), bs.drop n) else (.err .unexpectedEof, []) := rfl

/-- Outcome of a bind that is ok. -/
theorem run_bind_ok {α β : Type} {p : RProg α} {f : α → RProg β} {bs rest : Bytes} {b : β} :
    (p >>= f).run bs = (.ok b, rest) ↔ ∃ a r, p.run bs = (.ok a, r) ∧ (f a).run r = (.ok b, rest) := by
  rw [run_bind]
  rcases h : p.run bs with ⟨(a | e | _), r⟩
  · simp only [andThen, Prod.mk.injEq, Out.ok.injEq]
    exact ⟨fun h => ⟨a, r, ⟨rfl, rfl⟩, h⟩, fun ⟨_, _, ⟨rfl, rfl⟩, h⟩ => h⟩
  · simp [andThen]
  · simp [andThen]

theorem run_bind_of_ok {α β : Type} {p : RProg α} {f : α → RProg β} {bs r : Bytes} {a : α}
    (h : p.run bs = (.ok a, r)) : (p >>= f).run bs = (f a).run r := by
  rw [run_bind, h]; rfl

theorem run_bind_of_err {α β : Type} {p : RProg α} {f : α → RProg β} {bs r : Bytes} {e : Err}
    (h : p.run bs = (.err e, r)) : (p >>= f).run bs = (.err e, r) := by
  rw [run_bind, h]; rfl

/-- A successful run uses a prefix of the input, and only that prefix matters. -/
theorem run_ok_local {α : Type} {p : RProg α} {bs rest : Bytes} {a : α} (h : p.run bs = (.ok a, rest)) :
    ∃ used, bs = used ++ rest ∧ ∀ rest', p.run (used ++ rest') = (.ok a, rest') := by
  induction p generalizing bs with
  | ret r =>
    simp only [run, Prod.mk.injEq] at h
    obtain ⟨rfl, rfl⟩ := h
    exact ⟨[], rfl, fun _ => rfl⟩
  | read n eof k ih =>
    simp only [run] at h
    split at h
    · rename_i hn
      obtain ⟨used, h1, h2⟩ := ih _ h
      refine ⟨bs.take n ++ used, ?_, ?_⟩
      · rw [List.append_assoc, ← h1, List.take_append_drop]
      · intro rest'
        have hl : (bs.take n).length = n := by simp [hn]
        simp only [run]
        rw [if_pos (by simp; omega)]
        have e1 : (bs.take n ++ used ++ rest').take n = bs.take n := by
          rw [List.append_assoc]; exact List.take_left' hl
        have e2 : (bs.take n ++ used ++ rest').drop n = used ++ rest' := by
          rw [List.append_assoc]; exact List.drop_left' hl
        rw [e1, e2]
        exact h2 rest'
    · simp at h

/-- If a run succeeds using `used`, every strict prefix of `used` gives an error. -/
theorem run_truncated {α : Type} {p : RProg α} {used : Bytes} {a : α} (h : p.run used = (.ok a, []))
    {t : Bytes} (ht : t <+: used) (hlt : t.length < used.length) : ∃ e, p.run t = (.err e, []) := by
  induction p generalizing used t with
  | ret r =>
    simp only [run, Prod.mk.injEq] at h
    obtain ⟨rfl, rfl⟩ := h
    simp at hlt
  | read n eof k ih =>
    simp only [run] at h ⊢
    split at h
    · rename_i hn
      by_cases hc : n ≤ t.length
      · rw [if_pos hc]
        obtain ⟨s, rfl⟩ := ht
        rw [List.take_append_of_le_length hc, List.drop_append_of_le_length hc] at h
        exact ih _ h ⟨s, rfl⟩ (by simp at hlt ⊢; omega)
      · rw [if_neg hc]; exact ⟨_, rfl⟩
    · simp at h

/-! Schedules -/

theorem readLoop_nofail (evs : List Ev) (h : ∀ c, Ev.fail c ∉ evs) (need : Nat) (src got : Bytes) :
    ∃ evs', (∀ c, Ev.fail c ∉ evs') ∧
      readLoop evs need src got =
        if need ≤ src.length then (.ok (got ++ src.take need), src.drop need, evs') else (.eof, [], evs') := by
  induction evs generalizing need src got with
  | nil => exact ⟨[], by simp, rfl⟩
  | cons ev evs ih =>
    have ih := ih (fun c hc => h c (by simp [hc]))
    simp only [readLoop]
    by_cases hz : need = 0
    · subst hz
      exact ⟨ev :: evs, h, by simp⟩
    rw [if_neg hz]
    cases ev with
    | interrupted => exact ih need src got
    | fail c => exact absurd (by simp) (h c)
    | short k =>
      simp only
      by_cases hm : min (k + 1) (min need src.length) = 0
      · rw [if_pos hm]
        have : src.length = 0 := by omega
        exact ⟨evs, fun c hc => h c (by simp [hc]), by rw [if_neg (by omega)]⟩
      · rw [if_neg hm]
        obtain ⟨evs', h1, h2⟩ := ih (need - min (k + 1) (min need src.length))
          (src.drop (min (k + 1) (min need src.length))) (got ++ src.take (min (k + 1) (min need src.length)))
        refine ⟨evs', h1, ?_⟩
        rw [h2]
        generalize hmm : min (k + 1) (min need src.length) = m at *
        have hle : m ≤ need := by omega
        have hle' : m ≤ src.length := by omega
        simp only [List.length_drop, List.drop_drop]
        by_cases hc : need ≤ src.length
        · rw [if_pos (by omega), if_pos hc]
          have e1 : m + (need - m) = need := by omega
          rw [e1, List.append_assoc]
          have e2 : src.take need = src.take m ++ (src.drop m).take (need - m) := by
            conv => lhs; rw [← e1]
            rw [List.take_add]
          rw [e2]
        · rw [if_neg (by omega), if_neg hc]

/-- Schedules without failures do not change the result. -/
theorem runSched_eq_run {α : Type} (p : RProg α) (src : Bytes) (evs : List Ev) (h : ∀ c, Ev.fail c ∉ evs) :
    ∃ evs', (∀ c, Ev.fail c ∉ evs') ∧ p.runSched src evs = ((p.run src).1, (p.run src).2, evs') := by
  induction p generalizing src evs with
  | ret r => exact ⟨evs, h, rfl⟩
  | read n eof k ih =>
    obtain ⟨evs', h1, h2⟩ := readLoop_nofail evs h n src []
    simp only [runSched, run, h2]
    by_cases hn : n ≤ src.length
    · simp only [if_pos hn]
      exact ih _ _ _ h1
    · simp only [if_neg hn]
      exact ⟨evs', h1, rfl⟩

theorem readLoop_fail (evs : List Ev) (need : Nat) (src got : Bytes) :
    (∃ evs', (∀ e ∈ evs', e ∈ evs) ∧
      readLoop evs need src got =
        if need ≤ src.length then (.ok (got ++ src.take need), src.drop need, evs') else (.eof, [], evs')) ∨
    (∃ c r evs', Ev.fail c ∈ evs ∧ readLoop evs need src got = (.fail c, r, evs')) := by
  induction evs generalizing need src got with
  | nil => exact .inl ⟨[], by simp, rfl⟩
  | cons ev evs ih =>
    simp only [readLoop]
    by_cases hz : need = 0
    · subst hz
      exact .inl ⟨ev :: evs, fun _ h => h, by simp⟩
    rw [if_neg hz]
    cases ev with
    | interrupted =>
      rcases ih need src got with ⟨evs', h1, h2⟩ | ⟨c, r, evs', h1, h2⟩
      · exact .inl ⟨evs', fun e he => by simp [h1 e he], h2⟩
      · exact .inr ⟨c, r, evs', by simp [h1], h2⟩
    | fail c => exact .inr ⟨c, src, evs, by simp, rfl⟩
    | short k =>
      simp only
      by_cases hm : min (k + 1) (min need src.length) = 0
      · rw [if_pos hm]
        exact .inl ⟨evs, fun e he => by simp [he], by rw [if_neg (by omega)]⟩
      · rw [if_neg hm]
        rcases ih (need - min (k + 1) (min need src.length))
          (src.drop (min (k + 1) (min need src.length))) (got ++ src.take (min (k + 1) (min need src.length)))
          with ⟨evs', h1, h2⟩ | ⟨c, r, evs', h1, h2⟩
        · refine .inl ⟨evs', fun e he => by simp [h1 e he], ?_⟩
          rw [h2]
          generalize hmm : min (k + 1) (min need src.length) = m at *
          have hle : m ≤ need := by omega
          have hle' : m ≤ src.length := by omega
          simp only [List.length_drop, List.drop_drop]
          by_cases hc : need ≤ src.length
          · rw [if_pos (by omega), if_pos hc]
            have e1 : m + (need - m) = need := by omega
            rw [e1, List.append_assoc]
            have e2 : src.take need = src.take m ++ (src.drop m).take (need - m) := by
              conv => lhs; rw [← e1]
              rw [List.take_add]
            rw [e2]
          · rw [if_neg (by omega), if_neg hc]
        · exact .inr ⟨c, r, evs', by simp [h1], h2⟩

/-- Under any schedule the result is the right one, or a source error from the schedule. -/
theorem runSched_cases {α : Type} (p : RProg α) (src : Bytes) (evs : List Ev) :
    (∃ evs', (∀ e ∈ evs', e ∈ evs) ∧ p.runSched src evs = ((p.run src).1, (p.run src).2, evs')) ∨
    ∃ c, Ev.fail c ∈ evs ∧ (p.runSched src evs).1 = .err (.source c) := by
  induction p generalizing src evs with
  | ret r => exact .inl ⟨evs, fun _ h => h, rfl⟩
  | read n eof k ih =>
    simp only [runSched, run]
    rcases readLoop_fail evs n src [] with ⟨evs', h1, h2⟩ | ⟨c, r, evs', h1, h2⟩
    · rw [h2]
      by_cases hn : n ≤ src.length
      · simp only [List.nil_append, if_pos hn]
        rcases ih (src.take n) (src.drop n) evs' with ⟨evs'', h3, h⟩ | ⟨c, hc, h⟩
        · exact .inl ⟨evs'', fun e he => h1 _ (h3 _ he), h⟩
        · exact .inr ⟨c, h1 _ hc, h⟩
      · simp only [if_neg hn]
        exact .inl ⟨evs', h1, rfl⟩
    · rw [h2]
      exact .inr ⟨c, h1, rfl⟩

/-! A source that fails after a number of bytes -/

theorem runFail_of_ok {α : Type} {p : RProg α} {code : Nat} {bs rest : Bytes} {a : α}
    (h : p.run bs = (.ok a, rest)) : p.runFail code bs = (.ok a, rest) := by
  induction p generalizing bs with
  | ret r => exact h
  | read n eof k ih =>
    simp only [run, runFail] at h ⊢
    split at h
    · rename_i hn; rw [if_pos hn]; exact ih _ h
    · simp at h

theorem runFail_short {α : Type} {p : RProg α} {code : Nat} {used : Bytes} {a : α} (h : p.run used = (.ok a, []))
    {t : Bytes} (ht : t <+: used) (hlt : t.length < used.length) : p.runFail code t = (.err (.source code), []) := by
  induction p generalizing used t with
  | ret r =>
    simp only [run, Prod.mk.injEq] at h
    obtain ⟨rfl, rfl⟩ := h
    simp at hlt
  | read n eof k ih =>
    simp only [run, runFail] at h ⊢
    split at h
    · rename_i hn
      by_cases hc : n ≤ t.length
      · rw [if_pos hc]
        obtain ⟨s, rfl⟩ := ht
        rw [List.take_append_of_le_length hc, List.drop_append_of_le_length hc] at h
        exact ih _ h ⟨s, rfl⟩ (by simp at hlt ⊢; omega)
      · rw [if_neg hc]
    · simp at h

end RProg
end Npyz
