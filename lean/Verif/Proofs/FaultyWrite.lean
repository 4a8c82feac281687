import Verif.Spec.Faulty
import Verif.Proofs.Npz
import Verif.Proofs.Shaky
/-!
Writing archives on failing streams.
-/
set_option autoImplicit false
namespace Npyz
open Spec

/-- A stream that is only written to, with a schedule: what has been written so far and the schedule. -/
def plainShaky : Target (Bytes × List RProg.Ev) where
  exec p s :=
    match p.runSched ⟨s.1, s.1.length, false⟩ s.2 with
    | (r, s', evs) => (r, (s'.data, evs))

theorem plain_shakyZip (ms : List (Text × Bytes)) (file : Text) (starts : List (Option Nat)) :
    Alike plainShaky shakyZip fun s => ⟨⟨ms ++ [(file, s.1)]⟩, starts, s.2⟩ := by
  constructor
  intro α p s
  simp only [shakyZip, plainShaky, List.getLast?_append, List.getLast?_singleton, Option.some_or, List.dropLast_concat]

/-- What `a` did on a failing stream compared with what `b` did on a reliable one: the same, or it returned an error of
the stream and what it has written is the beginning. -/
structure Sim {α : Type} (evs : List RProg.Ev) (a : Res α × Bytes × List RProg.Ev) (b : Res α × Bytes) : Prop where
  left : ∀ e ∈ a.2.2, e ∈ evs
  same : (a.1 = b.1 ∧ a.2.1 = b.2) ∨ ∃ c, .fail c ∈ evs ∧ a.1 = .err (.source c) ∧ a.2.1 <+: b.2

theorem plain_grows {α : Type} (p : WProg α) (c : Bytes) : c <+: (plainStream.exec p c).2 := by
  show c <+: (p.exec (plainSink c)).2.data
  induction p generalizing c with
  | ret r => exact List.prefix_refl _
  | write b k ih =>
    rw [WProg.exec, plainSink_put]
    exact (List.prefix_append c b).trans (ih _)
  | tell k ih => exact List.prefix_refl _
  | seek p k ih => exact List.prefix_refl _
  | flush k ih => exact ih c

theorem writeLoop_plain (evs : List RProg.Ev) (b c : Bytes) :
    (∃ evs', WProg.writeLoop evs b (plainSink c) = (none, plainSink (c ++ b), evs') ∧ ∀ e ∈ evs', e ∈ evs) ∨
    ∃ x b' evs', .fail x ∈ evs ∧ b' <+: b ∧ WProg.writeLoop evs b (plainSink c) = (some x, plainSink (c ++ b'), evs') ∧ ∀ e ∈ evs', e ∈ evs := by
  induction evs generalizing b c with
  | nil => exact .inl ⟨[], by rw [WProg.writeLoop, plainSink_put], fun e h => h⟩
  | cons ev evs ih =>
    by_cases hb : b = []
    · left
      refine ⟨ev :: evs, ?_, fun e h => h⟩
      cases ev <;> rw [WProg.writeLoop, if_pos hb] <;> rw [hb, List.append_nil]
    · cases ev with
      | interrupted =>
        rw [WProg.writeLoop, if_neg hb]
        rcases ih b c with ⟨evs', h1, h2⟩ | ⟨x, b', evs', h1, h2, h3, h4⟩
        · exact .inl ⟨evs', h1, fun e h => List.mem_cons_of_mem _ (h2 e h)⟩
        · exact .inr ⟨x, b', evs', List.mem_cons_of_mem _ h1, h2, h3, fun e h => List.mem_cons_of_mem _ (h4 e h)⟩
      | fail x =>
        rw [WProg.writeLoop, if_neg hb]
        exact .inr ⟨x, [], evs, List.mem_cons_self, List.nil_prefix, by rw [List.append_nil], fun e h => List.mem_cons_of_mem _ h⟩
      | short k =>
        rw [WProg.writeLoop, if_neg hb, plainSink_put]
        rcases ih (b.drop (k + 1)) (c ++ b.take (k + 1)) with ⟨evs', h1, h2⟩ | ⟨x, b', evs', h1, h2, h3, h4⟩
        · refine .inl ⟨evs', ?_, fun e h => List.mem_cons_of_mem _ (h2 e h)⟩
          rw [h1, List.append_assoc, List.take_append_drop]
        · refine .inr ⟨x, b.take (k + 1) ++ b', evs', List.mem_cons_of_mem _ h1, ?_, by rw [h3, List.append_assoc],
            fun e h => List.mem_cons_of_mem _ (h4 e h)⟩
          obtain ⟨r, hr⟩ := h2
          exact ⟨r, by rw [List.append_assoc, hr, List.take_append_drop]⟩

theorem sim_exec {α : Type} (p : WProg α) (c : Bytes) (evs : List RProg.Ev) :
    Sim evs (plainShaky.exec p (c, evs)) (plainStream.exec p c) := by
  show Sim evs ((p.runSched (plainSink c) evs).1, (p.runSched (plainSink c) evs).2.1.data, (p.runSched (plainSink c) evs).2.2)
    ((p.exec (plainSink c)).1, (p.exec (plainSink c)).2.data)
  induction p generalizing c evs with
  | ret r => exact ⟨fun e h => h, .inl ⟨rfl, rfl⟩⟩
  | write b k ih =>
    rw [WProg.runSched, WProg.exec, plainSink_put]
    rcases writeLoop_plain evs b c with ⟨evs', h1, h2⟩ | ⟨x, b', evs', h1, h2, h3, h4⟩
    · rw [h1]
      obtain ⟨i1, i2⟩ := ih (c ++ b) evs'
      refine ⟨fun e h => h2 e (i1 e h), ?_⟩
      rcases i2 with i2 | ⟨x, j1, j2⟩
      · exact .inl i2
      · exact .inr ⟨x, h2 _ j1, j2⟩
    · rw [h3]
      refine ⟨h4, .inr ⟨x, h1, rfl, ?_⟩⟩
      exact (List.prefix_append_right_inj c |>.mpr h2).trans (plain_grows k (c ++ b))
  | tell k ih => exact ⟨fun e h => h, .inl ⟨rfl, rfl⟩⟩
  | seek p k ih => exact ⟨fun e h => h, .inl ⟨rfl, rfl⟩⟩
  | flush k ih =>
    rw [WProg.runSched, WProg.exec]
    rcases WProg.opEvent_cases evs with ⟨evs', h1, h2⟩ | ⟨x, evs', h1, h2, h3⟩
    · rw [h1]
      obtain ⟨i1, i2⟩ := ih c evs'
      refine ⟨fun e h => h2 e (i1 e h), ?_⟩
      rcases i2 with i2 | ⟨x, j1, j2⟩
      · exact .inl i2
      · exact .inr ⟨x, h2 _ j1, j2⟩
    · rw [h2]
      exact ⟨h3, .inr ⟨x, h1, rfl, plain_grows k c⟩⟩

theorem runSched_plain {α : Type} (p : WProg α) (c : Bytes) (evs : List RProg.Ev) : ∃ c', (p.runSched (plainSink c) evs).2.1 = plainSink c' := by
  induction p generalizing c evs with
  | ret r => exact ⟨c, rfl⟩
  | write b k ih =>
    rw [WProg.runSched]
    rcases writeLoop_plain evs b c with ⟨evs', h1, -⟩ | ⟨x, b', evs', -, -, h3, -⟩
    · rw [h1]; exact ih _ _
    · rw [h3]; exact ⟨_, rfl⟩
  | tell k ih => exact ⟨c, rfl⟩
  | seek p k ih => exact ⟨c, rfl⟩
  | flush k ih =>
    rw [WProg.runSched]
    rcases WProg.opEvent_cases evs with ⟨evs', h1, -⟩ | ⟨x, evs', -, h2, -⟩
    · rw [h1]; exact ih _ _
    · rw [h2]; exact ⟨_, rfl⟩

theorem plainShaky_shaky : Alike plainShaky shaky fun s => (plainSink s.1, s.2) := by
  constructor
  intro α p s
  obtain ⟨c', h⟩ := runSched_plain p s.1 s.2
  show p.runSched (plainSink s.1) s.2 = ((p.runSched (plainSink s.1) s.2).1, (plainSink (p.runSched (plainSink s.1) s.2).2.1.data, (p.runSched (plainSink s.1) s.2).2.2))
  rw [h]
  show p.runSched (plainSink s.1) s.2 = ((p.runSched (plainSink s.1) s.2).1, (plainSink c', (p.runSched (plainSink s.1) s.2).2.2))
  rw [← h]

section
variable {M : Machine} {V : Type}

theorem push_info (w : NpyWriter V) {σ : Type} (T : Target σ) (v : V) (s : σ) : (w.push M T v s).2.1.info = w.info := by
  unfold NpyWriter.push NpyWriter.counted
  rcases M.addU64 w.numItems 1 with n | e | _ <;> rfl

theorem extend_info {σ : Type} (T : Target σ) (vs : List V) (w : NpyWriter V) (s : σ) : (w.extend M T vs s).2.1.info = w.info := by
  induction vs generalizing w s with
  | nil => rfl
  | cons v vs ih =>
    have hp := push_info (M := M) w T v s
    rw [NpyWriter.extend]
    rcases hx : w.push M T v s with ⟨(⟨⟩ | e | _), w', s'⟩ <;> rw [hx] at hp
    · exact (ih w' s').trans hp
    · exact hp
    · exact hp

theorem extend_grows (vs : List V) (w : NpyWriter V) (c : Bytes) : c <+: (w.extend M plainStream vs c).2.2 := by
  induction vs generalizing w c with
  | nil => exact List.prefix_refl _
  | cons v vs ih =>
    have hp : c <+: (w.push M plainStream v c).2.2 := by
      unfold NpyWriter.push
      rcases w.counted M with w' | e | _
      · exact plain_grows _ _
      · exact List.prefix_refl _
      · exact List.prefix_refl _
    rw [NpyWriter.extend]
    rcases hx : w.push M plainStream v c with ⟨(⟨⟩ | e | _), w', c'⟩ <;> rw [hx] at hp
    · exact hp.trans (ih w' c')
    · exact hp
    · exact hp

/-- `extend`: the same, including the writer, or an error of the stream. -/
theorem sim_extend (vs : List V) (w : NpyWriter V) (c : Bytes) (evs : List RProg.Ev) :
    (∀ e ∈ (w.extend M plainShaky vs (c, evs)).2.2.2, e ∈ evs) ∧
    (((w.extend M plainShaky vs (c, evs)).1 = (w.extend M plainStream vs c).1 ∧
      (w.extend M plainShaky vs (c, evs)).2.2.1 = (w.extend M plainStream vs c).2.2) ∨
    ∃ x, .fail x ∈ evs ∧ (w.extend M plainShaky vs (c, evs)).1 = .err (.source x) ∧
      (w.extend M plainShaky vs (c, evs)).2.2.1 <+: (w.extend M plainStream vs c).2.2) := by
  induction vs generalizing w c evs with
  | nil => exact ⟨fun e h => h, .inl ⟨rfl, rfl⟩⟩
  | cons v vs ih =>
    rw [NpyWriter.extend, NpyWriter.extend, NpyWriter.push, NpyWriter.push]
    rcases w.counted M with w' | e | _
    · simp only
      obtain ⟨h1, h2⟩ := sim_exec (w'.prog v) c evs
      rcases hx : plainShaky.exec (w'.prog v) (c, evs) with ⟨x, c1, evs1⟩
      rcases hy : plainStream.exec (w'.prog v) c with ⟨y, c2⟩
      rw [hx] at h1 h2
      rw [hy] at h2
      simp only at h1 h2
      rcases h2 with ⟨h2, h3⟩ | ⟨n, h2, h3, h4⟩
      · subst h2 h3
        rcases x with ⟨⟩ | e | _
        · obtain ⟨i1, i2⟩ := ih w' c1 evs1
          refine ⟨fun e h => h1 e (i1 e h), ?_⟩
          rcases i2 with i2 | ⟨n, i2, i3⟩
          · exact .inl i2
          · exact .inr ⟨n, h1 _ i2, i3⟩
        · exact ⟨h1, .inl ⟨rfl, rfl⟩⟩
        · exact ⟨h1, .inl ⟨rfl, rfl⟩⟩
      · subst h3
        refine ⟨h1, .inr ⟨n, h2, rfl, ?_⟩⟩
        rcases y with ⟨⟩ | e | _
        · exact h4.trans (extend_grows vs w' c2)
        · exact h4
        · exact h4
    · exact ⟨fun e h => h, .inl ⟨rfl, rfl⟩⟩
    · exact ⟨fun e h => h, .inl ⟨rfl, rfl⟩⟩

theorem drop_known (w : NpyWriter V) {n : Nat} (hi : w.info = .known n) (c : Bytes) (evs : List RProg.Ev) :
    w.drop M plainStream c = (.ok (), c) ∧ ∃ evs', w.drop M plainShaky (c, evs) = (.ok (), (c, evs')) ∧ ∀ e ∈ evs', e ∈ evs := by
  have hf : w.finish_ M = if n ≠ w.numItems then .ret (.err (.invalidData "wrong number of items")) else .flush (.ret (.ok ())) := by
    unfold NpyWriter.finish_ NpyWriter.patch
    rw [hi]
    simp only
    by_cases h : n ≠ w.numItems
    · rw [if_pos h, if_pos h]; rfl
    · rw [if_neg h, if_neg h]; rfl
  unfold NpyWriter.drop
  rw [hf]
  by_cases h : n ≠ w.numItems
  · rw [if_pos h]
    exact ⟨rfl, evs, rfl, fun e h => h⟩
  · rw [if_neg h]
    refine ⟨rfl, ?_⟩
    rcases evs with _ | ⟨(_ | _ | x), evs⟩
    · exact ⟨[], rfl, fun e h => h⟩
    · exact ⟨evs, rfl, fun e h => List.mem_cons_of_mem _ h⟩
    · exact ⟨evs, rfl, fun e h => List.mem_cons_of_mem _ h⟩
    · exact ⟨evs, rfl, fun e h => List.mem_cons_of_mem _ h⟩

theorem begin_known {t : Ty} {d : DType} {o : Order} {dims : List Nat} {c c' : Bytes} {w : NpyWriter t.Val}
    (h : plainStream.exec (NpyWriter.begin M t d o (.nd dims)) c = (.ok w, c')) : ∃ n, w.info = .known n := by
  rcases hx : (NpyWriter.begin M t d o (.nd dims)).exec (plainSink c) with ⟨x, s⟩
  have : x = .ok w := by
    have := congrArg Prod.fst h
    simp only [plainStream] at this
    have h2 : ((NpyWriter.begin M t d o (.nd dims)).exec (plainSink c)).1 = .ok w := this
    rw [hx] at h2
    exact h2
  subst this
  obtain ⟨hst, -⟩ := begin_ok hx
  obtain ⟨n, -, hi⟩ := hst.info
  exact ⟨n, hi⟩

theorem saveDropped_grows {t : Ty} (d : DType) (o : Order) (dims : List Nat) (vs : List t.Val) (c : Bytes) {w : NpyWriter t.Val} {c1 : Bytes}
    (h : plainStream.exec (NpyWriter.begin M t d o (.nd dims)) c = (.ok w, c1)) :
    NpyWriter.saveDropped M plainStream t d o (.nd dims) vs c = ((w.extend M plainStream vs c1).1, (w.extend M plainStream vs c1).2.2) := by
  obtain ⟨n, hi⟩ := begin_known h
  unfold NpyWriter.saveDropped
  rw [h]
  simp only
  have hi' := extend_info (M := M) plainStream vs w c1
  rw [(drop_known (M := M) (w.extend M plainStream vs c1).2.1 (hi'.trans hi) _ []).1]

theorem sim_saveDropped {t : Ty} (d : DType) (o : Order) (dims : List Nat) (vs : List t.Val) (c : Bytes) (evs : List RProg.Ev) :
    Sim evs (NpyWriter.saveDropped M plainShaky t d o (.nd dims) vs (c, evs)) (NpyWriter.saveDropped M plainStream t d o (.nd dims) vs c) := by
  obtain ⟨h1, h2⟩ := sim_exec (NpyWriter.begin M t d o (.nd dims)) c evs
  rcases hx : plainShaky.exec (NpyWriter.begin M t d o (.nd dims)) (c, evs) with ⟨x, c1, evs1⟩
  rcases hy : plainStream.exec (NpyWriter.begin M t d o (.nd dims)) c with ⟨y, c2⟩
  rw [hx] at h1 h2
  rw [hy] at h2
  simp only at h1 h2
  rcases h2 with ⟨h2, h3⟩ | ⟨n, h2, h3, h4⟩
  · subst h2 h3
    rcases x with w | e | _
    · obtain ⟨n, hi⟩ := begin_known hy
      rw [saveDropped_grows d o dims vs c hy]
      unfold NpyWriter.saveDropped
      rw [hx]
      simp only
      have hi' := (extend_info (M := M) plainShaky vs w (c1, evs1)).trans hi
      obtain ⟨i1, i2⟩ := sim_extend (M := M) vs w c1 evs1
      rcases hz : w.extend M plainShaky vs (c1, evs1) with ⟨r, w', c3, evs3⟩
      rw [hz] at hi' i1 i2
      simp only at hi' i1 i2 ⊢
      obtain ⟨-, evs4, j1, j2⟩ := drop_known (M := M) w' hi' c3 evs3
      rw [j1]
      refine ⟨fun e h => h1 e (i1 e (j2 e h)), ?_⟩
      rcases i2 with i2 | ⟨x, k1, k2⟩
      · exact .inl i2
      · exact .inr ⟨x, h1 _ k1, k2⟩
    · unfold NpyWriter.saveDropped
      rw [hx, hy]
      exact ⟨h1, .inl ⟨rfl, rfl⟩⟩
    · unfold NpyWriter.saveDropped
      rw [hx, hy]
      exact ⟨h1, .inl ⟨rfl, rfl⟩⟩
  · subst h3
    have hg : c2 <+: (NpyWriter.saveDropped M plainStream t d o (.nd dims) vs c).2 := by
      rcases y with w | e | _
      · rw [saveDropped_grows d o dims vs c hy]; exact extend_grows vs w c2
      · unfold NpyWriter.saveDropped; rw [hy]; exact List.prefix_refl _
      · unfold NpyWriter.saveDropped; rw [hy]; exact List.prefix_refl _
    unfold NpyWriter.saveDropped at hg ⊢
    rw [hx]
    exact ⟨h1, .inr ⟨n, h2, rfl, h4.trans hg⟩⟩

end

/-! ### Archives -/

/-- What `a` does on a failing archive, compared with what `b` does on a reliable one. -/
def Copies (a : ShakyArchive.Act) (b : NpzWriter → Res Unit × NpzWriter) : Prop :=
  ∀ z, (∀ e ∈ (a z).2.starts, e ∈ z.starts) ∧ (∀ e ∈ (a z).2.evs, e ∈ z.evs) ∧ z.writer.members <+: (b z.writer).2.members ∧
    (((a z).1 = (b z.writer).1 ∧ (a z).2.writer = (b z.writer).2) ∨
    ∃ e, MeetsW z e ∧ (a z).1 = .err e ∧ PartOf (a z).2.writer.members (b z.writer).2.members)

theorem meetsW_mono {z z' : ShakyArchive} (ho : ∀ e ∈ z'.starts, e ∈ z.starts) (he : ∀ e ∈ z'.evs, e ∈ z.evs) {e : Err} (h : MeetsW z' e) :
    MeetsW z e := by
  cases h with
  | stream c h => exact .stream c (he _ h)
  | starting c h => exact .starting c (ho _ h)

theorem partOf_more {a b c : List (Text × Bytes)} (h : PartOf a b) (hb : b <+: c) : PartOf a c := by
  rcases h with h | ⟨done, file, content, rest, more, rfl, rfl⟩
  · exact .inl (h.trans hb)
  · obtain ⟨r, rfl⟩ := hb
    exact .inr ⟨done, file, content, rest, more ++ r, rfl, by simp⟩

theorem Copies.andThen {a a' : ShakyArchive.Act} {b b' : NpzWriter → Res Unit × NpzWriter} (h : Copies a b) (h' : Copies a' b') :
    Copies (ShakyArchive.andThen a a') fun z => Sparse.andThen (b z) b' := by
  intro z
  obtain ⟨h1, h2, h3, h4⟩ := h z
  simp only [ShakyArchive.andThen]
  have hg : (b z.writer).2.members <+: (Sparse.andThen (b z.writer) b').2.members := by
    unfold Sparse.andThen
    rcases hy : b z.writer with ⟨(⟨⟩ | e | _), y⟩
    · have := (h' ⟨y, [], []⟩).2.2.1
      exact this
    · exact List.prefix_refl _
    · exact List.prefix_refl _
  rcases h4 with ⟨h4, h5⟩ | ⟨e, h4, h5, h6⟩
  · rcases hx : a z with ⟨r, z'⟩
    rcases hy : b z.writer with ⟨r2, y⟩
    rw [hx] at h1 h2 h4 h5
    rw [hy] at h3 h4 h5
    simp only at h1 h2 h3 h4 h5
    subst h4 h5
    simp only [Sparse.andThen]
    rcases r with ⟨⟩ | e | _
    · obtain ⟨k1, k2, k3, k4⟩ := h' z'
      refine ⟨fun e h => h1 e (k1 e h), fun e h => h2 e (k2 e h), h3.trans k3, ?_⟩
      rcases k4 with k4 | ⟨e, m, k4⟩
      · exact .inl k4
      · exact .inr ⟨e, meetsW_mono h1 h2 m, k4⟩
    · exact ⟨h1, h2, h3, .inl ⟨rfl, rfl⟩⟩
    · exact ⟨h1, h2, h3, .inl ⟨rfl, rfl⟩⟩
  · rcases hx : a z with ⟨r, z'⟩
    rw [hx] at h1 h2 h5 h6
    simp only at h1 h2 h5 h6
    subst h5
    exact ⟨h1, h2, h3.trans hg, .inr ⟨e, h4, rfl, partOf_more h6 hg⟩⟩

theorem copies_assert {a : ShakyArchive.Act} {b : NpzWriter → Res Unit × NpzWriter} (c : Bool) (h : Copies a b) :
    Copies (ShakyArchive.andThen (ShakyArchive.assertThat c) a) (Sparse.assertThat c b) := by
  intro z
  unfold ShakyArchive.andThen ShakyArchive.assertThat Sparse.assertThat
  cases c with
  | true => exact h z
  | false => exact ⟨fun _ h => h, fun _ h => h, List.prefix_refl _, .inl ⟨rfl, rfl⟩⟩

theorem copies_writeArray {M : Machine} {t : Ty} (dtype : DRes DType) (name : String) (dims : List Nat) (vs : List t.Val) :
    Copies (ShakyArchive.writeArray M t dtype name dims vs) (Sparse.writeArray M t dtype name dims vs) := by
  intro z
  have h2 := fun d => (plain_zip z.writer.members (fileNameFromArrayName (txt name))).saveDropped (M := M) (t := t) d .c (.nd dims) vs []
  have hw : ∃ c, (Sparse.writeArray M t dtype name dims vs z.writer).2.members = z.writer.members ++ [(fileNameFromArrayName (txt name), c)] := by
    unfold Sparse.writeArray
    rcases dtype with d | e | _
    · exact ⟨_, by simp only; exact congrArg (fun p : Res Unit × NpzWriter => p.2.members) (h2 d)⟩
    · exact ⟨[], rfl⟩
    · exact ⟨[], rfl⟩
  obtain ⟨content, hw⟩ := hw
  have hp : z.writer.members <+: (Sparse.writeArray M t dtype name dims vs z.writer).2.members := by
    rw [hw]; exact List.prefix_append _ _
  have started : ∀ starts, (∀ e ∈ starts, e ∈ z.starts) →
      ∀ p : Res Unit × ShakyArchive, p = (match dtype with
        | .ok d => NpyWriter.saveDropped M shakyZip t d .c (.nd dims) vs ⟨z.writer.array (txt name), starts, z.evs⟩
        | _ => (.panic, ⟨z.writer.array (txt name), starts, z.evs⟩)) →
      (∀ e ∈ p.2.starts, e ∈ z.starts) ∧ (∀ e ∈ p.2.evs, e ∈ z.evs) ∧
      z.writer.members <+: (Sparse.writeArray M t dtype name dims vs z.writer).2.members ∧
      ((p.1 = (Sparse.writeArray M t dtype name dims vs z.writer).1 ∧ p.2.writer = (Sparse.writeArray M t dtype name dims vs z.writer).2) ∨
      ∃ e, MeetsW z e ∧ p.1 = .err e ∧ PartOf p.2.writer.members (Sparse.writeArray M t dtype name dims vs z.writer).2.members) := by
    intro starts hs p hpe
    rcases dtype with d | e | _
    · have h1 := (plain_shakyZip z.writer.members (fileNameFromArrayName (txt name)) starts).saveDropped (M := M) (t := t) d .c (.nd dims) vs ([], z.evs)
      have hsim := sim_saveDropped (M := M) (t := t) d .c dims vs [] z.evs
      have hpe' : p = ((NpyWriter.saveDropped M plainShaky t d .c (.nd dims) vs ([], z.evs)).1,
          ⟨⟨z.writer.members ++ [(fileNameFromArrayName (txt name), (NpyWriter.saveDropped M plainShaky t d .c (.nd dims) vs ([], z.evs)).2.1)]⟩,
            starts, (NpyWriter.saveDropped M plainShaky t d .c (.nd dims) vs ([], z.evs)).2.2⟩) := hpe.trans h1
      have hq : Sparse.writeArray M t (.ok d) name dims vs z.writer = ((NpyWriter.saveDropped M plainStream t d .c (.nd dims) vs []).1,
          ⟨z.writer.members ++ [(fileNameFromArrayName (txt name), (NpyWriter.saveDropped M plainStream t d .c (.nd dims) vs []).2)]⟩) := h2 d
      refine ⟨?_, ?_, hp, ?_⟩
      · rw [hpe']; exact hs
      · rw [hpe']; exact hsim.left
      · rw [hpe', hq]
        rcases hsim.same with ⟨e1, e2⟩ | ⟨c, e1, e2, r, e3⟩
        · left; exact ⟨e1, by rw [← e2]⟩
        · right
          refine ⟨_, .stream c e1, e2, .inr ⟨z.writer.members, _, _, r, [], rfl, ?_⟩⟩
          simp only [e3]
    · subst hpe
      exact ⟨hs, fun _ h => h, hp, .inl ⟨rfl, rfl⟩⟩
    · subst hpe
      exact ⟨hs, fun _ h => h, hp, .inl ⟨rfl, rfl⟩⟩
  unfold ShakyArchive.writeArray ShakyArchive.andThen ShakyArchive.array
  rcases ho : z.starts with _ | ⟨(_ | c), starts⟩ <;> rw [ho] at started
  · exact started _ (fun _ h => h) _ (by cases dtype <;> rfl)
  · exact started _ (fun e h => List.mem_cons_of_mem _ h) _ (by cases dtype <;> rfl)
  · refine ⟨fun e h => List.mem_cons_of_mem _ h, fun e h => h, hp, .inr ⟨_, .starting c (by rw [ho]; exact List.mem_cons_self), rfl, .inl hp⟩⟩

theorem copies_writeIndices {M : Machine} (name : String) (xs : List (BitVec 64)) :
    Copies (ShakyArchive.writeIndices M name xs) (Sparse.writeIndices M name xs) := by
  unfold ShakyArchive.writeIndices Sparse.writeIndices
  split
  · exact copies_writeArray _ _ _ _
  · exact copies_writeArray _ _ _ _

section
variable {M : Machine} {t : Ty} {r : DRes DType}

theorem copies_coo (h : t.defaultDType M = some r) (m : Coo t) : Copies (ShakyArchive.writeCoo M h m) (m.writeNpz M h) :=
  (copies_writeArray _ _ _ _).andThen <| (copies_writeArray _ _ _ _).andThen <| (copies_writeIndices _ _).andThen <|
    (copies_writeIndices _ _).andThen <| copies_writeArray _ _ _ _

theorem copies_csr (h : t.defaultDType M = some r) (m : Csr t) : Copies (ShakyArchive.writeCsr M h m) (m.writeNpz M h) :=
  (copies_writeArray _ _ _ _).andThen <| (copies_writeArray _ _ _ _).andThen <| (copies_writeIndices _ _).andThen <|
    (copies_writeIndices _ _).andThen <| copies_writeArray _ _ _ _

theorem copies_csc (h : t.defaultDType M = some r) (m : Csc t) : Copies (ShakyArchive.writeCsc M h m) (m.writeNpz M h) :=
  (copies_writeArray _ _ _ _).andThen <| (copies_writeArray _ _ _ _).andThen <| (copies_writeIndices _ _).andThen <|
    (copies_writeIndices _ _).andThen <| copies_writeArray _ _ _ _

theorem copies_dia (h : t.defaultDType M = some r) (m : Dia t) : Copies (ShakyArchive.writeDia M h m) (m.writeNpz M h) :=
  (copies_writeArray _ _ _ _).andThen <| (copies_writeArray _ _ _ _).andThen <| (copies_writeIndices _ _).andThen <|
    copies_assert _ <| copies_writeArray _ _ _ _

theorem copies_bsr (h : t.defaultDType M = some r) (m : Bsr t) : Copies (ShakyArchive.writeBsr M h m) (m.writeNpz M h) :=
  (copies_writeArray _ _ _ _).andThen <| (copies_writeArray _ _ _ _).andThen <| (copies_writeIndices _ _).andThen <|
    (copies_writeIndices _ _).andThen <| copies_assert _ <| copies_writeArray _ _ _ _

theorem copies_sparse (h : t.defaultDType M = some r) (m : Sparse t) : Copies (ShakyArchive.writeSparse M h m) (m.writeNpz M h) := by
  cases m with
  | coo m => exact copies_coo h m
  | csr m => exact copies_csr h m
  | csc m => exact copies_csc h m
  | dia m => exact copies_dia h m
  | bsr m => exact copies_bsr h m

end

/-! ### Failures that are not reported -/

theorem failures_writeLoop (evs : List RProg.Ev) (b : Bytes) (s s' : Sink) {evs' : List RProg.Ev}
    (h : WProg.writeLoop evs b s = (none, s', evs')) : failures evs' = failures evs := by
  induction evs generalizing b s with
  | nil => rw [WProg.writeLoop] at h; cases h; rfl
  | cons ev evs ih =>
    by_cases hb : b = []
    · cases ev <;> rw [WProg.writeLoop, if_pos hb] at h <;> cases h <;> rfl
    · cases ev with
      | interrupted => rw [WProg.writeLoop, if_neg hb] at h; exact ih _ _ h
      | fail x => rw [WProg.writeLoop, if_neg hb] at h; cases h
      | short k => rw [WProg.writeLoop, if_neg hb] at h; exact ih _ _ h

theorem failures_runSched {α : Type} (p : WProg α) (s s' : Sink) (evs : List RProg.Ev) {evs' : List RProg.Ev} {a : α}
    (h : p.runSched s evs = (.ok a, s', evs')) : failures evs' = failures evs := by
  induction p generalizing s evs with
  | ret r => cases h; rfl
  | write b k ih =>
    rw [WProg.runSched] at h
    rcases hx : WProg.writeLoop evs b s with ⟨(_ | c), s1, evs1⟩ <;> rw [hx] at h
    · rw [ih _ _ h, failures_writeLoop _ _ _ _ hx]
    · cases h
  | tell k ih =>
    rw [WProg.runSched] at h
    split at h
    · rcases evs with _ | ⟨(_ | _ | c), evs⟩
      · exact ih _ _ [] h
      · exact ih _ _ evs h
      · exact ih _ _ evs h
      · cases h
    · cases h
  | seek p k ih =>
    rw [WProg.runSched] at h
    split at h
    · rcases evs with _ | ⟨(_ | _ | c), evs⟩
      · exact ih _ [] h
      · exact ih _ evs h
      · exact ih _ evs h
      · cases h
    · cases h
  | flush k ih =>
    rw [WProg.runSched] at h
    rcases evs with _ | ⟨(_ | _ | c), evs⟩
    · exact ih _ [] h
    · exact ih _ evs h
    · exact ih _ evs h
    · cases h

theorem failures_exec {α : Type} (p : WProg α) {c c' : Bytes} {evs evs' : List RProg.Ev} {a : α}
    (h : plainShaky.exec p (c, evs) = (.ok a, (c', evs'))) : failures evs' = failures evs := by
  rcases hx : p.runSched ⟨c, c.length, false⟩ evs with ⟨r, s, evs1⟩
  simp only [plainShaky, hx] at h
  cases h
  exact failures_runSched p _ _ _ hx

section
variable {M : Machine} {V : Type}

theorem failures_extend (vs : List V) (w : NpyWriter V) {w' : NpyWriter V} {c c' : Bytes} {evs evs' : List RProg.Ev}
    (h : w.extend M plainShaky vs (c, evs) = (.ok (), w', (c', evs'))) : failures evs' = failures evs := by
  induction vs generalizing w c evs with
  | nil => cases h; rfl
  | cons v vs ih =>
    rw [NpyWriter.extend, NpyWriter.push] at h
    rcases hw : w.counted M with w1 | e | _ <;> rw [hw] at h
    · simp only at h
      rcases hx : plainShaky.exec (w1.prog v) (c, evs) with ⟨(⟨⟩ | e | _), c1, evs1⟩ <;> rw [hx] at h
      · rw [ih w1 h, failures_exec _ hx]
      · cases h
      · cases h
    · cases h
    · cases h

theorem failures_drop (w : NpyWriter V) {n : Nat} (hi : w.info = .known n) (c : Bytes) (evs : List RProg.Ev) :
    failures evs ≤ failures (w.drop M plainShaky (c, evs)).2.2 + 1 := by
  have hf : w.finish_ M = if n ≠ w.numItems then .ret (.err (.invalidData "wrong number of items")) else .flush (.ret (.ok ())) := by
    unfold NpyWriter.finish_ NpyWriter.patch
    rw [hi]
    simp only
    by_cases h : n ≠ w.numItems
    · rw [if_pos h, if_pos h]; rfl
    · rw [if_neg h, if_neg h]; rfl
  unfold NpyWriter.drop
  rw [hf]
  by_cases h : n ≠ w.numItems
  · rw [if_pos h]
    exact Nat.le_succ _
  · rw [if_neg h]
    rcases evs with _ | ⟨(_ | _ | x), evs⟩
    · exact Nat.le_succ _
    · exact Nat.le_succ _
    · exact Nat.le_succ _
    · show failures (.fail x :: evs) ≤ failures evs + 1
      simp [failures]

theorem failures_saveDropped {t : Ty} (d : DType) (o : Order) (dims : List Nat) (vs : List t.Val) {c c' : Bytes} {evs evs' : List RProg.Ev}
    (h : NpyWriter.saveDropped M plainShaky t d o (.nd dims) vs (c, evs) = (.ok (), (c', evs'))) : failures evs ≤ failures evs' + 1 := by
  obtain ⟨-, h2⟩ := sim_exec (NpyWriter.begin M t d o (.nd dims)) c evs
  unfold NpyWriter.saveDropped at h
  rcases hx : plainShaky.exec (NpyWriter.begin M t d o (.nd dims)) (c, evs) with ⟨(w | e | _), c1, evs1⟩ <;> rw [hx] at h h2
  · rcases hy : plainStream.exec (NpyWriter.begin M t d o (.nd dims)) c with ⟨y, c2⟩
    rw [hy] at h2
    rcases h2 with ⟨h2, -⟩ | ⟨_, _, h2, _⟩
    · simp only at h2
      subst h2
      obtain ⟨n, hi⟩ := begin_known hy
      have hi' := (extend_info (M := M) plainShaky vs w (c1, evs1)).trans hi
      simp only at h
      rcases hz : w.extend M plainShaky vs (c1, evs1) with ⟨r, w', c3, evs3⟩
      rw [hz] at h hi'
      simp only at h hi'
      have hdr := failures_drop (M := M) w' hi' c3 evs3
      obtain ⟨-, evs4, j1, -⟩ := drop_known (M := M) w' hi' c3 evs3
      rw [j1] at h hdr
      simp only [Prod.mk.injEq] at h
      obtain ⟨rfl, -, rfl⟩ := h
      have h3 := failures_extend vs w hz
      have h4 := failures_exec _ hx
      simp only at hdr
      omega
    · cases h2
  · cases h
  · cases h

end

/-- If `a` succeeds, it has lost at most one failure for each member it has written, and none of starting a member. -/
def Loses (a : ShakyArchive.Act) : Prop :=
  ∀ z z', a z = (.ok (), z') → failures z.evs + z.writer.members.length ≤ failures z'.evs + z'.writer.members.length ∧
    ∀ c, z.starts.count (some c) = z'.starts.count (some c)

theorem Loses.andThen {a a' : ShakyArchive.Act} (h : Loses a) (h' : Loses a') : Loses (ShakyArchive.andThen a a') := by
  intro z z' hx
  unfold ShakyArchive.andThen at hx
  rcases hy : a z with ⟨(⟨⟩ | e | _), z1⟩ <;> rw [hy] at hx
  · have h1 := h z z1 hy
    have h2 := h' z1 z' hx
    exact ⟨Nat.le_trans h1.1 h2.1, fun c => (h1.2 c).trans (h2.2 c)⟩
  · cases hx
  · cases hx

theorem loses_assert (c : Bool) : Loses (ShakyArchive.assertThat c) := by
  intro z z' h
  unfold ShakyArchive.assertThat at h
  cases c with
  | true => cases h; exact ⟨Nat.le_refl _, fun _ => rfl⟩
  | false => cases h

theorem loses_writeArray {M : Machine} {t : Ty} (dtype : DRes DType) (name : String) (dims : List Nat) (vs : List t.Val) :
    Loses (ShakyArchive.writeArray M t dtype name dims vs) := by
  intro z z' h
  unfold ShakyArchive.writeArray ShakyArchive.andThen ShakyArchive.array at h
  have go : ∀ starts, (match dtype with
        | .ok d => NpyWriter.saveDropped M shakyZip t d .c (.nd dims) vs ⟨z.writer.array (txt name), starts, z.evs⟩
        | _ => (.panic, ⟨z.writer.array (txt name), starts, z.evs⟩)) = (.ok (), z') →
      failures z.evs + z.writer.members.length ≤ failures z'.evs + z'.writer.members.length ∧ z'.starts = starts := by
    intro starts hs
    rcases dtype with d | e | _
    · have h1 := (plain_shakyZip z.writer.members (fileNameFromArrayName (txt name)) starts).saveDropped (M := M) (t := t) d .c (.nd dims) vs ([], z.evs)
      have h2 := h1.symm.trans hs
      rcases hx : NpyWriter.saveDropped M plainShaky t d .c (.nd dims) vs ([], z.evs) with ⟨r, c, evs⟩
      rw [hx] at h2
      simp only [Prod.mk.injEq] at h2
      obtain ⟨rfl, rfl⟩ := h2
      have := failures_saveDropped d .c dims vs hx
      refine ⟨?_, rfl⟩
      simp only [List.length_append, List.length_singleton]
      omega
    · cases hs
    · cases hs
  rcases ho : z.starts with _ | ⟨(_ | c), starts⟩ <;> rw [ho] at h
  · obtain ⟨h1, h2⟩ := go [] (by cases dtype <;> exact h)
    exact ⟨h1, fun c => by rw [h2]⟩
  · obtain ⟨h1, h2⟩ := go starts (by cases dtype <;> exact h)
    exact ⟨h1, fun c => by rw [h2]; simp⟩
  · cases h

theorem loses_writeIndices {M : Machine} (name : String) (xs : List (BitVec 64)) : Loses (ShakyArchive.writeIndices M name xs) := by
  unfold ShakyArchive.writeIndices
  split
  · exact loses_writeArray _ _ _ _
  · exact loses_writeArray _ _ _ _

theorem loses_sparse {M : Machine} {t : Ty} {r : DRes DType} (h : t.defaultDType M = some r) (m : Sparse t) :
    Loses (ShakyArchive.writeSparse M h m) := by
  cases m with
  | coo m => exact (loses_writeArray _ _ _ _).andThen <| (loses_writeArray _ _ _ _).andThen <| (loses_writeIndices _ _).andThen <|
      (loses_writeIndices _ _).andThen <| loses_writeArray _ _ _ _
  | csr m => exact (loses_writeArray _ _ _ _).andThen <| (loses_writeArray _ _ _ _).andThen <| (loses_writeIndices _ _).andThen <|
      (loses_writeIndices _ _).andThen <| loses_writeArray _ _ _ _
  | csc m => exact (loses_writeArray _ _ _ _).andThen <| (loses_writeArray _ _ _ _).andThen <| (loses_writeIndices _ _).andThen <|
      (loses_writeIndices _ _).andThen <| loses_writeArray _ _ _ _
  | dia m => exact (loses_writeArray _ _ _ _).andThen <| (loses_writeArray _ _ _ _).andThen <| (loses_writeIndices _ _).andThen <|
      (loses_assert _).andThen <| loses_writeArray _ _ _ _
  | bsr m => exact (loses_writeArray _ _ _ _).andThen <| (loses_writeArray _ _ _ _).andThen <| (loses_writeIndices _ _).andThen <|
      (loses_writeIndices _ _).andThen <| (loses_assert _).andThen <| loses_writeArray _ _ _ _

end Npyz
