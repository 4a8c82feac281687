import Verif.Proofs.Shaky
import Verif.Spec.Stream
/-!
Several arrays in one stream.
-/
namespace Npyz
open Spec Py

/-- A finished session does not move the stream backwards. -/
theorem save_pos_le {M : Machine} {t : Ty} {d : DType} {o : Order} {hint : ShapeHint} {s s' : Sink} {size : Nat} (hd : d.Wf)
    (hn : exactBytes d = some size) (hm : size ≤ M.isizeMax) {vs : List t.Val} (hc : vs.length < 2 ^ 64)
    (h : NpyWriter.save M solid t d o hint vs s = (.ok (), s')) : s.pos + dictBytes d o hint ≤ s'.pos := by
  have h' := h
  unfold NpyWriter.save NpyWriter.saveWith at h'
  rcases hb : (NpyWriter.begin M t d o hint).exec s with ⟨(w | e | _), s1⟩
  · have hb' : solid.exec (NpyWriter.begin M t d o hint) s = (.ok w, s1) := hb
    obtain ⟨hst, h0, hk, hs1⟩ := begin_ok hb
    rw [hb'] at h'
    simp only at h'
    have hx : ∃ items, encodeAll (encode t d) vs = some items := by
      apply extend_solid_ok hd hn hm vs w hst.prog (by omega) s1
      rcases he : w.extend M solid vs s1 with ⟨(⟨⟩ | e | _), w', s2⟩
      · rfl
      · rw [he] at h'
        simp only at h'
        rcases hdr : w'.drop M solid s2 with ⟨(⟨⟩ | e | _), s3⟩ <;> rw [hdr] at h' <;> cases h'
      · rw [he] at h'; cases h'
    obtain ⟨items, he⟩ := hx
    rw [save_eq hd hn hm hc hb he] at h
    have hpos : (s.put (headerBytes (dictText d o hint) ++ items)).pos = s'.pos := by
      generalize s.put (headerBytes (dictText d o hint) ++ items) = s2 at h
      rcases finish_form (M := M) { w with numItems := vs.length } hc with ⟨r, h1, h2⟩ | h1 | ⟨q, b, h1⟩
      · rw [h1] at h; cases h; exact absurd rfl h2
      · rw [h1] at h; cases h; rfl
      · rw [h1] at h
        simp only [WProg.exec] at h
        by_cases hs : s2.seekable = true
        · simp only [hs, Sink.put_seekable, if_true] at h
          cases h; rfl
        · rw [if_neg hs] at h; cases h
    rw [Sink.put_pos, List.length_append] at hpos
    have hh := headerBytes_length (dictText d o hint)
    have := headerText_length (dictText d o hint)
    unfold dictBytes
    omega
  · have hb' : solid.exec (NpyWriter.begin M t d o hint) s = (.err e, s1) := hb
    rw [hb'] at h'; cases h'
  · have hb' : solid.exec (NpyWriter.begin M t d o hint) s = (.panic, s1) := hb
    rw [hb'] at h'; cases h'

theorem saveArrays_pos_le {M M' : Machine} : ∀ (as : List Arr) {s s' : Sink}, (∀ a ∈ as, a.Fits M M') →
    saveArrays M solid as s = (.ok (), s') → s.pos ≤ s'.pos
  | [], s, s', _, h => by cases h; exact Nat.le_refl _
  | a :: as, s, s', ha, h => by
    unfold saveArrays at h
    rcases hx : NpyWriter.save M solid a.t a.d a.o a.hint a.vs s with ⟨(⟨⟩ | e | _), s1⟩
    · rw [hx] at h
      have f := ha a (by simp)
      obtain ⟨size, h1, h2, -⟩ := f.size
      have := save_pos_le f.wf h1 h2 f.count hx
      have := saveArrays_pos_le as (fun x hx => ha x (by simp [hx])) h
      omega
    · rw [hx] at h; cases h
    · rw [hx] at h; cases h

theorem Sink.take_put (s : Sink) (b : Bytes) (h : s.pos ≤ s.data.length) : (s.put b).data.take s.pos = s.data.take s.pos := by
  by_cases hb : b = []
  · subst hb; rw [Sink.put_nil]
  · rw [Sink.put_data _ hb, List.append_assoc, List.take_left' s.before_length]
    unfold Sink.before
    rw [List.take_append_of_le_length h]

theorem Sink.put_len (s : Sink) {b : Bytes} (hb : b ≠ []) : (s.put b).pos ≤ (s.put b).data.length := by
  rw [Sink.put_data _ hb, Sink.put_pos, List.length_append, List.length_append, s.before_length]; omega

theorem saveArrays_reads {M M' : Machine} (hM' : M'.Wf) {py : PyParser} (hpy : py.ExtendsRef) : ∀ (as : List Arr) {s s' : Sink},
    (∀ a ∈ as, a.Fits M M') → s'.pos + 76 ≤ 2 ^ 64 → saveArrays M solid as s = (.ok (), s') →
    ReadsAll M' py as ⟨s'.data, s.pos⟩ ⟨s'.data, s'.pos⟩ ∧ (s.pos ≤ s.data.length → s'.data.take s.pos = s.data.take s.pos)
  | [], s, s', _, _, h => by cases h; exact ⟨.nil _, fun _ => rfl⟩
  | a :: as, s, s', ha, hpos, h => by
    unfold saveArrays at h
    rcases hx : NpyWriter.save M solid a.t a.d a.o a.hint a.vs s with ⟨(⟨⟩ | e | _), s1⟩
    · rw [hx] at h
      simp only at h
      have f := ha a (by simp)
      obtain ⟨size, h1, h2, h3⟩ := f.size
      obtain ⟨p, hp⟩ := f.reader
      have l1 := save_pos_le f.wf h1 h2 f.count hx
      have l2 := saveArrays_pos_le as (fun x hx => ha x (by simp [hx])) h
      obtain ⟨hr, hk⟩ := saveArrays_reads hM' hpy as (fun x hx => ha x (by simp [hx])) hpos h
      obtain ⟨items, he, rfl, g1, g2, g3, g4, -⟩ := save_ok f.wf h1 h2 f.count (fun _ => by omega) hx
      have hne : headerBytes (finalDict a.d a.o a.hint a.vs.length) ++ items ≠ [] := by
        simp [headerBytes_ne_nil (finalDict a.d a.o a.hint a.vs.length)]
      have hk := hk (Sink.put_len s hne)
      generalize hB : headerBytes (finalDict a.d a.o a.hint a.vs.length) ++ items = B at *
      obtain ⟨rest, hdrop⟩ := Sink.put_drop s B hne
      have hsame : ∃ rest, s'.data.drop s.pos = B ++ rest := by
        have e := congrArg (List.drop s.pos) hk
        rw [Sink.put_pos, List.drop_take, List.drop_take, hdrop, Nat.add_sub_cancel_left, List.take_left] at e
        exact ⟨(s'.data.drop s.pos).drop B.length, by rw [← e, e]; conv => lhs; rw [← List.take_append_drop B.length (s'.data.drop s.pos), e]⟩
      obtain ⟨rest', hdrop'⟩ := hsame
      have hfit : CountFits a.vs.length a.hint := by
        have hs := f.shape
        cases hh : a.hint with
        | nd dims =>
          rw [hh] at hs
          have := g3 dims hh
          rw [shapeProduct_exact (acc := 1) (by simpa using hs.2), Out.ok.injEq, Nat.one_mul] at this
          exact this.symm
        | oneD => trivial
        | twoD r => exact (g4 r hh).2
      have hon := final_readsOn hM' hpy f.wf hp h1 h3 f.sizes (o := a.o) f.count hfit
        (fun dims e => by have hs := f.shape; rw [e] at hs; exact hs) (fun r e => by have hs := f.shape; rw [e] at hs; exact hs)
        f.header g1 g2 he (data := s'.data) (rest := rest') (pos := s.pos) (by rw [hB]; exact hdrop')
      rw [hB] at hon
      refine ⟨.cons _ rfl hon (by rw [Sink.put_pos] at hr; exact hr), fun hl => ?_⟩
      have e := congrArg (List.take s.pos) hk
      rw [List.take_take, List.take_take, Sink.put_pos, Nat.min_eq_left (by omega), Sink.take_put s B hl] at e
      exact e
    · rw [hx] at h; cases h
    · rw [hx] at h; cases h

/-! ### Grouping -/

theorem extend_append {t : Ty} {σ : Type} (M : Machine) (T : Target σ) : ∀ (as bs : List t.Val) (w : NpyWriter t.Val) (s : σ),
    w.extend M T (as ++ bs) s = match w.extend M T as s with
      | (.ok (), w', s') => w'.extend M T bs s'
      | (r, w', s') => (r, w', s')
  | [], _, _, _ => rfl
  | v :: as, bs, w, s => by
    simp only [List.cons_append, NpyWriter.extend]
    rcases w.push M T v s with ⟨(⟨⟩ | e | _), w', s'⟩
    · exact extend_append M T as bs w' s'
    · rfl
    · rfl

theorem extend_one {t : Ty} {σ : Type} (M : Machine) (T : Target σ) (v : t.Val) (w : NpyWriter t.Val) (s : σ) :
    w.extend M T [v] s = w.push M T v s := by
  simp only [NpyWriter.extend]
  rcases w.push M T v s with ⟨(⟨⟩ | e | _), w', s'⟩ <;> rfl

theorem addAll_eq {t : Ty} {σ : Type} (M : Machine) (T : Target σ) : ∀ (cs : List (AddCall t)) (w : NpyWriter t.Val) (s : σ),
    addAll M T cs w s = w.extend M T (cs.flatMap AddCall.values) s
  | [], _, _ => rfl
  | c :: cs, w, s => by
    rw [List.flatMap_cons, extend_append]
    cases c with
    | push v =>
      simp only [AddCall.values, extend_one, addAll]
      rcases w.push M T v s with ⟨(⟨⟩ | e | _), w', s'⟩
      · exact addAll_eq M T cs w' s'
      · rfl
      · rfl
    | extend vs =>
      simp only [AddCall.values, addAll]
      rcases w.extend M T vs s with ⟨(⟨⟩ | e | _), w', s'⟩
      · exact addAll_eq M T cs w' s'
      · rfl
      · rfl

end Npyz
