import Verif.Spec.Visit
import Verif.Proofs.NpzSave
import Verif.Proofs.Finish
import Verif.Proofs.Crash
import Verif.Proofs.WriterRead
/-! Arrays that are written only in part. -/

set_option autoImplicit false

namespace Npyz
open Spec Py

variable {σ τ : Type} {T : Target σ} {T' : Target τ} {f : σ → τ} {M : Machine} {t : Ty}

theorem Alike.pushAll (h : Alike T T' f) : ∀ (vs : List t.Val) (w : NpyWriter t.Val) (s : σ),
    w.pushAll M T' vs (f s) = ((w.pushAll M T vs s).1, (w.pushAll M T vs s).2.1, f (w.pushAll M T vs s).2.2) := by
  intro vs
  induction vs with
  | nil => intro w s; rfl
  | cons v vs ih =>
    intro w s
    simp only [NpyWriter.pushAll]
    rw [h.push]
    simp only
    rw [ih]

theorem Alike.leave (h : Alike T T' f) (w : NpyWriter t.Val) (s : σ) (e : Ending) : e.leave M T' w (f s) = f (e.leave M T w s) := by
  cases e with
  | finished => simp only [Ending.leave]; rw [h.finish]
  | dropped => simp only [Ending.leave]; rw [h.drop]
  | forgotten => rfl

theorem Alike.visit (h : Alike T T' f) (v : Visit) (s : σ) : v.on M T' (f s) = ((v.on M T s).1, f (v.on M T s).2) := by
  unfold Visit.on
  cases v.pushed with
  | none => rfl
  | some p =>
    obtain ⟨values, ending⟩ := p
    simp only
    rw [h.exec]
    rcases T.exec (NpyWriter.begin M v.ty v.dtype v.order (.nd v.dims)) s with ⟨(w | e | _), s'⟩
    · simp only
      rw [h.pushAll]
      simp only [h.leave]
    · rfl
    · rfl

/-- A visit of an archive, in terms of a visit of a sink. -/
theorem zip_visit (M : Machine) (v : Visit) (z : NpzWriter) :
    ∃ c, v.on M solid (plainSink []) = ((v.run M z).1, plainSink c) ∧ (v.run M z).2 = ⟨z.members ++ [(fileNameFromArrayName v.name, c)]⟩ := by
  have h1 := plain_solid.visit (M := M) v []
  have h2 := (plain_zip z.members (fileNameFromArrayName v.name)).visit (M := M) v []
  refine ⟨(v.on M plainStream []).2, ?_, ?_⟩
  · rw [h1]
    show _ = ((v.on M zipStream ⟨z.members ++ [(fileNameFromArrayName v.name, [])]⟩).1, _)
    rw [h2]
  · show (v.on M zipStream ⟨z.members ++ [(fileNameFromArrayName v.name, [])]⟩).2 = _
    rw [h2]

theorem visitAll_append (M : Machine) (as bs : List Visit) : ∀ z : NpzWriter, visitAll M (as ++ bs) z = visitAll M bs (visitAll M as z) := by
  induction as with
  | nil => intro z; rfl
  | cons a as ih => intro z; exact ih _

theorem visitAll_members (M : Machine) (vs : List Visit) : ∀ z : NpzWriter,
    ∃ ms, visitAll M vs z = ⟨z.members ++ ms⟩ ∧ ms.map (·.1) = vs.map fun v => fileNameFromArrayName v.name := by
  induction vs with
  | nil => intro z; exact ⟨[], by simp [visitAll], rfl⟩
  | cons v vs ih =>
    intro z
    obtain ⟨c, -, hc⟩ := zip_visit M v z
    obtain ⟨ms, h1, h2⟩ := ih (v.run M z).2
    refine ⟨(fileNameFromArrayName v.name, c) :: ms, ?_, by simp [h2]⟩
    show visitAll M vs (v.run M z).2 = _
    rw [h1, hc]
    simp

/-- The member that is found after later visits under other names. -/
theorem visitAll_find (M : Machine) {before after : List Visit} {v : Visit} {z : NpzWriter} (ha : ∀ x ∈ after, x.name ≠ v.name) :
    ∃ c, v.on M solid (plainSink []) = ((v.run M (visitAll M before z)).1, plainSink c) ∧
      (visitAll M (before ++ v :: after) z).archive.find (fileNameFromArrayName v.name) = some c := by
  obtain ⟨c, h1, h2⟩ := zip_visit M v (visitAll M before z)
  obtain ⟨ms, h3, h4⟩ := visitAll_members M after (v.run M (visitAll M before z)).2
  refine ⟨c, h1, ?_⟩
  rw [visitAll_append]
  show (NpzArchive.mk (visitAll M after (v.run M (visitAll M before z)).2).members).find _ = _
  rw [h3]
  simp only
  rw [find_skip, h2, find_append, if_pos rfl]
  intro m hm e
  have : m.1 ∈ ms.map (·.1) := List.mem_map_of_mem hm
  rw [h4] at this
  obtain ⟨x, hx, h'⟩ := List.mem_map.mp this
  exact ha x hx (fileName_inj (h'.trans e))

/-- What `begin_nd` leaves. -/
theorem begin_left {d : DType} {o : Order} {dims : List Nat} (hfit : nonzeroProd dims < 2 ^ 64) (s : Sink) :
    (∃ r, (NpyWriter.begin M t d o (.nd dims)).exec s = (r, s) ∧ ∀ w, r ≠ .ok w) ∨
    (∃ a b, (NpyWriter.begin M t d o (.nd dims)).exec s = (.panic, s.put (magic ++ [a, b]))) ∨
    (∃ r, (NpyWriter.begin M t d o (.nd dims)).exec s = (r, s.put (headerBytes (dictText d o (.nd dims)))) ∧ d.isArray = false ∧
      (headerText (dictText d o (.nd dims))).length ≤ (usedProps (encodeUtf8 (dictText d o (.nd dims)))).maxLen ∧
      ((∃ w, r = .ok w) ↔ ∃ p, t.writer M d = .ok p)) := by
  have hs : (startPosition (.nd dims)).exec s = (.ok none, s) := rfl
  unfold NpyWriter.begin NpyWriter.beginWith
  rw [WProg.exec_bind_of_ok hs]
  cases hb : d.isArray with
  | true =>
    left
    refine ⟨.panic, ?_, by simp⟩
    apply WProg.exec_bind_of_panic
    unfold writeHeader
    rw [hb, assert, if_neg (by decide), WProg.exec_bind_of_panic (WProg.exec_lift _ _)]
  | false =>
    right
    obtain ⟨info, hc⟩ := createDict_fits (M := M) (d := d) (o := o) (hint := .nd dims) hfit
    have hx := exec_writeHeader (s := s) hb hc
    by_cases hl : (headerText (dictText d o (.nd dims))).length ≤ (usedProps (encodeUtf8 (dictText d o (.nd dims)))).maxLen
    · right
      rw [if_pos hl] at hx
      rw [WProg.exec_bind_of_ok hx]
      cases hw : t.writer M d with
      | ok p => exact ⟨_, rfl, rfl, hl, ⟨fun _ => ⟨p, rfl⟩, fun _ => ⟨_, rfl⟩⟩⟩
      | err e => exact ⟨_, rfl, rfl, hl, Iff.intro (fun ⟨w, h⟩ => (by cases h)) (fun ⟨p, h⟩ => (by cases h))⟩
      | panic => exact ⟨_, rfl, rfl, hl, Iff.intro (fun ⟨w, h⟩ => (by cases h)) (fun ⟨p, h⟩ => (by cases h))⟩
    · left
      rw [if_neg hl] at hx
      exact ⟨_, _, WProg.exec_bind_of_panic hx⟩

/-- At most eight bytes are not a file. -/
theorem tiny_unreadable (M : Machine) (py : PyParser) {c : Bytes} (h : c.length ≤ 8) : ∃ e, (NpyFile.new M py disk ⟨c, 0⟩).1 = .err e := by
  have : ∃ e, ((NpyHeader.fromReader M py).run c).1 = .err e := by
    rcases fromReader_cases M py c with ⟨-, h1⟩ | ⟨_, _, _, -, e, he, h1⟩ | ⟨maj, min, p, r, -, -, -, h1⟩ |
      ⟨maj, min, p, szb, r, rfl, -, hw, -⟩ | ⟨maj, min, p, szb, r, rfl, -, hw, -⟩ | ⟨maj, min, p, szb, text, rest, rfl, -, hw, -⟩
    · exact ⟨_, h1⟩
    · exact ⟨_, h1⟩
    · exact ⟨_, h1⟩
    all_goals
      exfalso
      have : 1 ≤ p.width := by cases p with | mk st e => cases st <;> simp [VersionProps.width]
      simp only [List.length_append, List.length_cons, List.length_nil, show magic.length = 6 from rfl] at h
      omega
  obtain ⟨e, he⟩ := this
  exact ⟨e, new_err he⟩

/-- With a known shape, the end of a writer changes nothing. -/
theorem leave_nd {d : DType} {o : Order} {dims : List Nat} {start : Nat} {w : NpyWriter t.Val} (h : Begun M d o (.nd dims) start w) (hn : w.numItems < 2 ^ 64)
    (s : Sink) (e : Ending) :
    e.leave M solid w s = s := by
  obtain ⟨n, -, h2⟩ := h.info
  have hp : ((w.finish_ M).exec s).2 = s := by rw [exec_finish_nd h2]
  cases e with
  | finished => simp only [Ending.leave]; rw [(finish_eq w hn s).1, hp]
  | dropped => simp only [Ending.leave]; rw [(finish_eq w hn s).2, hp]
  | forgotten => rfl

end Npyz
