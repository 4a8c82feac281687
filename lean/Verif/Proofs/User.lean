import Verif.Spec.User
import Verif.Proofs.Save
/-! Element types defined by the user. -/
namespace Npyz
open Spec Py
set_option autoImplicit false

theorem dataWith_ok_iff {V σ : Type} {reader : DType → DRes (RProg V)} {f : NpyFile σ} {r : NpyReader V σ} :
    f.dataWith reader = .ok r ↔ f.header.usesPickled = false ∧ ∃ p, reader f.header.dtype = .ok p ∧ r = ⟨f.header, p, f.src, 0⟩ := by
  unfold NpyFile.dataWith NpyHeader.forbidPickle
  cases hp : f.header.usesPickled with
  | true => simp
  | false =>
    simp only [Bool.false_eq_true, if_false, Out.bind_ok, true_and]
    rw [Out.bind_eq_ok]
    constructor
    · rintro ⟨p, h1, h2⟩; cases h2; exact ⟨p, h1, rfl⟩
    · rintro ⟨p, h1, rfl⟩; exact ⟨p, h1, rfl⟩

theorem next_run {V σ : Type} {S : Source σ} {M : Machine} (k j : Nat) (r : NpyReader V σ) (hk : r.cur + k = r.header.nRecords) :
    (r.steps M S (List.replicate (k + j) .next)).1 =
      (repeated S r.prog k r.src).map (fun x => ROut.item (some x)) ++ List.replicate j (.item none) := by
  induction k generalizing r with
  | zero =>
    have hn : ¬ r.cur < r.header.nRecords := by omega
    induction j with
    | zero => rfl
    | succ j ih =>
      rw [Nat.zero_add] at ih ⊢
      rw [List.replicate_succ, steps_cons]
      simp only [NpyReader.step, next_none hn]
      rw [ih]
      simp [repeated, List.replicate_succ]
  | succ k ih =>
    have hn : r.cur < r.header.nRecords := by omega
    rw [show k + 1 + j = (k + j) + 1 by omega, List.replicate_succ, steps_cons]
    simp only [NpyReader.step, next_some hn, repeated, List.map_cons, List.cons_append]
    rw [ih _ (by simp only; omega)]

theorem collectLoop_run {V σ : Type} {S : Source σ} (k : Nat) (r : NpyReader V σ) (hk : r.cur + k = r.header.nRecords) (vs : List V) :
    (r.collectLoop S (k + 1)).1 = .ok vs ↔ allOk (repeated S r.prog k r.src) = some vs := by
  induction k generalizing r vs with
  | zero =>
    have hn : ¬ r.cur < r.header.nRecords := by omega
    rw [NpyReader.collectLoop, next_none hn]
    simp only [repeated, allOk, Out.ok.injEq, Option.some.injEq]
  | succ k ih =>
    have hn : r.cur < r.header.nRecords := by omega
    rw [NpyReader.collectLoop, next_some hn, repeated]
    have ih' := ih { r with src := (S.exec r.prog r.src).2, cur := r.cur + 1 } (by simp only; omega)
    simp only at ih'
    rcases hx : (S.exec r.prog r.src).1 with v | e | _
    · simp only [allOk, Option.map_eq_some_iff]
      rcases hy : NpyReader.collectLoop S (k + 1) { r with src := (S.exec r.prog r.src).2, cur := r.cur + 1 } with ⟨y | e | _, r'⟩
      · rw [hy] at ih'
        simp only [Out.ok.injEq] at ih' ⊢
        constructor
        · rintro rfl; exact ⟨y, (ih' y).mp rfl, rfl⟩
        · rintro ⟨z, hz, rfl⟩; rw [(ih' z).mpr hz]
      · rw [hy] at ih'
        simp only [reduceCtorEq, false_iff, not_exists] at ih' ⊢
        rintro z ⟨hz, -⟩; exact ih' z hz
      · rw [hy] at ih'
        simp only [reduceCtorEq, false_iff, not_exists] at ih' ⊢
        rintro z ⟨hz, -⟩; exact ih' z hz
    · simp [allOk]
    · simp [allOk]

/-! ### Writing -/

theorem allAppend_length {V : Type} {prog : V → WProg Unit} : (vs : List V) → (bs : List Bytes) → AllAppend prog vs bs → bs.length = vs.length
  | [], [], _ => rfl
  | _ :: vs, _ :: bs, h => by simp [allAppend_length vs bs h.2]

/-- What `write_one` appends is determined. -/
theorem appends_unique {p : WProg Unit} {a b : Bytes} (ha : Appends p a) (hb : Appends p b) : a = b := by
  have h := (Prod.mk.inj ((ha ⟨[], 0, true⟩).symm.trans (hb ⟨[], 0, true⟩))).2
  have hl : a.length = b.length := by
    have := congrArg Sink.pos h
    simpa [Sink.put_pos] using this
  by_cases h0 : a = []
  · subst h0; exact (List.length_eq_zero_iff.mp hl.symm).symm
  · have h1 : b ≠ [] := fun h => h0 (List.length_eq_zero_iff.mp (by rw [hl, h]; rfl))
    obtain ⟨r1, e1⟩ := Sink.put_drop ⟨[], 0, true⟩ a h0
    obtain ⟨r2, e2⟩ := Sink.put_drop ⟨[], 0, true⟩ b h1
    rw [h, e2] at e1
    exact (List.append_inj e1 hl.symm).1.symm

theorem extend_with {V : Type} {M : Machine} (vs : List V) (w : NpyWriter V) (hw : ∀ v ∈ vs, OnlyAppends (w.prog v))
    (hc : w.numItems + vs.length < 2 ^ 64) (s : Sink) :
    (∃ chunks, AllAppend w.prog vs chunks ∧
      w.extend M solid vs s = (.ok (), { w with numItems := w.numItems + vs.length }, s.put chunks.flatten)) ∨
    (w.extend M solid vs s).1 ≠ .ok () := by
  induction vs generalizing w s with
  | nil => exact .inl ⟨[], trivial, by simp [NpyWriter.extend, Sink.put_nil]⟩
  | cons v vs ih =>
    have hc' : w.numItems + (vs.length + 1) < 2 ^ 64 := hc
    obtain ⟨r, b, hb⟩ := hw v List.mem_cons_self
    have hp : w.push M solid v s = (r, { w with numItems := w.numItems + 1 }, s.put b) := by
      unfold NpyWriter.push
      rw [counted_ok (by omega)]
      simp only [solid, hb]
    rw [NpyWriter.extend, hp]
    rcases r with ⟨⟩ | e | _
    · simp only
      rcases ih { w with numItems := w.numItems + 1 } (fun v hv => hw v (List.mem_cons_of_mem _ hv)) (by simp only; omega) (s.put b) with
        ⟨chunks, h1, h2⟩ | h
      · refine .inl ⟨b :: chunks, ⟨hb, h1⟩, ?_⟩
        rw [h2, Sink.put_put]
        simp only [List.length_cons, List.flatten_cons]
        congr 3
        omega
      · exact .inr h
    · exact .inr (by simp)
    · exact .inr (by simp)

theorem saveWith_ok {V : Type} {M : Machine} {writer : DType → DRes (V → WProg Unit)} {d : DType} {o : Order} {hint : ShapeHint} {s s' : Sink}
    {vs : List V} (hw : ∀ prog, writer d = .ok prog → ∀ v ∈ vs, OnlyAppends (prog v)) (hc : vs.length < 2 ^ 64)
    (hlt : hint.seeks = true → s.pos + dictBytes d o hint + 76 ≤ 2 ^ 64)
    (h : NpyWriter.saveWith M solid writer d o hint vs s = (.ok (), s')) :
    ∃ prog chunks, writer d = .ok prog ∧ AllAppend prog vs chunks ∧
      s' = s.put (headerBytes (finalDict d o hint vs.length) ++ chunks.flatten) ∧
      d.isArray = false ∧ (headerText (dictText d o hint)).length ≤ (usedProps (encodeUtf8 (dictText d o hint))).maxLen ∧
      (∀ dims, hint = .nd dims → shapeProduct M 1 dims = .ok vs.length) ∧ (∀ r, hint = .twoD r → r ≠ 0 ∧ r ∣ vs.length) := by
  unfold NpyWriter.saveWith at h
  rcases hb : (NpyWriter.beginWith M writer d o hint).exec s with ⟨(w | e | _), s1⟩
  · have hb' : solid.exec (NpyWriter.beginWith M writer d o hint) s = (.ok w, s1) := hb
    obtain ⟨⟨hst, hpr⟩, h0, hk, rfl⟩ := beginWith_ok hb
    rw [hb'] at h
    simp only at h
    rcases extend_with (M := M) vs w (hw _ hpr) (by omega) (s.put (headerBytes (dictText d o hint))) with ⟨chunks, h1, h2⟩ | h2
    · rw [h2] at h
      simp only at h
      rw [(finish_eq _ (by simp only; omega) _).1, Sink.put_put] at h
      simp only [h0, Nat.zero_add] at h
      refine ⟨w.prog, chunks, hpr, h1, ?_⟩
      rcases finish_cases (hst.count vs.length) hk hlt hc chunks.flatten with ⟨-, hf⟩ | ⟨hz, hf, h3, h4⟩ | ⟨-, ⟨e, hf⟩, -⟩
      · rw [h] at hf; cases hf
      · rw [h] at hf
        cases hf
        refine ⟨rfl, hst.isArray, hst.hdrFits, h3, fun r hr => ⟨?_, h4 r hr⟩⟩
        rintro rfl
        exact hz hr
      · rw [h] at hf; cases hf
    · exfalso
      rcases he : w.extend M solid vs (s.put (headerBytes (dictText d o hint))) with ⟨(⟨⟩ | e | _), w', s2⟩
      · rw [he] at h2; exact h2 rfl
      · rw [he] at h
        simp only at h
        rcases hdr : w'.drop M solid s2 with ⟨(⟨⟩ | e | _), s3⟩ <;> rw [hdr] at h <;> cases h
      · rw [he] at h; cases h
  · have hb' : solid.exec (NpyWriter.beginWith M writer d o hint) s = (.err e, s1) := hb
    rw [hb'] at h; cases h
  · have hb' : solid.exec (NpyWriter.beginWith M writer d o hint) s = (.panic, s1) := hb
    rw [hb'] at h; cases h

/-- Opening a file that starts with a given header. -/
theorem open_of_run {M : Machine} {py : PyParser} {hdr : Bytes} {h : NpyHeader}
    (hrun : ∀ rest, (NpyHeader.fromReader M py).run (hdr ++ rest) = (.ok h, rest)) {data : Bytes} {pos : Nat} {items : Bytes}
    (hne : hdr ≠ []) (hdrop : data.drop pos = hdr ++ items) :
    NpyFile.new M py disk ⟨data, pos⟩ = (.ok ⟨h, ⟨data, pos + hdr.length⟩⟩, ⟨data, pos + hdr.length⟩) ∧
      data.drop (pos + hdr.length) = items ∧ data.length = pos + hdr.length + items.length := by
  have hlt : pos < data.length := by
    apply Classical.byContradiction
    intro hge
    rw [List.drop_eq_nil_of_le (by omega)] at hdrop
    simp at hdrop
    exact hne hdrop.1
  have hlen : data.length = pos + hdr.length + items.length := by
    have := congrArg List.length hdrop
    simp at this; omega
  refine ⟨?_, by rw [← List.drop_drop, hdrop, List.drop_left], hlen⟩
  unfold NpyFile.new
  have : disk.exec (NpyHeader.fromReader M py) ⟨data, pos⟩ = (.ok h, ⟨data, pos + hdr.length⟩) := by
    have hr := hrun items
    rw [← hdrop] at hr
    simp only [disk, Src.rest, Src.leave, hr]
    congr 2
    rw [List.length_drop]; omega
  rw [this]

end Npyz
