import Verif.Proofs.Save
/-!
Files mean the same on every machine.
-/
namespace Npyz
open Spec Py

theorem mulU64_agree {M M' : Machine} {a b x y : Nat} (h : M.mulU64 a b = .ok x) (h' : M'.mulU64 a b = .ok y) : x = y := by
  unfold Machine.mulU64 at h h'
  by_cases hl : a * b < u64Lim
  · rw [if_pos hl] at h h'; cases h; cases h'; rfl
  · rw [if_neg hl] at h h'
    split at h
    · cases h
    · split at h'
      · cases h'
      · cases h; cases h'; rfl

theorem shapeProduct_agree {M M' : Machine} : ∀ (dims : List Nat) {acc x y : Nat}, shapeProduct M acc dims = .ok x →
    shapeProduct M' acc dims = .ok y → x = y
  | [], _, _, _, h, h' => by cases h; cases h'; rfl
  | k :: ks, acc, x, y, h, h' => by
    simp only [shapeProduct, Out.bind_eq_ok] at h h'
    obtain ⟨a, h1, h2⟩ := h
    obtain ⟨b, h3, h4⟩ := h'
    obtain rfl := mulU64_agree h1 h3
    exact shapeProduct_agree ks h2 h4

theorem prefixProducts_agree {M M' : Machine} : ∀ (dims : List Nat) {acc : Nat} {x y : List Nat}, prefixProducts M acc dims = .ok x →
    prefixProducts M' acc dims = .ok y → x = y
  | [], _, _, _, h, h' => by cases h; cases h'; rfl
  | k :: ks, acc, x, y, h, h' => by
    simp only [prefixProducts, Out.bind_eq_ok] at h h'
    obtain ⟨a, h1, r, h2, h3⟩ := h
    obtain ⟨b, h4, s, h5, h6⟩ := h'
    obtain rfl := mulU64_agree h1 h4
    obtain rfl := prefixProducts_agree ks h2 h5
    cases h3; cases h6; rfl

theorem computeStrides_agree {M M' : Machine} {o : Order} {dims x y : List Nat} (h : computeStrides M o dims = .ok x)
    (h' : computeStrides M' o dims = .ok y) : x = y := by
  cases o with
  | c =>
    simp only [computeStrides, Out.bind_eq_ok] at h h'
    obtain ⟨a, h1, h2⟩ := h
    obtain ⟨b, h3, h4⟩ := h'
    obtain rfl := prefixProducts_agree _ h1 h3
    cases h2; cases h4; rfl
  | fortran => exact prefixProducts_agree _ h h'

theorem itemSizeOf_agree {M M' : Machine} {d : DType} {x y : Option Nat} (h : itemSizeOf M d = .ok x) (h' : itemSizeOf M' d = .ok y) : x = y := by
  rcases itemSizeOf_ok_iff.mp h with ⟨h1, rfl⟩ | ⟨h1, -, n, h2, rfl⟩ <;>
    rcases itemSizeOf_ok_iff.mp h' with ⟨h3, rfl⟩ | ⟨h3, -, m, h4, rfl⟩
  · rfl
  · exact absurd h1 h3
  · exact absurd h3 h1
  · rw [h2] at h4; exact h4

theorem fromParts_agree {M M' : Machine} {d : DType} {shape : List Nat} {o : Order} {x y : NpyHeader}
    (h : NpyHeader.fromParts M d shape o = .ok x) (h' : NpyHeader.fromParts M' d shape o = .ok y) : x = y := by
  obtain ⟨a1, a2, a3, a4, a5, a6, a7⟩ := fromParts_ok h
  obtain ⟨b1, b2, b3, b4, b5, b6, b7⟩ := fromParts_ok h'
  have c4 := shapeProduct_agree _ a4 b4
  have c5 := computeStrides_agree a5 b5
  have c6 := itemSizeOf_agree a6 b6
  cases x; cases y
  simp only at *
  subst a1 a2 a3 a7 b1 b2 b3 b7 c4 c5 c6
  rfl

theorem interpretHeader_agree {M M' : Machine} {v : PyVal} {x y : NpyHeader} (h : interpretHeader M v = .ok x)
    (h' : interpretHeader M' v = .ok y) : x = y := by
  cases v with
  | dict kvs =>
    simp only [interpretHeader, Out.bind_eq_ok, interpretDict] at h h'
    obtain ⟨d, h1, fo, h2, o, h3, sh, h4, shape, h5, de, h6, dt, h7, h8⟩ := h
    obtain ⟨d', k1, fo', k2, o', k3, sh', k4, shape', k5, de', k6, dt', k7, k8⟩ := h'
    rw [h1] at k1; cases k1
    rw [h2] at k2; cases k2
    rw [h3] at k3; cases k3
    rw [h4] at k4; cases k4
    rw [h5] at k5; cases k5
    rw [h6] at k6; cases k6
    rw [h7] at k7; cases k7
    exact fromParts_agree h8 k8
  | _ => simp [interpretHeader] at h

theorem fromReader_agree {M M' : Machine} {py : PyParser} {bs r r' : Bytes} {x y : NpyHeader}
    (h : (NpyHeader.fromReader M py).run bs = (.ok x, r)) (h' : (NpyHeader.fromReader M' py).run bs = (.ok y, r')) : x = y ∧ r = r' := by
  unfold NpyHeader.fromReader readHeader at h h'
  simp only [RProg.run_bind_ok, RProg.run_lift, Prod.mk.injEq] at h h'
  obtain ⟨v, r1, ⟨a, r2, h1, p, r3, ⟨h2, rfl⟩, n, r4, h3, u, r5, ⟨h4, rfl⟩, text, r6, h5, h6, rfl⟩, h7, rfl⟩ := h
  obtain ⟨v', r1', ⟨a', r2', k1, p', r3', ⟨k2, rfl⟩, n', r4', k3, u', r5', ⟨k4, rfl⟩, text', r6', k5, k6, rfl⟩, k7, rfl⟩ := h'
  rw [h1] at k1; cases k1
  rw [h2] at k2; cases k2
  rw [h3] at k3; cases k3
  rw [h5] at k5; cases k5
  rw [h6] at k6; cases k6
  exact ⟨interpretHeader_agree h7 k7, rfl⟩

/-! ### Writing -/

theorem writeHeader_agree {M M' : Machine} {d : DType} {o : Order} {hint : ShapeHint} (hh : hint.Fits) :
    writeHeader M d o hint = writeHeader M' d o hint := by
  have : createDict M d o hint = createDict M' d o hint := by
    cases hint with
    | nd dims =>
      have hh : nonzeroProd dims < 2 ^ 64 := hh
      simp only [createDict, shapeProduct_exact (acc := 1) (by simpa using hh)]
    | oneD => rfl
    | twoD r => rfl
  unfold writeHeader
  rw [this]

theorem begin_agree {M M' : Machine} {t : Ty} {d : DType} {o : Order} {hint : ShapeHint} (hh : hint.Fits) {prog' : t.Val → WProg Unit}
    (hw' : t.writer M' d = .ok prog') {s s1 : Sink} {w : NpyWriter t.Val} (hb : (NpyWriter.begin M t d o hint).exec s = (.ok w, s1)) :
    ∃ w', (NpyWriter.begin M' t d o hint).exec s = (.ok w', s1) := by
  unfold NpyWriter.begin NpyWriter.beginWith at hb ⊢
  rw [writeHeader_agree hh (M' := M')] at hb
  rw [WProg.exec_bind] at hb ⊢
  rcases hx : (startPosition hint).exec s with ⟨(st | e | _), s2⟩ <;> rw [hx] at hb
  · simp only [WProg.andThen] at hb ⊢
    rw [WProg.exec_bind] at hb ⊢
    rcases hy : (writeHeader M' d o hint).exec s2 with ⟨(r | e | _), s3⟩ <;> rw [hy] at hb
    · simp only [WProg.andThen] at hb ⊢
      rw [hw']
      rcases hwm : t.writer M d with p | e | _
      · rw [hwm] at hb
        cases hb
        exact ⟨_, rfl⟩
      · rw [hwm] at hb; cases hb
      · rw [hwm] at hb; cases hb
    · cases hb
    · cases hb
  · cases hb
  · cases hb

theorem save_agree {M M' : Machine} {t : Ty} {d : DType} {size : Nat} (hd : d.Wf) (hn : exactBytes d = some size) (hm : size ≤ M.isizeMax)
    (hm' : size ≤ M'.isizeMax) {o : Order} {hint : ShapeHint} (hh : hint.Fits) (hw' : ∃ w, t.writer M' d = .ok w) {vs : List t.Val}
    (hc : vs.length < 2 ^ 64) {s s' : Sink} (hlt : hint.seeks = true → s.pos + dictBytes d o hint + 76 ≤ 2 ^ 64)
    (h : NpyWriter.save M solid t d o hint vs s = (.ok (), s')) : NpyWriter.save M' solid t d o hint vs s = (.ok (), s') := by
  obtain ⟨items, he, rfl, -, -, g3, g4, -⟩ := save_ok hd hn hm hc hlt h
  obtain ⟨prog', hw'⟩ := hw'
  rcases hb : (NpyWriter.begin M t d o hint).exec s with ⟨(w | e | _), s1⟩
  · obtain ⟨w', hb'⟩ := begin_agree hh hw' hb
    obtain ⟨hst, -, hk, -⟩ := begin_ok hb'
    rw [save_eq hd hn hm' hc hb' he]
    rcases finish_cases (hst.toBegun.count vs.length) hk hlt hc items with ⟨hz, -⟩ | ⟨-, hf, -⟩ | ⟨-, -, ⟨dims, n, rfl, h1, h2⟩ | ⟨r, rfl, h1⟩⟩
    · exact absurd rfl (g4 0 hz).1
    · exact hf
    · exact absurd (shapeProduct_agree _ h1 (g3 dims rfl)) h2
    · exact absurd (g4 r rfl).2 h1
  · have hb' : solid.exec (NpyWriter.begin M t d o hint) s = (.err e, s1) := hb
    unfold NpyWriter.save NpyWriter.saveWith at h; rw [hb'] at h; cases h
  · have hb' : solid.exec (NpyWriter.begin M t d o hint) s = (.panic, s1) := hb
    unfold NpyWriter.save NpyWriter.saveWith at h; rw [hb'] at h; cases h

/-! ### Reading -/

theorem new_agree {M M' : Machine} {py : PyParser} {src s s' : Src} {f f' : NpyFile Src} (h : NpyFile.new M py disk src = (.ok f, s))
    (h' : NpyFile.new M' py disk src = (.ok f', s')) : f = f' ∧ s = s' ∧ s = f.src ∧ Opened M f.header ∧ Opened M' f.header := by
  unfold NpyFile.new at h h'
  simp only [disk] at h h'
  rcases hx : (NpyHeader.fromReader M py).run src.rest with ⟨(x | e | _), r⟩
  · rcases hy : (NpyHeader.fromReader M' py).run src.rest with ⟨(y | e | _), r'⟩
    · obtain ⟨rfl, rfl⟩ := fromReader_agree hx hy
      rw [hx] at h
      rw [hy] at h'
      cases h; cases h'
      exact ⟨rfl, rfl, rfl, ⟨py, _, _, hx⟩, ⟨py, _, _, hy⟩⟩
    · rw [hy] at h'; cases h'
    · rw [hy] at h'; cases h'
  · rw [hx] at h; cases h
  · rw [hx] at h; cases h

end Npyz
