import Verif.Spec.Append
import Verif.Props.Crash
import Verif.Props.Panics
/-!
C131: writing to files opened for appending.
-/
set_option autoImplicit false
namespace Npyz.Props
open Npyz Spec Py

variable {M M' : Machine} {t : Ty}

theorem append_data (s : Sink) (b : Bytes) : (s.append b).data = s.data ++ b ∧ (s.append b).seekable = s.seekable := by
  unfold Sink.append
  by_cases h : b = []
  · subst h; simp
  · rw [if_neg h]; exact ⟨rfl, rfl⟩

/-- Nothing but appending ever happens to the file. -/
theorem appendExec_data {α : Type} (p : WProg α) (s : Sink) :
    (∃ more, (p.appendExec s).2.data = s.data ++ more) ∧ (p.appendExec s).2.seekable = s.seekable := by
  induction p generalizing s with
  | ret r => exact ⟨⟨[], by simp [WProg.appendExec]⟩, rfl⟩
  | write b k ih =>
    obtain ⟨⟨more, h1⟩, h2⟩ := ih (s.append b)
    rw [WProg.appendExec]
    refine ⟨⟨b ++ more, ?_⟩, h2.trans (append_data s b).2⟩
    rw [h1, (append_data s b).1, List.append_assoc]
  | tell k ih =>
    rw [WProg.appendExec]
    split
    · exact ih _ s
    · exact ⟨⟨[], by simp⟩, rfl⟩
  | seek p k ih =>
    rw [WProg.appendExec]
    split
    · exact ih _
    · exact ⟨⟨[], by simp⟩, rfl⟩
  | flush k ih => rw [WProg.appendExec]; exact ih s

theorem put_end {s : Sink} (h : s.pos = s.data.length) (b : Bytes) :
    (s.put b).data = s.data ++ b ∧ (s.put b).pos = (s.put b).data.length ∧ (s.put b).seekable = s.seekable := by
  unfold Sink.put
  by_cases hb : b = []
  · subst hb; simp [h]
  · rw [if_neg hb]
    simp [overwrite, h, List.drop_eq_nil_of_le]

/-- A file opened for appending, and a stream that stands at the end of the same contents. -/
def AtEnd (a b : Sink) : Prop := a.data = b.data ∧ b.pos = b.data.length ∧ a.seekable = b.seekable

theorem plain_atEnd {α : Type} {p : WProg α} (hp : p.Plain) {a b : Sink} (h : AtEnd a b) :
    (p.appendExec a).1 = (p.exec b).1 ∧ AtEnd (p.appendExec a).2 (p.exec b).2 := by
  induction hp generalizing a b with
  | ret r => exact ⟨rfl, h⟩
  | @write x k _ ih =>
    rw [WProg.appendExec, WProg.exec]
    obtain ⟨h1, h2, h3⟩ := put_end h.2.1 x
    obtain ⟨h4, h5⟩ := append_data a x
    exact ih ⟨by rw [h4, h1, h.1], h2, by rw [h5, h3, h.2.2]⟩
  | flush _ ih => rw [WProg.appendExec, WProg.exec]; exact ih h

theorem plain_result {α : Type} {p : WProg α} (hp : p.Plain) (a b : Sink) :
    (p.appendExec a).1 = (p.exec b).1 ∧ (p.exec b).2.seekable = b.seekable := by
  induction hp generalizing a b with
  | ret r => exact ⟨rfl, rfl⟩
  | @write x k _ ih =>
    rw [WProg.appendExec, WProg.exec]
    obtain ⟨h1, h2⟩ := ih (a.append x) (b.put x)
    refine ⟨h1, h2.trans ?_⟩
    unfold Sink.put; split <;> rfl
  | flush _ ih => rw [WProg.appendExec, WProg.exec]; exact ih a b

/-- Two streams on which programs that only write have the same results. -/
def Alike (R : Sink → Sink → Prop) : Prop :=
  ∀ {α : Type} (p : WProg α), p.Plain → ∀ a b, R a b → (p.appendExec a).1 = (p.exec b).1 ∧ R (p.appendExec a).2 (p.exec b).2

theorem extend_alike {R : Sink → Sink → Prop} (hR : Alike R) (vs : List t.Val) (w : NpyWriter t.Val) (hw : ∀ v, (w.prog v).Plain) (a b : Sink)
    (h : R a b) : ∃ r w' a' b', w.extend M appending vs a = (r, w', a') ∧ w.extend M solid vs b = (r, w', b') ∧ R a' b' ∧
      w'.info = w.info ∧ w'.startPos = w.startPos := by
  induction vs generalizing w a b with
  | nil => exact ⟨_, _, _, _, rfl, rfl, h, rfl, rfl⟩
  | cons v vs ih =>
    simp only [NpyWriter.extend, NpyWriter.push]
    rcases hc : w.counted M with w' | e | _
    · have hp : w'.prog = w.prog ∧ w'.info = w.info ∧ w'.startPos = w.startPos := by
        unfold NpyWriter.counted at hc
        rcases ha : M.addU64 w.numItems 1 with n | e | _ <;> rw [ha] at hc
        · cases hc; exact ⟨rfl, rfl, rfl⟩
        · cases hc
        · cases hc
      obtain ⟨h1, h2⟩ := hR (w'.prog v) (by rw [hp.1]; exact hw v) a b h
      simp only [appending, solid]
      rw [h1]
      rcases hx : ((w'.prog v).exec b).1 with ⟨⟩ | e | _
      · obtain ⟨r, w2, a', b', k1, k2, k3, k4, k5⟩ := ih w' (fun v => by rw [hp.1]; exact hw v) _ _ h2
        exact ⟨r, w2, a', b', k1, k2, k3, k4.trans hp.2.1, k5.trans hp.2.2⟩
      · exact ⟨_, _, _, _, rfl, rfl, h2, hp.2.1, hp.2.2⟩
      · exact ⟨_, _, _, _, rfl, rfl, h2, hp.2.1, hp.2.2⟩
    · exact ⟨_, _, _, _, rfl, rfl, h, rfl, rfl⟩
    · exact ⟨_, _, _, _, rfl, rfl, h, rfl, rfl⟩

theorem drop_alike {R : Sink → Sink → Prop} (hR : Alike R) {w : NpyWriter t.Val} {n : Nat} (hi : w.info = .known n) {a b : Sink} (h : R a b) :
    (w.drop M appending a).1 = (w.drop M solid b).1 ∧ R (w.drop M appending a).2 (w.drop M solid b).2 := by
  obtain ⟨h1, h2⟩ := hR _ (NpyWriter.finish_plain (M := M) hi) a b h
  unfold NpyWriter.drop
  simp only [appending, solid]
  rcases hx : (w.finish_ M).appendExec a with ⟨r, a'⟩
  rcases hy : (w.finish_ M).exec b with ⟨r', b'⟩
  rw [hx, hy] at h1 h2
  simp only at h1
  subst h1
  cases r <;> exact ⟨rfl, h2⟩

theorem finish_alike {R : Sink → Sink → Prop} (hR : Alike R) {w : NpyWriter t.Val} {n : Nat} (hi : w.info = .known n) {a b : Sink} (h : R a b) :
    (w.finish M appending a).1 = (w.finish M solid b).1 ∧ R (w.finish M appending a).2 (w.finish M solid b).2 := by
  obtain ⟨h1, h2⟩ := hR _ (NpyWriter.finish_plain (M := M) hi) a b h
  obtain ⟨h3, h4⟩ := drop_alike (M := M) hR hi h2
  unfold NpyWriter.finish
  simp only [appending, solid] at h3 h4 ⊢
  generalize hx : NpyWriter.drop M { exec := fun p s => p.appendExec s } w ((w.finish_ M).appendExec a).2 = x at h3 h4
  generalize hy : NpyWriter.drop M { exec := fun p s => p.exec s } w ((w.finish_ M).exec b).2 = y at h3 h4
  obtain ⟨r, a'⟩ := x
  obtain ⟨r', b'⟩ := y
  simp only at h3
  subst h3
  cases r
  · exact ⟨h1, h4⟩
  · exact ⟨h1, h4⟩
  · exact ⟨rfl, h4⟩

/-- C131, the part that holds: `begin_nd` with all values and `finish` on a file opened for appending do the same as on a stream that
stands at the end of the file: same result, same contents.  Missing: `begin_1d` and `begin_2d`, see `C131_lost`. -/
theorem C131_known_partial (d : DType) (o : Order) (dims : List Nat) (vs : List t.Val) (s : Sink) :
    (NpyWriter.save M appending t d o (.nd dims) vs s).1 = (NpyWriter.save M solid t d o (.nd dims) vs { s with pos := s.data.length }).1 ∧
    (NpyWriter.save M appending t d o (.nd dims) vs s).2.data =
      (NpyWriter.save M solid t d o (.nd dims) vs { s with pos := s.data.length }).2.data := by
  have hR : Alike AtEnd := fun p hp a b h => plain_atEnd hp h
  have h0 : AtEnd s { s with pos := s.data.length } := ⟨rfl, rfl, rfl⟩
  generalize ({ s with pos := s.data.length } : Sink) = b at h0
  have hp : (NpyWriter.begin M t d o (.nd dims)).Plain := (beginRest_straight M (t.writer M) d o (.nd dims) none).plain
  obtain ⟨h1, h2⟩ := plain_atEnd hp h0
  rcases hx : (NpyWriter.begin M t d o (.nd dims)).appendExec s with ⟨r, a'⟩
  rcases hy : (NpyWriter.begin M t d o (.nd dims)).exec b with ⟨r', b'⟩
  rw [hx, hy] at h1 h2
  simp only at h1 h2
  subst h1
  have hx' : appending.exec (NpyWriter.beginWith M (t.writer M) d o (.nd dims)) s = (r, a') := hx
  have hy' : solid.exec (NpyWriter.beginWith M (t.writer M) d o (.nd dims)) b = (r, b') := hy
  unfold NpyWriter.save NpyWriter.saveWith
  rw [hx', hy']
  rcases r with w | e | _
  · obtain ⟨hst, -⟩ := begin_ok hy
    obtain ⟨n, -, hi⟩ : ∃ n, shapeProduct M 1 dims = .ok n ∧ w.info = .known n := hst.info
    obtain ⟨r, w', a2, b2, k1, k2, k3, k4, -⟩ := extend_alike (M := M) hR vs w (fun v => (writer_straight t hst.prog v).plain) a' b' h2
    rw [hi] at k4
    simp only
    rw [k1, k2]
    rcases r with ⟨⟩ | e | _
    · obtain ⟨g1, g2⟩ := finish_alike (M := M) hR k4 k3
      exact ⟨g1, g2.1⟩
    · obtain ⟨g1, g2⟩ := drop_alike (M := M) hR k4 k3
      simp only
      rcases hx : w'.drop M appending a2 with ⟨q, a3⟩
      rcases hy : w'.drop M solid b2 with ⟨q', b3⟩
      rw [hx, hy] at g1 g2
      simp only at g1
      subst g1
      cases q <;> exact ⟨rfl, g2.1⟩
    · obtain ⟨g1, g2⟩ := drop_alike (M := M) hR k4 k3
      exact ⟨rfl, g2.1⟩
  · exact ⟨rfl, h2.1⟩
  · exact ⟨rfl, h2.1⟩

/-- What has happened to a file opened for appending. -/
def Grown (a a' : Sink) : Prop := (∃ more, a'.data = a.data ++ more) ∧ a'.seekable = a.seekable

theorem Grown.refl (a : Sink) : Grown a a := ⟨⟨[], by simp⟩, rfl⟩

theorem Grown.trans {a b c : Sink} (h : Grown a b) (h' : Grown b c) : Grown a c := by
  obtain ⟨⟨x, hx⟩, h1⟩ := h
  obtain ⟨⟨y, hy⟩, h2⟩ := h'
  exact ⟨⟨x ++ y, by rw [hy, hx, List.append_assoc]⟩, h2.trans h1⟩

theorem exec_grown {α : Type} (p : WProg α) (s : Sink) : Grown s (appending.exec p s).2 := appendExec_data p s

theorem push_grown (w : NpyWriter t.Val) (v : t.Val) (s : Sink) : Grown s (w.push M appending v s).2.2 := by
  unfold NpyWriter.push
  rcases w.counted M with w' | e | _
  · exact exec_grown _ _
  · exact .refl _
  · exact .refl _

theorem extend_grown (vs : List t.Val) (w : NpyWriter t.Val) (s : Sink) : Grown s (w.extend M appending vs s).2.2 := by
  induction vs generalizing w s with
  | nil => exact .refl _
  | cons v vs ih =>
    have h := push_grown (M := M) w v s
    rw [NpyWriter.extend]
    rcases hx : w.push M appending v s with ⟨r, w', s'⟩
    rw [hx] at h
    rcases r with ⟨⟩ | e | _
    · exact h.trans (ih w' s')
    · exact h
    · exact h

theorem drop_grown (w : NpyWriter t.Val) (s : Sink) : Grown s (w.drop M appending s).2 := by
  have h := exec_grown (w.finish_ M) s
  unfold NpyWriter.drop
  rcases hx : appending.exec (w.finish_ M) s with ⟨r, s'⟩
  rw [hx] at h
  cases r <;> exact h

theorem finish_grown (w : NpyWriter t.Val) (s : Sink) : Grown s (w.finish M appending s).2 := by
  have h := (exec_grown (w.finish_ M) s).trans (drop_grown (M := M) w (appending.exec (w.finish_ M) s).2)
  unfold NpyWriter.finish
  rcases hx : w.drop M appending (appending.exec (w.finish_ M) s).2 with ⟨r, s'⟩
  rw [hx] at h
  cases r <;> exact h

/-- What follows `begin` only appends. -/
theorem save_grown {d : DType} {o : Order} {hint : ShapeHint} {vs : List t.Val} {s : Sink} :
    Grown (appending.exec (NpyWriter.begin M t d o hint) s).2 (NpyWriter.save M appending t d o hint vs s).2 := by
  unfold NpyWriter.save NpyWriter.saveWith
  rcases hx : appending.exec (NpyWriter.beginWith M (t.writer M) d o hint) s with ⟨r, a⟩
  rcases r with w | e | _
  · simp only
    have h := extend_grown (M := M) vs w a
    rcases hy : w.extend M appending vs a with ⟨r, w', a'⟩
    rw [hy] at h
    rcases r with ⟨⟩ | e | _
    · exact h.trans (finish_grown w' a')
    · have h2 := h.trans (drop_grown (M := M) w' a')
      simp only
      rcases hz : w'.drop M appending a' with ⟨q, a2⟩
      rw [hz] at h2
      cases q <;> exact h2
    · exact h.trans (drop_grown w' a')
  · exact .refl _
  · exact .refl _

/-- C131: so what is read back from where the file ended before is what was written, and what was there before is still there. -/
theorem C131_reads_back_partial (hM' : M'.Wf) {py : PyParser} (hpy : py.ExtendsRef) {d : DType} {size : Nat}
    (hd : d.Wf) (hn : exactBytes d = some size) (hm : size ≤ M.isizeMax) (hm' : size ≤ M'.isizeMax) (hf : AllFit M'.usizeLim d)
    (hp : ∃ p, t.reader M' d = .ok p) {o : Order} {dims : List Nat} (hdims : ∀ k ∈ dims, k < 2 ^ 64) (hprod : nonzeroProd dims < 2 ^ 64)
    (hmem : dictBytes d o (.nd dims) + 76 ≤ M'.isizeMax) {vs : List t.Val} (hc : vs.length < 2 ^ 64) {s s' : Sink}
    (h : NpyWriter.save M appending t d o (.nd dims) vs s = (.ok (), s')) :
    ReadsBack M' py t s'.data s.data.length d dims o (vs.map (readBack t d)) ∧ s'.data.take s.data.length = s.data := by
  obtain ⟨h1, h2⟩ := C131_known_partial (M := M) d o dims vs s
  rw [h] at h1 h2
  rcases hx : NpyWriter.save M solid t d o (.nd dims) vs { s with pos := s.data.length } with ⟨r, b⟩
  rw [hx] at h1 h2
  simp only at h1 h2
  subst h1
  refine ⟨h2 ▸ (C39_round_trip hM' hpy hd hn hm hm' hf hp hdims hprod hmem hc hx).2, ?_⟩
  obtain ⟨⟨more, hm⟩, -⟩ := (exec_grown (NpyWriter.begin M t d o (.nd dims)) s).trans (save_grown (M := M) (t := t) (d := d) (o := o) (hint := .nd dims) (vs := vs) (s := s))
  rw [h] at hm
  rw [hm]
  simp

/-- A program whose result does not depend on the positions it asks for. -/
inductive Ends {α : Type} : WProg α → Res α → Prop where
  | ret (r) : Ends (.ret r) r
  | write {b k r} : Ends k r → Ends (.write b k) r
  | tell {k r} : (∀ n, Ends (k n) r) → Ends (.tell k) r
  | seek {p k r} : Ends k r → Ends (.seek p k) r
  | flush {k r} : Ends k r → Ends (.flush k) r

theorem Ends.appendExec {α : Type} {p : WProg α} {r : Res α} (h : Ends p r) {s : Sink} (hs : s.seekable = true) : (p.appendExec s).1 = r := by
  induction h generalizing s with
  | ret r => rfl
  | @write b k r _ ih => rw [WProg.appendExec]; exact ih ((append_data s b).2.trans hs)
  | tell _ ih => rw [WProg.appendExec, if_pos hs]; exact ih _ hs
  | seek _ ih => rw [WProg.appendExec, if_pos hs]; exact ih hs
  | flush _ ih => rw [WProg.appendExec]; exact ih hs

theorem Ends.exec {α : Type} {p : WProg α} {r : Res α} (h : Ends p r) {s : Sink} (hs : s.seekable = true) : (p.exec s).1 = r := by
  induction h generalizing s with
  | ret r => rfl
  | @write b k r _ ih => rw [WProg.exec]; exact ih (by unfold Sink.put; split <;> exact hs)
  | tell _ ih => rw [WProg.exec, if_pos hs]; exact ih _ hs
  | seek _ ih => rw [WProg.exec, if_pos hs]; exact ih hs
  | flush _ ih => rw [WProg.exec]; exact ih hs

theorem exec_seekable {α : Type} (p : WProg α) (s : Sink) : (p.exec s).2.seekable = s.seekable := by
  induction p generalizing s with
  | ret r => rfl
  | write b k ih => rw [WProg.exec, ih]; unfold Sink.put; split <;> rfl
  | tell k ih => rw [WProg.exec]; split <;> first | exact ih _ s | rfl
  | seek p k ih => rw [WProg.exec]; split <;> first | exact ih _ | rfl
  | flush k ih => rw [WProg.exec]; exact ih s

theorem Ends.bind {α β : Type} {p : WProg α} {f : α → WProg β} (hp : ∃ r, Ends p r) (hf : ∀ a, ∃ r, Ends (f a) r) : ∃ r, Ends (p >>= f) r := by
  obtain ⟨r, hr⟩ := hp
  have : ∃ r', ∀ q, Ends q r → Ends (q.bind f) r' := by
    cases r with
    | ok a =>
      obtain ⟨r', hr'⟩ := hf a
      refine ⟨r', fun q hq => ?_⟩
      generalize hx : (Out.ok a : Res α) = x at hq
      induction hq with
      | ret r => subst hx; exact hr'
      | write _ ih => exact .write (ih hx)
      | tell _ ih => exact .tell fun n => ih n hx
      | seek _ ih => exact .seek (ih hx)
      | flush _ ih => exact .flush (ih hx)
    | err e =>
      refine ⟨.err e, fun q hq => ?_⟩
      generalize hx : (Out.err e : Res α) = x at hq
      induction hq with
      | ret r => subst hx; exact .ret _
      | write _ ih => exact .write (ih hx)
      | tell _ ih => exact .tell fun n => ih n hx
      | seek _ ih => exact .seek (ih hx)
      | flush _ ih => exact .flush (ih hx)
    | panic =>
      refine ⟨.panic, fun q hq => ?_⟩
      generalize hx : (Out.panic : Res α) = x at hq
      induction hq with
      | ret r => subst hx; exact .ret _
      | write _ ih => exact .write (ih hx)
      | tell _ ih => exact .tell fun n => ih n hx
      | seek _ ih => exact .seek (ih hx)
      | flush _ ih => exact .flush (ih hx)
  obtain ⟨r', h⟩ := this
  exact ⟨r', h p hr⟩

theorem rewrite_ends (w : NpyWriter t.Val) (offset : Nat) (suffix : Res Text) : ∃ r, Ends (w.rewrite M offset suffix) r := by
  unfold NpyWriter.rewrite
  refine Ends.bind ⟨_, .ret _⟩ fun start => Ends.bind ⟨_, .ret _⟩ fun p => Ends.bind ⟨_, .ret _⟩ fun q => ?_
  cases suffix with
  | ok text => exact ⟨.ok (), .tell fun n => .seek (.write (.seek (.ret _)))⟩
  | err e => exact ⟨.err e, .tell fun n => .seek (.ret _)⟩
  | panic => exact ⟨.panic, .tell fun n => .seek (.ret _)⟩

theorem finish_ends (w : NpyWriter t.Val) : ∃ r, Ends (w.finish_ M) r := by
  unfold NpyWriter.finish_
  refine Ends.bind ?_ fun _ => ⟨.ok (), .flush (.ret _)⟩
  unfold NpyWriter.patch
  cases w.info with
  | known n => exact ⟨_, .ret _⟩
  | auto1 offset => exact rewrite_ends w _ _
  | auto2 offset recordLen order => exact Ends.bind ⟨_, .ret _⟩ fun n => rewrite_ends w _ _

theorem finish_same (w : NpyWriter t.Val) {a b : Sink} (ha : a.seekable = true) (hb : b.seekable = true) :
    (w.finish M appending a).1 = (w.finish M solid b).1 := by
  obtain ⟨r, hr⟩ := finish_ends (M := M) w
  have h1 : ∀ {a : Sink}, a.seekable = true → (appending.exec (w.finish_ M) a).1 = r := fun h => hr.appendExec h
  have h2 : ∀ {b : Sink}, b.seekable = true → (solid.exec (w.finish_ M) b).1 = r := fun h => hr.exec h
  have d1 : ∀ {a : Sink}, a.seekable = true → (w.drop M appending a).1 = match r with | .panic => .panic | _ => .ok () := by
    intro a ha
    unfold NpyWriter.drop
    have := h1 ha
    rcases hx : appending.exec (w.finish_ M) a with ⟨q, a'⟩
    rw [hx] at this
    simp only at this
    subst this
    cases q <;> rfl
  have d2 : ∀ {b : Sink}, b.seekable = true → (w.drop M solid b).1 = match r with | .panic => .panic | _ => .ok () := by
    intro a ha
    unfold NpyWriter.drop
    have := h2 ha
    rcases hx : solid.exec (w.finish_ M) a with ⟨q, a'⟩
    rw [hx] at this
    simp only at this
    subst this
    cases q <;> rfl
  unfold NpyWriter.finish
  have e1 := d1 (a := (appending.exec (w.finish_ M) a).2) ((exec_grown _ _).2.trans ha)
  have e2 := d2 (b := (solid.exec (w.finish_ M) b).2) ((exec_seekable _ _).trans hb)
  rw [h1 ha, h2 hb]
  rcases hx : w.drop M appending (appending.exec (w.finish_ M) a).2 with ⟨q, a'⟩
  rcases hy : w.drop M solid (solid.exec (w.finish_ M) b).2 with ⟨q', b'⟩
  rw [hx] at e1
  rw [hy] at e2
  simp only at e1 e2
  subst e1
  subst e2
  cases r <;> rfl

theorem append_emits {α : Type} {p : WProg α} {bs : Bytes} {r : Res α} (h : p.Emits bs r) (s : Sink) : p.appendExec s = (r, s.append bs) := by
  induction h generalizing s with
  | ret r => simp [WProg.appendExec, Sink.append]
  | @write b k bs r _ ih =>
    rw [WProg.appendExec, ih]
    congr 1
    unfold Sink.append
    by_cases h1 : b = []
    · subst h1; simp
    · by_cases h2 : bs = []
      · subst h2; simp
      · simp [h1, h2]; omega

/-- C131 is violated for every array and every element type: whenever an array could be written with `begin_1d` or `begin_2d` to an
ordinary file, then writing it to the same file opened for appending is reported as successful too; but there is no array in the file. -/
theorem C131_lost {py : PyParser} {d : DType} {o : Order} (hpy : py.StrictAfter (dictPrefix d o)) {hint : ShapeHint}
    (hs : hint.seeks = true) (hmem : dictBytes d o hint + 76 ≤ M'.isizeMax) {vs : List t.Val} {s s1 : Sink}
    (h : NpyWriter.save M solid t d o hint vs s = (.ok (), s1)) :
    ∃ s', NpyWriter.save M appending t d o hint vs s = (.ok (), s') ∧ s'.data.take s.data.length = s.data ∧
      Unreadable M' py s'.data s.data.length := by
  obtain ⟨hb, w, b, hy⟩ : s.seekable = true ∧ ∃ w b, (NpyWriter.begin M t d o hint).exec s = (.ok w, b) := by
    unfold NpyWriter.save NpyWriter.saveWith at h
    rcases hy : solid.exec (NpyWriter.beginWith M (t.writer M) d o hint) s with ⟨r, b⟩
    rw [hy] at h
    rcases r with w | e | _
    · exact ⟨(begin_ok hy).2.2.1 hs, w, b, hy⟩
    · cases h
    · cases h
  obtain ⟨hst, -, -, hbs⟩ := begin_ok hy
  obtain ⟨bs, r, hem⟩ := beginRest_straight M (t.writer M) d o hint (some s.pos)
  have hex : ∀ s0 : Sink, s0.seekable = true → s0.pos = s.pos → (NpyWriter.begin M t d o hint).exec s0 = (r, s0.put bs) := by
    intro s0 h1 h2
    show (NpyWriter.beginWith M (t.writer M) d o hint).exec s0 = _
    rw [begin_seeks hs, WProg.exec, if_pos h1, h2]
    exact hem.exec s0
  have hr : r = .ok w := by have := hex s hb rfl; rw [hy] at this; exact (Prod.mk.inj this).1.symm
  subst hr
  have hbytes : bs = headerBytes (dictText d o hint) := by
    have h1 := hex ⟨[], s.pos, true⟩ rfl rfl
    have h2 := (begin_ok h1).2.2.2
    have h3 := Sink.put_fresh (s := ⟨[], s.pos, true⟩) (Nat.zero_le _) bs
    rw [h2, Sink.put_fresh (s := ⟨[], s.pos, true⟩) (Nat.zero_le _)] at h3
    exact h3.symm
  have hap : (NpyWriter.begin M t d o hint).appendExec s = (.ok w, s.append bs) := by
    show (NpyWriter.beginWith M (t.writer M) d o hint).appendExec s = _
    rw [begin_seeks hs, WProg.appendExec, if_pos hb]
    exact append_emits hem s
  have hR : Alike (fun a b => a.seekable = true ∧ b.seekable = true) := fun p hp a b h =>
    ⟨(plain_result hp a b).1, (appendExec_data p a).2.trans h.1, (plain_result hp a b).2.trans h.2⟩
  obtain ⟨r, w', a2, b2, k1, k2, k3, -, -⟩ := extend_alike (M := M) hR vs w (fun v => (writer_straight t hst.prog v).plain) (s.append bs) b
    ⟨(append_data s bs).2.trans hb, by rw [hbs]; unfold Sink.put; split <;> exact hb⟩
  have hap' : appending.exec (NpyWriter.beginWith M (t.writer M) d o hint) s = (.ok w, s.append bs) := hap
  have hy' : solid.exec (NpyWriter.beginWith M (t.writer M) d o hint) s = (.ok w, b) := hy
  have hg := save_grown (M := M) (t := t) (d := d) (o := o) (hint := hint) (vs := vs) (s := s)
  have hres : (NpyWriter.save M appending t d o hint vs s).1 = .ok () := by
    unfold NpyWriter.save NpyWriter.saveWith at h ⊢
    rw [hap']
    rw [hy'] at h
    simp only at h ⊢
    rw [k1]
    rw [k2] at h
    rcases r with ⟨⟩ | e | _
    · simp only at h ⊢
      rw [finish_same w' k3.1 k3.2, h]
    · simp only at h
      rcases hz : w'.drop M solid b2 with ⟨q, b3⟩
      rw [hz] at h
      cases q <;> cases h
    · cases h
  rcases hsv : NpyWriter.save M appending t d o hint vs s with ⟨q, s'⟩
  rw [hsv] at hres hg
  simp only at hres
  subst hres
  obtain ⟨⟨more, hmore⟩, -⟩ := hg
  rw [show (appending.exec (NpyWriter.begin M t d o hint) s).2 = s.append bs from congrArg Prod.snd hap, (append_data s bs).1, List.append_assoc] at hmore
  refine ⟨s', rfl, by rw [hmore]; simp, ?_⟩
  have hl := headerBytes_le d o hint
  have hfits := hst.hdrFits
  have hht : (headerText (dictText d o hint)).length ≤ M'.isizeMax := by
    rw [headerBytes_length] at hl; omega
  have hdt : dictText d o hint = dictPrefix d o ++ placeholder o hint := by rw [dictText_suffix hs, suffixText_filler]
  rw [hdt] at hfits hht
  obtain ⟨e, he⟩ := run_rejected (M := M') hpy (placeholder_chars o hint) (placeholder_rejected (isArray_false.mp hst.isArray) o hs) hfits hht more
  refine ⟨e, new_err ?_⟩
  rw [hmore, List.drop_left, hbytes, hdt]
  exact he

/-- Two numbers, written to a file with some contents that was opened for appending (so its position is 0). -/
def appendSave (hint : ShapeHint) : Res Unit × Sink :=
  NpyWriter.save ⟨false, 64, true⟩ appending f64 (.plain ⟨.little, .float, 8, none⟩) .c hint [1#64, 2#64] ⟨[7, 7, 7], 0, true⟩

/-- C131 is violated: writing two numbers with `begin_1d` to a file opened for appending succeeds, and the array is lost. -/
theorem C131_violated : ∃ s', appendSave .oneD = (.ok (), s') ∧ Unreadable ⟨false, 64, true⟩ Py.parse s'.data 3 := by
  have h : (NpyWriter.save ⟨false, 64, true⟩ solid f64 (.plain ⟨.little, .float, 8, none⟩) .c .oneD [1#64, 2#64] ⟨[7, 7, 7], 0, true⟩).1 = .ok () := by
    decide +kernel
  rcases hx : NpyWriter.save ⟨false, 64, true⟩ solid f64 (.plain ⟨.little, .float, 8, none⟩) .c .oneD [1#64, 2#64] ⟨[7, 7, 7], 0, true⟩ with ⟨r, s1⟩
  rw [hx] at h
  cases h
  obtain ⟨s', h1, -, h2⟩ := C131_lost (M' := ⟨false, 64, true⟩) (py := Py.parse) (fun _ _ h => h) rfl (by decide +kernel) hx
  exact ⟨s', h1, h2⟩

/-! ### Concrete cases -/

/-- C131_known_partial, C131_reads_back_partial: the same two numbers with a known shape are found behind the old contents. -/
example : ∃ s', appendSave (.nd [2]) = (.ok (), s') ∧
    ReadsBack ⟨true, 64, false⟩ Py.parse f64 s'.data 3 (.plain ⟨.little, .float, 8, none⟩) [2] .c
      (([1#64, 2#64] : List f64.Val).map (readBack f64 (.plain ⟨.little, .float, 8, none⟩))) ∧ s'.data.take 3 = [7, 7, 7] := by
  have h : (appendSave (.nd [2])).1 = .ok () := by decide +kernel
  rcases hx : appendSave (.nd [2]) with ⟨r, s'⟩
  rw [hx] at h
  cases h
  obtain ⟨h1, h2⟩ := C131_reads_back_partial (M' := ⟨true, 64, false⟩) (py := Py.parse) (.inr rfl) (fun _ _ h => h) f8_wf rfl (by decide) (by decide)
    (f8_fits _ (by decide)) ⟨_, rfl⟩ (by decide) (by decide) (by decide +kernel) (by decide) hx
  exact ⟨s', rfl, h1, h2⟩

/-- C131_lost: two columns of two numbers, with `begin_2d`. -/
example : ∃ s', NpyWriter.save ⟨false, 64, true⟩ appending f64 (.plain ⟨.little, .float, 8, none⟩) .fortran (.twoD 2) [1#64, 2#64, 3#64, 4#64] ⟨[7], 1, true⟩ = (.ok (), s') ∧
    Unreadable ⟨true, 64, false⟩ Py.parse s'.data 1 := by
  have h : (NpyWriter.save ⟨false, 64, true⟩ solid f64 (.plain ⟨.little, .float, 8, none⟩) .fortran (.twoD 2) [1#64, 2#64, 3#64, 4#64] ⟨[7], 1, true⟩).1 = .ok () := by
    decide +kernel
  rcases hx : NpyWriter.save ⟨false, 64, true⟩ solid f64 (.plain ⟨.little, .float, 8, none⟩) .fortran (.twoD 2) [1#64, 2#64, 3#64, 4#64] ⟨[7], 1, true⟩ with ⟨r, s1⟩
  rw [hx] at h
  cases h
  obtain ⟨s', h1, -, h2⟩ := C131_lost (M' := ⟨true, 64, false⟩) (py := Py.parse) (fun _ _ h => h) rfl (by decide +kernel) hx
  exact ⟨s', h1, h2⟩

-- the two rewritten shapes (of `finish` and of the drop) are at the end of the file
example : (appendSave .oneD).2.data.drop 147 = encodeUtf8 "2,), }                   2,), }                   ".toList := by decide +kernel

end Npyz.Props
