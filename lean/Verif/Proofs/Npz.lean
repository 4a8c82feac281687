import Verif.Model.Npz
import Verif.Proofs.Finish
/-! Archives. -/
namespace Npyz
open Spec Py

/-! ### Names -/

theorem cutAtNul_append (name rest : Text) (h : '\x00' ∉ name) : cutAtNul (name ++ rest) = name ++ cutAtNul rest := by
  induction name with
  | nil => rfl
  | cons c cs ih =>
    have hc : c ≠ '\x00' := fun e => h (by simp [e])
    have h' : '\x00' ∉ cs := fun e => h (by simp [e])
    show List.takeWhile _ (c :: (cs ++ rest)) = _
    rw [List.takeWhile_cons, if_pos (by simpa using hc)]
    exact congrArg (c :: ·) (ih h')

theorem cutAtNul_nul (name rest : Text) : (cutAtNul (name ++ '\x00' :: rest)) = cutAtNul name := by
  induction name with
  | nil => rfl
  | cons c cs ih =>
    show List.takeWhile _ (c :: (cs ++ _)) = List.takeWhile _ (c :: cs)
    rw [List.takeWhile_cons, List.takeWhile_cons]
    split
    · exact congrArg (c :: ·) ih
    · rfl

theorem cutAtNul_noNul (path : Text) : '\x00' ∉ cutAtNul path := by
  intro h
  have := List.all_eq_true.mp (List.all_takeWhile (l := path) (p := fun c => !(c == '\x00'))) '\x00' h
  simp at this

theorem cutAtNul_self {path : Text} (h : '\x00' ∉ path) : cutAtNul path = path := by
  have := cutAtNul_append path [] h
  simpa [cutAtNul] using this

/-- What the cut removes. -/
theorem cutAtNul_split (path : Text) : path = cutAtNul path ∨ ∃ rest, path = cutAtNul path ++ '\x00' :: rest := by
  induction path with
  | nil => exact .inl rfl
  | cons c cs ih =>
    by_cases hc : c = '\x00'
    · subst hc; exact .inr ⟨cs, rfl⟩
    · have e : cutAtNul (c :: cs) = c :: cutAtNul cs := by
        show List.takeWhile _ (c :: cs) = _
        rw [List.takeWhile_cons, if_pos (by simpa using hc)]
        rfl
      rw [e]
      rcases ih with h | ⟨rest, h⟩
      · exact .inl (congrArg (c :: ·) h)
      · exact .inr ⟨rest, congrArg (c :: ·) h⟩

theorem arrayName_iff (path n : Text) :
    arrayNameFromFileName path = some n ↔ cutAtNul path = n ++ txt ".npy" := by
  have hl : (txt ".npy").length = 4 := by decide +kernel
  unfold arrayNameFromFileName
  constructor
  · intro h
    split at h
    · next hs =>
      cases h
      obtain ⟨q, hq⟩ := List.isSuffixOf_iff_suffix.mp hs
      rw [← hq, List.length_append, hl, Nat.add_sub_cancel, List.take_left' rfl]
    · cases h
  · intro h
    rw [h, if_pos (List.isSuffixOf_iff_suffix.mpr ⟨n, rfl⟩), List.length_append, hl, Nat.add_sub_cancel, List.take_left' rfl]

theorem nul_npy : '\x00' ∉ txt ".npy" := by decide +kernel

theorem fileName_inj {a b : Text} (h : fileNameFromArrayName a = fileNameFromArrayName b) : a = b := List.append_cancel_right h

theorem displayInt_inj {a b : Int} (h : displayInt a = displayInt b) : a = b := by
  have inj : ∀ m n : Nat, Nat.toDigits 10 m = Nat.toDigits 10 n → m = n := by
    intro m n e
    have := congrArg (fun l => Nat.ofDigitChars 10 l 0) e
    simpa [Nat.ofDigitChars_ten_toDigits] using this
  have neg : ∀ m n : Nat, Nat.toDigits 10 m ≠ '-' :: Nat.toDigits 10 n := by
    intro m n e
    have : '-' ∈ Nat.toDigits 10 m := by rw [e]; simp
    have := Nat.isDigit_of_mem_toDigits (by decide) (by decide) this
    revert this; decide
  match a, b, h with
  | .ofNat m, .ofNat n, h => rw [inj m n h]
  | .ofNat m, .negSucc n, h => exact absurd h (neg _ _)
  | .negSucc m, .ofNat n, h => exact absurd h.symm (neg _ _)
  | .negSucc m, .negSucc n, h =>
    have := inj _ _ (List.cons.inj h).2
    rw [Nat.add_right_cancel this]

theorem displayInt_noNul (i : Int) : '\x00' ∉ displayInt i := by
  have : ∀ n : Nat, '\x00' ∉ Nat.toDigits 10 n := by
    intro n h
    have := Nat.isDigit_of_mem_toDigits (by decide) (by decide) h
    revert this; decide
  match i with
  | .ofNat m => exact this m
  | .negSucc m =>
    intro h
    rcases List.mem_cons.mp h with h | h
    · revert h; decide
    · exact this _ h

/-! ### Members -/

theorem find_append (ms : List (Text × Bytes)) (m : Text × Bytes) (file : Text) :
    (NpzArchive.mk (ms ++ [m])).find file = if m.1 = file then some m.2 else (NpzArchive.mk ms).find file := by
  unfold NpzArchive.find
  rw [List.reverse_append]
  show Option.map _ (List.find? _ (m :: ms.reverse)) = _
  rw [List.find?_cons]
  by_cases h : m.1 = file
  · rw [if_pos h]
    have : (m.1 == file) = true := by simpa using h
    rw [this]; rfl
  · rw [if_neg h]
    have : (m.1 == file) = false := by simpa using h
    rw [this]

theorem find_none (a : NpzArchive) (file : Text) : a.find file = none ↔ ∀ m ∈ a.members, m.1 ≠ file := by
  unfold NpzArchive.find
  rw [Option.map_eq_none_iff, List.find?_eq_none]
  constructor
  · intro h m hm
    have := h m (List.mem_reverse.mpr hm)
    simpa using this
  · intro h m hm
    have := h m (List.mem_reverse.mp hm)
    simpa using this

theorem nodup_eraseDups (l : List Text) : l.eraseDups.Nodup := by
  match l with
  | [] => simp
  | x :: xs =>
    rw [List.eraseDups_cons]
    refine List.nodup_cons.mpr ⟨?_, nodup_eraseDups _⟩
    rw [List.mem_eraseDups, List.mem_filter]
    simp
termination_by l.length
decreasing_by
  have := List.length_filter_le (fun b => !b == x) xs
  simp only [List.length_cons]
  omega

theorem mem_fileNames (a : NpzArchive) (file : Text) : file ∈ a.fileNames ↔ ∃ m ∈ a.members, m.1 = file := by
  unfold NpzArchive.fileNames
  rw [List.mem_eraseDups, List.mem_map]

theorem mem_arrayNames (a : NpzArchive) (n : Text) :
    n ∈ a.arrayNames ↔ ∃ m ∈ a.members, cutAtNul m.1 = n ++ txt ".npy" := by
  unfold NpzArchive.arrayNames
  rw [List.mem_filterMap]
  constructor
  · rintro ⟨file, h1, h2⟩
    obtain ⟨m, hm, rfl⟩ := (mem_fileNames a file).mp h1
    exact ⟨m, hm, (arrayName_iff _ _).mp h2⟩
  · rintro ⟨m, hm, h⟩
    exact ⟨m.1, (mem_fileNames a _).mpr ⟨m, hm, rfl⟩, (arrayName_iff _ _).mpr h⟩

theorem byName_find {M : Machine} {py : PyParser} {a : NpzArchive} {name : Text} {content : Bytes}
    (h : a.find (fileNameFromArrayName name) = some content) : a.byName M py name = NpzArchive.openMember M py content := by
  unfold NpzArchive.byName; rw [h]

theorem byName_none {M : Machine} {py : PyParser} {a : NpzArchive} {name : Text}
    (h : a.find (fileNameFromArrayName name) = none) : a.byName M py name = .ok none := by
  unfold NpzArchive.byName; rw [h]

/-! ### Streams that behave alike -/

/-- `f` translates the states of `T` to states of `T'` that behave in the same way. -/
structure Alike {σ τ : Type} (T : Target σ) (T' : Target τ) (f : σ → τ) : Prop where
  exec : ∀ {α : Type} (p : WProg α) (s : σ), T'.exec p (f s) = ((T.exec p s).1, f (T.exec p s).2)

section
variable {σ τ : Type} {T : Target σ} {T' : Target τ} {f : σ → τ} {M : Machine} {t : Ty}

theorem Alike.push (h : Alike T T' f) (w : NpyWriter t.Val) (v : t.Val) (s : σ) :
    w.push M T' v (f s) = ((w.push M T v s).1, (w.push M T v s).2.1, f (w.push M T v s).2.2) := by
  unfold NpyWriter.push
  cases w.counted M with
  | ok w' => simp only [h.exec]
  | err e => rfl
  | panic => rfl

theorem Alike.extend (h : Alike T T' f) : ∀ (vs : List t.Val) (w : NpyWriter t.Val) (s : σ),
    w.extend M T' vs (f s) = ((w.extend M T vs s).1, (w.extend M T vs s).2.1, f (w.extend M T vs s).2.2) := by
  intro vs
  induction vs with
  | nil => intro w s; rfl
  | cons v vs ih =>
    intro w s
    simp only [NpyWriter.extend]
    rw [h.push w v s]
    rcases w.push M T v s with ⟨(⟨⟩ | e | _), w', s'⟩
    · exact ih w' s'
    · rfl
    · rfl

theorem Alike.drop (h : Alike T T' f) (w : NpyWriter t.Val) (s : σ) :
    w.drop M T' (f s) = ((w.drop M T s).1, f (w.drop M T s).2) := by
  unfold NpyWriter.drop
  rw [h.exec]
  rcases T.exec (w.finish_ M) s with ⟨(⟨⟩ | e | _), s'⟩ <;> rfl

theorem Alike.finish (h : Alike T T' f) (w : NpyWriter t.Val) (s : σ) :
    w.finish M T' (f s) = ((w.finish M T s).1, f (w.finish M T s).2) := by
  unfold NpyWriter.finish
  rw [h.exec, h.drop]
  rcases w.drop M T (T.exec (w.finish_ M) s).2 with ⟨(⟨⟩ | e | _), s'⟩ <;> rfl

theorem Alike.save (h : Alike T T' f) (d : DType) (o : Order) (hint : ShapeHint) (vs : List t.Val) (s : σ) :
    NpyWriter.save M T' t d o hint vs (f s) =
      ((NpyWriter.save M T t d o hint vs s).1, f (NpyWriter.save M T t d o hint vs s).2) := by
  unfold NpyWriter.save NpyWriter.saveWith
  rw [h.exec]
  rcases T.exec (NpyWriter.begin M t d o hint) s with ⟨(w | e | _), s'⟩
  · simp only
    rw [h.extend]
    rcases w.extend M T vs s' with ⟨(⟨⟩ | e | _), w', s''⟩
    · exact h.finish w' s''
    · simp only
      rw [h.drop]
      rcases w'.drop M T s'' with ⟨(⟨⟩ | e | _), s3⟩ <;> rfl
    · simp only
      rw [h.drop]
  · rfl
  · rfl

theorem Alike.saveDropped (h : Alike T T' f) (d : DType) (o : Order) (hint : ShapeHint) (vs : List t.Val) (s : σ) :
    NpyWriter.saveDropped M T' t d o hint vs (f s) =
      ((NpyWriter.saveDropped M T t d o hint vs s).1, f (NpyWriter.saveDropped M T t d o hint vs s).2) := by
  unfold NpyWriter.saveDropped
  rw [h.exec]
  rcases T.exec (NpyWriter.begin M t d o hint) s with ⟨(w | e | _), s'⟩
  · simp only
    rw [h.extend, h.drop]
    rcases (w.extend M T vs s').2.1.drop M T (w.extend M T vs s').2.2 with ⟨(⟨⟩ | e | _), s3⟩ <;> rfl
  · rfl
  · rfl

end

/-- A plain `Write` sink. -/
def plainSink (c : Bytes) : Sink := ⟨c, c.length, false⟩

theorem plainSink_put (c b : Bytes) : (plainSink c).put b = plainSink (c ++ b) := by
  unfold Sink.put plainSink
  by_cases h : b = []
  · rw [if_pos h, h, List.append_nil]
  · rw [if_neg h]
    simp only [overwrite, Nat.sub_self, List.replicate_zero, List.append_nil, List.take_length, List.length_append, Sink.mk.injEq,
      and_true]
    rw [List.drop_eq_nil_of_le (by omega), List.append_nil]

theorem exec_plain {α : Type} (p : WProg α) : ∀ c : Bytes, ∃ c', (p.exec (plainSink c)).2 = plainSink c' := by
  induction p with
  | ret r => intro c; exact ⟨c, rfl⟩
  | write b k ih =>
    intro c
    obtain ⟨c', h⟩ := ih (c ++ b)
    exact ⟨c', by rw [WProg.exec, plainSink_put]; exact h⟩
  | tell k ih => intro c; exact ⟨c, rfl⟩
  | seek p k ih => intro c; exact ⟨c, rfl⟩
  | flush k ih => intro c; exact ih c

theorem plain_solid : Alike plainStream solid plainSink := by
  constructor
  intro α p s
  obtain ⟨c', h⟩ := exec_plain p s
  show p.exec (plainSink s) = ((p.exec (plainSink s)).1, plainSink (p.exec (plainSink s)).2.data)
  rw [h]
  show p.exec (plainSink s) = ((p.exec (plainSink s)).1, plainSink c')
  rw [← h]

/-- The open member of an archive is such a stream. -/
theorem plain_zip (ms : List (Text × Bytes)) (file : Text) : Alike plainStream zipStream fun c => ⟨ms ++ [(file, c)]⟩ := by
  constructor
  intro α p s
  simp only [zipStream, List.getLast?_append, List.getLast?_singleton, Option.some_or, List.dropLast_concat]

/-- A session on an archive, in terms of a session on a sink. -/
theorem zip_save {M : Machine} {t : Ty} {d : DType} {o : Order} {hint : ShapeHint} {vs : List t.Val} {z : NpzWriter} {name : Text} :
    ∃ c, NpyWriter.save M solid t d o hint vs (plainSink []) = ((NpyWriter.save M zipStream t d o hint vs (z.array name)).1, plainSink c) ∧
      (NpyWriter.save M zipStream t d o hint vs (z.array name)).2 = ⟨z.members ++ [(fileNameFromArrayName name, c)]⟩ := by
  have h1 := plain_solid.save (M := M) d o hint vs []
  have h2 := (plain_zip z.members (fileNameFromArrayName name)).save (M := M) d o hint vs []
  refine ⟨(NpyWriter.save M plainStream t d o hint vs []).2, ?_, ?_⟩
  · rw [h1]
    show _ = ((NpyWriter.save M zipStream t d o hint vs ⟨z.members ++ [(fileNameFromArrayName name, [])]⟩).1, _)
    rw [h2]
  · show (NpyWriter.save M zipStream t d o hint vs ⟨z.members ++ [(fileNameFromArrayName name, [])]⟩).2 = _
    rw [h2]

theorem zip_saveDropped {M : Machine} {t : Ty} {d : DType} {o : Order} {hint : ShapeHint} {vs : List t.Val} {z : NpzWriter} {name : Text} :
    ∃ c, NpyWriter.saveDropped M solid t d o hint vs (plainSink []) =
        ((NpyWriter.saveDropped M zipStream t d o hint vs (z.array name)).1, plainSink c) ∧
      (NpyWriter.saveDropped M zipStream t d o hint vs (z.array name)).2 = ⟨z.members ++ [(fileNameFromArrayName name, c)]⟩ := by
  have h1 := plain_solid.saveDropped (M := M) d o hint vs []
  have h2 := (plain_zip z.members (fileNameFromArrayName name)).saveDropped (M := M) d o hint vs []
  refine ⟨(NpyWriter.saveDropped M plainStream t d o hint vs []).2, ?_, ?_⟩
  · rw [h1]
    show _ = ((NpyWriter.saveDropped M zipStream t d o hint vs ⟨z.members ++ [(fileNameFromArrayName name, [])]⟩).1, _)
    rw [h2]
  · show (NpyWriter.saveDropped M zipStream t d o hint vs ⟨z.members ++ [(fileNameFromArrayName name, [])]⟩).2 = _
    rw [h2]

/-! ### Sessions that end with a drop -/

/-- If all values were accepted and their number is right, dropping the writer is as good as `finish`. -/
theorem saveDropped_save {M : Machine} {t : Ty} {d : DType} {o : Order} {dims : List Nat} {size : Nat} (hd : d.Wf)
    (hn : exactBytes d = some size) (hm : size ≤ M.isizeMax) {vs : List t.Val} (hc : vs.length < 2 ^ 64)
    (hp : shapeProduct M 1 dims = .ok vs.length) {s s' : Sink}
    (h : NpyWriter.saveDropped M solid t d o (.nd dims) vs s = (.ok (), s')) :
    NpyWriter.save M solid t d o (.nd dims) vs s = (.ok (), s') := by
  unfold NpyWriter.saveDropped at h
  rcases hb : (NpyWriter.begin M t d o (.nd dims)).exec s with ⟨(w | e | _), s1⟩
  · have hb' : solid.exec (NpyWriter.begin M t d o (.nd dims)) s = (.ok w, s1) := hb
    obtain ⟨hst, h0, hk, hs1⟩ := begin_ok hb
    rw [hb'] at h
    simp only at h
    have hx : ∃ items, encodeAll (encode t d) vs = some items := by
      apply extend_solid_ok hd hn hm vs w hst.prog (by omega) s1
      rcases he : w.extend M solid vs s1 with ⟨(⟨⟩ | e | _), w', s2⟩
      · rfl
      · rw [he] at h
        simp only at h
        rcases hdr : w'.drop M solid s2 with ⟨(⟨⟩ | e | _), s3⟩ <;> rw [hdr] at h <;> cases h
      · rw [he] at h
        simp only at h
        rcases hdr : w'.drop M solid s2 with ⟨(⟨⟩ | e | _), s3⟩ <;> rw [hdr] at h <;> cases h
    obtain ⟨items, he⟩ := hx
    rw [save_eq hd hn hm hc hb he]
    have hex := extend_solid hd hn hm vs w hst.prog (by omega) s1 he
    rw [hex] at h
    simp only [h0, Nat.zero_add] at h
    obtain ⟨n, hi1, hi2⟩ := hst.info
    have hne : n = vs.length := by rw [hi1] at hp; cases hp; rfl
    have hf : ∀ s2, (({ w with numItems := vs.length } : NpyWriter t.Val).finish_ M).exec s2 = (.ok (), s2) := by
      intro s2
      rw [exec_finish_nd (w := { w with numItems := vs.length }) hi2, if_pos hne]
    have hdrop : ∀ s2, ({ w with numItems := vs.length } : NpyWriter t.Val).drop M solid s2 = (.ok (), s2) := by
      intro s2
      unfold NpyWriter.drop
      have : solid.exec (({ w with numItems := vs.length } : NpyWriter t.Val).finish_ M) s2 = (.ok (), s2) := hf s2
      rw [this]
    rw [hdrop] at h
    simp only [Prod.mk.injEq, true_and] at h
    rw [hf, ← h, hs1, Sink.put_put]
  · have hb' : solid.exec (NpyWriter.begin M t d o (.nd dims)) s = (.err e, s1) := hb
    rw [hb'] at h; cases h
  · have hb' : solid.exec (NpyWriter.begin M t d o (.nd dims)) s = (.panic, s1) := hb
    rw [hb'] at h; cases h

/-- Conversely, whatever `finish` accepts, dropping accepts. -/
theorem save_saveDropped {M : Machine} {t : Ty} {d : DType} {o : Order} {dims : List Nat} {size : Nat} (hd : d.Wf)
    (hn : exactBytes d = some size) (hm : size ≤ M.isizeMax) {vs : List t.Val} (hc : vs.length < 2 ^ 64) {s s' : Sink}
    (h : NpyWriter.save M solid t d o (.nd dims) vs s = (.ok (), s')) :
    NpyWriter.saveDropped M solid t d o (.nd dims) vs s = (.ok (), s') := by
  obtain ⟨items, he, hs', -, -, -, -, -⟩ := save_ok hd hn hm hc (by intro h; cases h) h
  unfold NpyWriter.saveDropped
  rcases hb : (NpyWriter.begin M t d o (.nd dims)).exec s with ⟨(w | e | _), s1⟩
  · have hb' : solid.exec (NpyWriter.begin M t d o (.nd dims)) s = (.ok w, s1) := hb
    obtain ⟨hst, h0, hk, hs1⟩ := begin_ok hb
    rw [hb']
    simp only
    rw [extend_solid hd hn hm vs w hst.prog (by omega) s1 he]
    simp only [h0, Nat.zero_add]
    rw [save_eq hd hn hm hc hb he] at h
    have hdrop : ({ w with numItems := vs.length } : NpyWriter t.Val).drop M solid (s1.put items) = (.ok (), s') := by
      unfold NpyWriter.drop
      have : solid.exec (({ w with numItems := vs.length } : NpyWriter t.Val).finish_ M) (s1.put items) = (.ok (), s') := by
        rw [hs1, Sink.put_put]; exact h
      rw [this]
    rw [hdrop]
  · unfold NpyWriter.save NpyWriter.saveWith at h
    have hb' : solid.exec (NpyWriter.begin M t d o (.nd dims)) s = (.err e, s1) := hb
    rw [hb'] at h; cases h
  · unfold NpyWriter.save NpyWriter.saveWith at h
    have hb' : solid.exec (NpyWriter.begin M t d o (.nd dims)) s = (.panic, s1) := hb
    rw [hb'] at h; cases h

end Npyz
