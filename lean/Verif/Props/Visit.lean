import Verif.Props.Failed
import Verif.Proofs.Visit
/-!
C113: an array of an archive is complete, or it is reported as damaged, whatever else is done with the archive.
-/
namespace Npyz.Props
set_option autoImplicit false
open Npyz Spec Py

/-- What C113 assumes of the dtype, of the shape and of the machines. -/
structure Visit.Ok (M M' : Machine) (py : PyParser) (v : Visit) (size : Nat) : Prop where
  parses : py.ExtendsRef
  wf : v.dtype.Wf
  exact : exactBytes v.dtype = some size
  small : size ≤ M.isizeMax
  small' : size ≤ M'.isizeMax
  fits : AllFit M'.usizeLim v.dtype
  dims : (∀ k ∈ v.dims, k < 2 ^ 64) ∧ nonzeroProd v.dims < 2 ^ 64
  memory : dictBytes v.dtype v.order (.nd v.dims) + 76 ≤ M'.isizeMax
  room : dictBytes v.dtype v.order (.nd v.dims) + 76 ≤ 2 ^ 64
  count : ∀ values ending, v.pushed = some (values, ending) → values.length < 2 ^ 64

variable {M M' : Machine} {py : PyParser} {v : Visit} {size : Nat}

theorem rejected_damaged {a : NpzArchive} {name : Text} {c : Bytes} (hf : a.find (fileNameFromArrayName name) = some c)
    (h : Rejected M' py c 0) : Damaged M' py a name := by
  rcases h with ⟨e, he⟩ | ⟨f, hf', ht⟩
  · left
    refine ⟨e, ?_⟩
    rw [byName_find hf]
    unfold NpzArchive.openMember
    rw [he]
  · right
    refine ⟨f, ?_, ht⟩
    rw [byName_find hf]
    unfold NpzArchive.openMember
    rw [hf']

theorem on_begun {values : List v.ty.Val} {ending : Ending} (hp : v.pushed = some (values, ending)) {s s1 s2 : Sink} {w w' : NpyWriter v.ty.Val}
    (hb : (NpyWriter.begin M v.ty v.dtype v.order (.nd v.dims)).exec s = (.ok w, s1))
    (hpu : (w.pushAll M solid values s1).2 = (w', s2)) :
    v.on M solid s = (.ok () :: (w.pushAll M solid values s1).1, ending.leave M solid w' s2) := by
  have hb' : solid.exec (NpyWriter.begin M v.ty v.dtype v.order (.nd v.dims)) s = _ := hb
  unfold Visit.on
  rw [hp]
  simp only
  rw [hb']
  simp only
  rcases hx : w.pushAll M solid values s1 with ⟨rs, w0, s0⟩
  rw [hx] at hpu
  cases hpu
  rfl

/-- C113: if `begin_nd` and all pushes have succeeded and there were as many of them as the shape has elements, the array is found with
its values: whether or not the writer was finished, and whatever was done with other arrays before and afterwards. -/
theorem C113_complete (hM' : M'.Wf) (hv : Visit.Ok M M' py v size) (hread : ∃ p, v.ty.reader M' v.dtype = .ok p) {before after : List Visit} {z : NpzWriter}
    (ha : ∀ x ∈ after, x.name ≠ v.name) {values : List v.ty.Val} {ending : Ending} (hp : v.pushed = some (values, ending))
    (hlen : values.length = v.dims.prod) (hok : ∀ r ∈ (v.run M (visitAll M before z)).1, r = .ok ()) :
    Holds M' py v.ty (visitAll M (before ++ v :: after) z).archive v.name v.dtype v.dims v.order (values.map (readBack v.ty v.dtype)) := by
  obtain ⟨c, h1, h2⟩ := visitAll_find M (before := before) (z := z) ha
  have hc := hv.count _ _ hp
  have key : ReadsBack M' py v.ty c 0 v.dtype v.dims v.order (values.map (readBack v.ty v.dtype)) := by
    rcases hb : (NpyWriter.begin M v.ty v.dtype v.order (.nd v.dims)).exec (plainSink []) with ⟨(w | e | _), s1⟩
    · obtain ⟨hst, h0, -, rfl⟩ := begin_ok hb
      obtain ⟨bs, g1, g2, g3, -, g4⟩ := pushAll_solid hv.wf hv.exact hv.small values w hst.prog (by omega)
        ((plainSink []).put (headerBytes (dictText v.dtype v.order (.nd v.dims))))
      have hon : v.on M solid (plainSink []) = (.ok () :: (w.pushAll M solid values ((plainSink []).put (headerBytes (dictText v.dtype v.order (.nd v.dims))))).1,
          (plainSink []).put (headerBytes (dictText v.dtype v.order (.nd v.dims)) ++ bs)) := by
        rw [on_begun hp hb g1, leave_nd (hst.toBegun.count _) (by simp only; omega), Sink.put_put]
      have hr := h1.symm.trans hon
      obtain ⟨hr1, hr2⟩ := Prod.mk.inj hr
      rw [hr1] at hok
      obtain ⟨items, hitems⟩ : ∃ items, encodeAll (encode v.ty v.dtype) values = some items := by
        cases he : encodeAll (encode v.ty v.dtype) values with
        | some items => exact ⟨items, rfl⟩
        | none =>
          exfalso
          obtain ⟨x, hx, hn⟩ := (encodeAll_none _).mp he
          obtain ⟨i, hi, rfl⟩ := List.getElem_of_mem hx
          have hi' : i < (w.pushAll M solid values ((plainSink []).put (headerBytes (dictText v.dtype v.order (.nd v.dims))))).1.length := by rw [g2]; exact hi
          have h5 := hok _ (List.mem_cons_of_mem _ (List.getElem_mem hi'))
          have h6 := (g3 i hi).mp (by rw [List.getElem?_eq_getElem hi', h5])
          rw [hn] at h6
          cases h6
      have hbs := g4 items hitems
      subst hbs
      obtain ⟨p, hp'⟩ := hread
      have hfin := final_reads hM' hv.parses hv.wf hp' hv.exact hv.small' hv.fits hc (hint := .nd v.dims) (o := v.order) hlen
        (fun dims hd => by cases hd; exact hv.dims) (fun r hr => by cases hr) hv.memory hst.isArray hst.hdrFits hitems (plainSink [])
      have hd : c = ((plainSink []).put (headerBytes (dictText v.dtype v.order (.nd v.dims)) ++ bs)).data := by rw [← hr2]; rfl
      rw [hd]
      exact hfin
    · exfalso
      have hb' : solid.exec (NpyWriter.begin M v.ty v.dtype v.order (.nd v.dims)) (plainSink []) = _ := hb
      have hon : (v.on M solid (plainSink [])).1 = [.err e] := by
        unfold Visit.on
        rw [hp]
        simp only
        rw [hb']
      rw [h1] at hon
      simp only at hon
      rw [hon] at hok
      have := hok (.err e) (by simp)
      cases this
    · exfalso
      have hb' : solid.exec (NpyWriter.begin M v.ty v.dtype v.order (.nd v.dims)) (plainSink []) = _ := hb
      have hon : (v.on M solid (plainSink [])).1 = [.panic] := by
        unfold Visit.on
        rw [hp]
        simp only
        rw [hb']
      rw [h1] at hon
      simp only at hon
      rw [hon] at hok
      have := hok .panic (by simp)
      cases this
  obtain ⟨f, h5, h6⟩ := openMember_reads key
  exact ⟨f, by rw [byName_find h2, h5], h6⟩

/-- C113: otherwise, that is if `begin_nd` was not called or has failed, if a push has failed or if there were fewer pushes than the shape
has elements, the array is reported as damaged, again whatever was done with other arrays.  Missing: types that are not `Prompt`, items
without bytes, more values than elements, and empty arrays of the wrong type; the property fails there (`C113_violated`). -/
theorem C113_incomplete_partial (hv : Visit.Ok M M' py v size) (hz : 0 < size) (hprompt : Prompt v.ty v.dtype) (hs : py.StrictAfter (dictPrefix v.dtype v.order))
    (hw : 0 < v.dims.prod ∨ ∃ p, v.ty.writer M v.dtype = .ok p)
    (hmany : ∀ values ending, v.pushed = some (values, ending) → values.length ≤ v.dims.prod) {before after : List Visit} {z : NpzWriter}
    (ha : ∀ x ∈ after, x.name ≠ v.name) (h : ¬ v.Enough ∨ ∃ r ∈ (v.run M (visitAll M before z)).1, r ≠ .ok ()) :
    Damaged M' py (visitAll M (before ++ v :: after) z).archive v.name := by
  obtain ⟨c, h1, h2⟩ := visitAll_find M (before := before) (z := z) ha
  refine rejected_damaged h2 ?_
  have hF : Fresh M' py v.dtype size v.order (.nd v.dims) (plainSink []) :=
    ⟨hv.parses, hs, hv.wf, hv.exact, hv.small', hv.fits, fun dims hd => by cases hd; exact hv.dims, fun r hr => (by cases hr),
      by have := hv.room; simpa [plainSink] using this, hv.memory, Nat.le_refl _⟩
  have short : ∀ bs : Bytes, v.dtype.isArray = false → (headerText (dictText v.dtype v.order (.nd v.dims))).length ≤
      (usedProps (encodeUtf8 (dictText v.dtype v.order (.nd v.dims)))).maxLen → bs.length < v.dims.prod * size →
      plainSink c = (plainSink []).put (headerBytes (dictText v.dtype v.order (.nd v.dims)) ++ bs) → Rejected M' py c 0 := by
    intro bs ha hl hlt hc
    have := short_rejected (n := 0) hF (by decide) hv.dims.1 hv.dims.2 ha hl hlt
    have hd : c = ((plainSink []).put (headerBytes (dictText v.dtype v.order (.nd v.dims)) ++ bs)).data := by rw [← hc]; rfl
    rw [hd]
    exact this
  cases hp : v.pushed with
  | none =>
    have : c = [] := by
      have hon : v.on M solid (plainSink []) = ([], plainSink []) := by unfold Visit.on; rw [hp]
      have := congrArg Sink.data (Prod.mk.inj (h1.symm.trans hon)).2
      exact this
    subst this
    exact .inl (tiny_unreadable M' py (by decide))
  | some q =>
    obtain ⟨values, ending⟩ := q
    have hc := hv.count _ _ hp
    have hle := hmany _ _ hp
    have hon : ∀ r s1, (NpyWriter.begin M v.ty v.dtype v.order (.nd v.dims)).exec (plainSink []) = (r, s1) → (∀ w, r ≠ .ok w) → plainSink c = s1 := by
      intro r s1 hb hr
      have hb' : solid.exec (NpyWriter.begin M v.ty v.dtype v.order (.nd v.dims)) (plainSink []) = _ := hb
      have hon : (v.on M solid (plainSink [])).2 = s1 := by
        unfold Visit.on
        rw [hp]
        simp only
        rw [hb']
        cases r with
        | ok w => exact absurd rfl (hr w)
        | err e => rfl
        | panic => rfl
      rw [h1] at hon
      exact hon
    rcases begin_left (M := M) (t := v.ty) (d := v.dtype) (o := v.order) hv.dims.2 (plainSink []) with
      ⟨r, hb, hr⟩ | ⟨x, y, hb⟩ | ⟨r, hb, hna, hl, hiff⟩
    · have : c = [] := congrArg Sink.data (hon _ _ hb hr)
      subst this
      exact .inl (tiny_unreadable M' py (by decide))
    · have : c = magic ++ [x, y] := by
        have := congrArg Sink.data (hon _ _ hb (by simp))
        rw [Sink.put_data _ (by simp [magic])] at this
        simpa [plainSink, Sink.before] using this
      subst this
      exact .inl (tiny_unreadable M' py (by simp [magic]))
    · cases r with
      | ok w =>
        obtain ⟨hst, h0, -, -⟩ := begin_ok hb
        obtain ⟨bs, g1, g2, g3⟩ := pushAll_halts hv.wf hv.exact hv.small hprompt values w hst.prog (by omega)
          ((plainSink []).put (headerBytes (dictText v.dtype v.order (.nd v.dims))))
        obtain ⟨-, -, k1, k2, -⟩ := pushAll_solid hv.wf hv.exact hv.small values w hst.prog (by omega)
          ((plainSink []).put (headerBytes (dictText v.dtype v.order (.nd v.dims))))
        have hon : v.on M solid (plainSink []) = (.ok () :: (w.pushAll M solid values ((plainSink []).put (headerBytes (dictText v.dtype v.order (.nd v.dims))))).1,
            (plainSink []).put (headerBytes (dictText v.dtype v.order (.nd v.dims)) ++ bs)) := by
          rw [on_begun hp hb g1, leave_nd (hst.toBegun.count _) (by simp only; omega), Sink.put_put]
        obtain ⟨hr1, hr2⟩ := Prod.mk.inj (h1.symm.trans hon)
        refine short bs hna hl ?_ hr2
        have hmul := Nat.mul_le_mul_right size hle
        rcases h with h | ⟨r, hr, hne⟩
        · have hlt : values.length < v.dims.prod := by
            have : values.length ≠ v.dims.prod := fun e => h ⟨values, ending, hp, e⟩
            omega
          exact Nat.lt_of_le_of_lt g2 ((Nat.mul_lt_mul_right hz).mpr hlt)
        · refine Nat.lt_of_lt_of_le (g3 ?_) hmul
          rw [hr1] at hr
          rcases List.mem_cons.mp hr with rfl | hr
          · exact absurd rfl hne
          · obtain ⟨i, hi, rfl⟩ := List.getElem_of_mem hr
            have hi' : i < values.length := by rw [← k1]; exact hi
            refine ⟨values[i], List.getElem_mem _, ?_⟩
            cases he : encode v.ty v.dtype values[i] with
            | none => rfl
            | some b =>
              have := (k2 i hi').mpr (by rw [he]; rfl)
              rw [List.getElem?_eq_getElem hi] at this
              exact absurd (Option.some.inj this) hne
      | err e =>
        refine short [] hna hl ?_ (by rw [List.append_nil]; exact hon _ _ hb (by simp))
        have : 0 < v.dims.prod := by
          rcases hw with hw | hw
          · exact hw
          · obtain ⟨w, hw⟩ := hiff.mpr hw
            cases hw
        exact Nat.mul_pos this hz
      | panic =>
        refine short [] hna hl ?_ (by rw [List.append_nil]; exact hon _ _ hb (by simp))
        have : 0 < v.dims.prod := by
          rcases hw with hw | hw
          · exact hw
          · obtain ⟨w, hw⟩ := hiff.mpr hw
            cases hw
        exact Nat.mul_pos this hz

/-- Visit an array, then an array `b` that is never begun; if a call has failed: the values which are read back, as values of type `t`, as
`α`. -/
def afterVisit {α : Type} (v : Visit) (t : Ty) (as : t.Val → α) : Option (List α) :=
  if (v.run box .new).1.all (fun r => match r with | .ok () => true | _ => false) then none else
  match (visitAll box [v, ⟨txt "b", f64, floats8, .c, [2], none⟩] .new).archive.byName box Py.parse v.name with
  | .ok (some f) => match (f.intoVec box disk t).1 with
    | .ok ws => some (ws.map as)
    | _ => none
  | _ => none

/-- C113 is violated.  Writing the string `toolong` as a string of three characters fails, but the array is found with the string `too`.
Writing an empty array of numbers as an array of strings fails, but an empty array is found. -/
theorem C113_violated :
    afterVisit ⟨txt "a", .string, threeUnits, .c, [1], some (["toolong".toList], .dropped)⟩ .string (fun (v : Text) => v) = some ["too".toList] ∧
    afterVisit ⟨txt "a", .string, floats8, .c, [0], some ([], .dropped)⟩ f64 (fun (v : BitVec 64) => v) = some [] := by
  decide +kernel

/-- Two of four numbers, then the writer is leaked. -/
def halfDone : Visit := ⟨txt "a", f64, floats8, .c, [2, 2], some ([4#64, 5#64], .forgotten)⟩
/-- All of them. -/
def allDone : Visit := ⟨txt "b", f64, floats8, .c, [2, 2], some ([4#64, 5#64, 6#64, 7#64], .forgotten)⟩

/-- The hypotheses of `C113_incomplete_partial` and of `C113_complete` are met by these two arrays, in the same archive. -/
example : Visit.Ok box box Py.parse halfDone 8 ∧ Prompt halfDone.ty halfDone.dtype ∧ ¬ halfDone.Enough ∧
    (∀ values ending, halfDone.pushed = some (values, ending) → values.length ≤ halfDone.dims.prod) ∧
    (∀ x ∈ [allDone], x.name ≠ halfDone.name) := by
  refine ⟨⟨fun _ _ h => h, wf_of_parse (s := "<f8".toList) (by decide), rfl, by decide, by decide, ?_, ⟨by decide, by decide⟩,
    by decide +kernel, by decide +kernel, ?_⟩, trivial, ?_, ?_, by decide +kernel⟩
  · intro n hn; cases hn; decide
  · intro values ending h; cases h; decide
  · rintro ⟨values, ending, h, hl⟩; cases h; revert hl; decide
  · intro values ending h; cases h; decide

example : Visit.Ok box box Py.parse allDone 8 ∧ (∃ p, allDone.ty.reader box allDone.dtype = .ok p) ∧
    (allDone.run box (visitAll box [halfDone] .new)).1 = [.ok (), .ok (), .ok (), .ok (), .ok ()] := by
  refine ⟨⟨fun _ _ h => h, wf_of_parse (s := "<f8".toList) (by decide), rfl, by decide, by decide, ?_, ⟨by decide, by decide⟩,
    by decide +kernel, by decide +kernel, ?_⟩, ⟨_, rfl⟩, by decide +kernel⟩
  · intro n hn; cases hn; decide
  · intro values ending h; cases h; decide

end Npyz.Props
