import Verif.Props.Live
import Verif.Proofs.LiveFail
/-!
C121: reading a file while its writer fails or gives up.
-/
namespace Npyz.Props
set_option autoImplicit false
open Npyz Spec Py RProg

variable {M M' : Machine} {py : PyParser} {t : Ty} {d : DType} {size : Nat} {o : Order} {hint : ShapeHint} {vs : List t.Val} {s s' : Sink}

/-- What the file holds at moment `n` of a session that may fail: one of the contents that can be found in it while the session runs, and at the end what the
session leaves behind. -/
def foundAt (M : Machine) (t : Ty) (d : DType) (o : Order) (hint : ShapeHint) (vs : List t.Val) (fin : Bool) (s : Sink) (sched : List Ev) (n : Nat) : Bytes :=
  ((NpyWriter.attempt M traced t d o hint vs fin (s, sched, [s.data])).2.2.2[n]?).getD
    (NpyWriter.attempt M traced t d o hint vs fin (s, sched, [s.data])).2.1.data

/-- The file as a program sees it that starts to read it where the session starts to write it: each entry of the schedule says at which moment of the session a
call of `read` takes place, and how many bytes it returns at most; `last` says at which moment the calls after them take place. -/
def watchFailing (M : Machine) (t : Ty) (d : DType) (o : Order) (hint : ShapeHint) (vs : List t.Val) (fin : Bool) (s : Sink) (sched : List Ev)
    (evs : List (Nat × Nat)) (last : Nat) : LiveSrc :=
  ⟨[], s.pos, evs.map fun e => (foundAt M t d o hint vs fin s sched e.1, e.2), foundAt M t d o hint vs fin s sched last⟩

/-- Opening a changing file whose bytes are always old or new ones. -/
theorem live_open {W : LiveSrc} {pos : Nat} (hb : W.buf = []) (hp : W.pos = pos) {P : Nat → UInt8 → Prop} {hdrB tail D : Bytes} {hdr : NpyHeader}
    (hmixed : ∀ (bs : Bytes) r, (∀ (i : Nat) x, bs[i]? = some x → P i x) → (∀ rest, (NpyHeader.fromReader M' py).run (bs ++ rest) = (r, rest)) →
      (∃ e, r = .err e) ∨ (r = .ok hdr ∧ bs.length = hdrB.length))
    (hD : D.drop pos = hdrB ++ tail)
    (hc : ∀ c, (c ∈ W.evs.map (·.1) ∨ c = W.now) → ∀ (i : Nat) x, c[pos + i]? = some x → P i x ∧ (hdrB.length ≤ i → (hdrB ++ tail)[i]? = some x)) (cap : Nat) :
    (∃ e, (NpyFile.new M' py (live cap) W).1 = .err e) ∨
    ∃ f, NpyFile.new M' py (live cap) W = (.ok f, f.src) ∧ f.header = hdr ∧ Follows (pos + hdrB.length) D f.src ⟨D, pos + hdrB.length⟩ := by
  subst hp
  obtain ⟨used, evs', bs, buf', r, e1, e2, e3, e4⟩ := RProg.runLive_cases W.now cap (NpyHeader.fromReader M' py) [] W.pos W.evs
  have hexec : (live cap).exec (NpyHeader.fromReader M' py) W = (r, ⟨buf', W.pos + bs.length, evs', W.now⟩) := by
    simp only [live, hb, e2]
  have hagree : ∀ c, (c ∈ W.evs.map (·.1) ∨ c = W.now) → AgreesFrom (W.pos + hdrB.length) D c := by
    intro c hcc i x hi hx
    obtain ⟨j, rfl⟩ : ∃ j, i = W.pos + j := ⟨i - W.pos, by omega⟩
    rw [← List.getElem?_drop, hD]
    exact (hc c hcc j x hx).2 (by omega)
  rcases e4 with ⟨cs, hcs, e4⟩ | ⟨e, -, rfl, -⟩
  · rw [List.nil_append] at hcs
    have hbs : ∀ (i : Nat) x, bs[i]? = some x → P i x ∧ (hdrB.length ≤ i → (hdrB ++ tail)[i]? = some x) := by
      intro i x hx
      rcases e3 i x hx with ⟨c, hcc, hcx⟩ | ⟨-, hcx⟩
      · exact hc c (.inl (by rw [e1, List.map_append]; exact List.mem_append_left _ hcc)) i x hcx
      · exact hc _ (.inr rfl) i x hcx
    have hsub : ∀ (i : Nat) x, cs[i]? = some x → bs[i]? = some x := by
      intro i x hx
      have := (List.getElem?_eq_some_iff.mp hx).1
      rw [hcs, List.getElem?_append_left this]
      exact hx
    rcases hmixed cs r (fun i x hx => (hbs i x (hsub i x hx)).1) e4 with ⟨e, rfl⟩ | ⟨rfl, hl⟩
    · left
      exact ⟨e, by unfold NpyFile.new; rw [hexec]⟩
    · right
      refine ⟨⟨hdr, ⟨buf', W.pos + bs.length, evs', W.now⟩⟩, by unfold NpyFile.new; rw [hexec], rfl, rfl,
        by simp only; rw [hcs, List.length_append, hl, Nat.add_assoc], Nat.le_refl _, fun i x hx => ?_, fun c hcc => ?_, hagree _ (.inr rfl)⟩
      · have hbx : bs[hdrB.length + i]? = some x := by
          rw [hcs, List.getElem?_append_right (by omega), hl, Nat.add_sub_cancel_left]
          exact hx
        simp only
        rw [Nat.add_assoc, ← List.getElem?_drop, hD]
        exact (hbs _ x hbx).2 (by omega)
      · exact hagree c (.inl (by rw [e1, List.map_append]; exact List.mem_append_right _ hcc))
  · left
    exact ⟨e, by unfold NpyFile.new; rw [hexec]⟩

/-- The first values of a session that would succeed make a session that would succeed, if their number fits. -/
theorem watched_take (h : Watched M M' py t d size o hint vs s s') {N : Nat} (hN : N ≤ vs.length) (hcf : CountFits N hint) :
    ∃ sN, Watched M M' py t d size o hint (vs.take N) s sN := by
  obtain ⟨w, s1, hb⟩ := save_begins h.saved
  obtain ⟨items, he, -, -, -, -, hr, -⟩ := save_ok h.wf h.exact h.writable h.count (fun _ => h.place) h.saved
  obtain ⟨hst, -, hk, -⟩ := begin_ok hb
  have hlen : ∀ v b, encode t d v = some b → b.length = size := fun v b => encode_length h.wf h.exact h.writable hst.prog v b
  have hz : hint ≠ .twoD 0 := by rintro rfl; exact (hr 0 rfl).1 rfl
  have hNl : (vs.take N).length = N := by rw [List.length_take]; omega
  have hN64 : N < 2 ^ 64 := Nat.lt_of_le_of_lt hN h.count
  have hsaved : ∃ sN, NpyWriter.save M solid t d o hint (vs.take N) s = (.ok (), sN) := by
    rw [save_eq h.wf h.exact h.writable (by rw [hNl]; exact hN64) hb (encode_taken hlen vs he N), hNl]
    rcases finish_cases (hst.toBegun.count N) hk (fun _ => h.place) hN64 (items.take (N * size)) with
      ⟨h1, -⟩ | ⟨-, hf, -⟩ | ⟨-, -, ⟨dims, n, rfl, h1, h2⟩ | ⟨r, rfl, h1⟩⟩
    · exact absurd h1 hz
    · exact ⟨_, hf⟩
    · exfalso
      have hfit : N = dims.prod := hcf
      rw [shapeProduct_exact (acc := 1) (by simpa using (h.dims dims rfl).2), Out.ok.injEq, Nat.one_mul] at h1
      exact h2 (by simp only; omega)
    · exact absurd hcf h1
  obtain ⟨sN, hsN⟩ := hsaved
  refine ⟨sN, h.wf, h.exact, h.writable, h.readable, by rw [hNl]; exact hN64, h.place, h.fresh, hsN, h.machine, h.parser, h.strict, h.sizes, h.reader, h.dims, h.record,
    h.memory, ?_⟩
  have hsm := h.small
  rw [hNl]
  cases hint with
  | oneD => trivial
  | nd dims => trivial
  | twoD r =>
    rcases hsm with hsm | ⟨h1, h2⟩
    · exact .inl hsm
    · exact .inr ⟨by omega, h2⟩

theorem watched_fits (h : Watched M M' py t d size o hint vs s s') : CountFits vs.length hint := by
  obtain ⟨-, -, -, -, -, hdm, hr, -⟩ := save_ok h.wf h.exact h.writable h.count (fun _ => h.place) h.saved
  cases hint with
  | oneD => trivial
  | twoD r => exact (hr r rfl).2
  | nd dims =>
    have h1 := hdm dims rfl
    rw [shapeProduct_exact (by rw [Nat.one_mul]; exact (h.dims dims rfl).2), Nat.one_mul] at h1
    exact (Out.ok.inj h1).symm

/-- What opening the file gives at any time during a session that may fail. -/
theorem failing_open (h : Watched M M' py t d size o hint vs s s') {k : Nat} (hk : k ≤ vs.length) (fin : Bool) (sched : List Ev) :
    ∃ N Q sN hdrB items hdr, Watched M M' py t d size o hint (vs.take N) s sN ∧ N ≤ vs.length ∧ (N = vs.length ∨ N ≤ k) ∧ Q ≤ N * size ∧
      (0 < size ∨ k = vs.length → Q = N * size → N = k) ∧ items.length = N * size ∧ sN.data.drop s.pos = hdrB ++ items ∧ s.pos ≤ sN.data.length ∧
      (∀ rest, (NpyHeader.fromReader M' py).run (hdrB ++ rest) = (.ok hdr, rest)) ∧
      hdr.dtype = d ∧ hdr.shape = finalShape o N hint ∧ hdr.order = o ∧ hdr.nRecords = N ∧ hdr.itemSize = some size ∧
      ∀ D Q', Q ≤ Q' → D.drop s.pos = hdrB ++ items.take Q' → ∀ cap evs last,
        (∃ e, (NpyFile.new M' py (live cap) (watchFailing M t d o hint (vs.take k) fin s sched evs last)).1 = .err e) ∨
        ∃ f, NpyFile.new M' py (live cap) (watchFailing M t d o hint (vs.take k) fin s sched evs last) = (.ok f, f.src) ∧ f.header = hdr ∧
          Follows (s.pos + hdrB.length) D f.src ⟨D, s.pos + hdrB.length⟩ := by
  obtain ⟨w, s1, hb⟩ := save_begins h.saved
  obtain ⟨items, he, -, -, -, -, hr, -⟩ := save_ok h.wf h.exact h.writable h.count (fun _ => h.place) h.saved
  obtain ⟨hst, -, -, -⟩ := begin_ok hb
  have hlen : ∀ v b, encode t d v = some b → b.length = size := fun v b => encode_length h.wf h.exact h.writable hst.prog v b
  have hil := (encodeAll_item hlen vs he).1
  have hz : hint ≠ .twoD 0 := by rintro rfl; exact (hr 0 rfl).1 rfl
  have hl := headerBytes_le d o hint
  have hpl := h.place
  obtain ⟨s2, evs2, tr, N, Q, ha, hN, hcf, hNk, hQ, hNQ, hcont⟩ := attempt_seen h.wf h.exact h.writable hz h.count (watched_fits h) he (s := s) (by omega) hb hk fin sched
  obtain ⟨sN, hW⟩ := watched_take h hN hcf
  obtain ⟨oldF, hdrB, itemsN, K, hS⟩ := seen1 hW
  have hNl : (vs.take N).length = N := by rw [List.length_take]; omega
  have hiN : itemsN = items.take (N * size) := by
    have h1 := hS.enc
    rw [encode_taken hlen vs he N] at h1
    exact (Option.some.inj h1).symm
  have hNn : N * size ≤ vs.length * size := Nat.mul_le_mul_right _ hN
  have hiNl : itemsN.length = N * size := by rw [hiN, List.length_take]; omega
  have hhl : (headerBytes (dictText d o hint)).length = hdrB.length := by
    have h1 := hS.len
    rw [hS.unfinished, List.length_append, List.length_append] at h1
    omega
  -- every byte that can be found
  have hbyte : ∀ n (i : Nat) x, (foundAt M t d o hint (vs.take k) fin s sched n)[s.pos + i]? = some x →
      (oldF[i]? = some x ∨ (hdrB ++ itemsN)[i]? = some x) ∧ i < hdrB.length + Q := by
    intro n i x hx
    have hmem : foundAt M t d o hint (vs.take k) fin s sched n ∈ tr ∨ foundAt M t d o hint (vs.take k) fin s sched n = s2.data := by
      unfold foundAt
      rw [ha]
      simp only
      cases htr : tr[n]? with
      | none => exact .inr rfl
      | some c => exact .inl (List.mem_of_getElem? htr)
    rcases hcont _ hmem with ⟨j, hj1, hj2, hj⟩ | ⟨hsk, j, hj⟩
    · have h1 := put_byte h.fresh hj hx
      rw [List.getElem?_take] at h1
      split at h1
      · rename_i hij
        refine ⟨.inl ?_, by omega⟩
        rw [hS.unfinished, hiN]
        by_cases hi : i < (headerBytes (dictText d o hint)).length
        · rw [List.getElem?_append_left hi] at h1 ⊢
          exact h1
        · rw [List.getElem?_append_right (by omega)] at h1 ⊢
          rw [List.getElem?_take, if_pos (by omega)]
          exact h1
      · cases h1
    · have h1 := put_byte h.fresh hj hx
      have hax : axisOf N hint < 2 ^ 64 := Nat.lt_of_le_of_lt (axisOf_le _ _) (Nat.lt_of_le_of_lt hN h.count)
      have htl := tornSuffix_length (o := o) hsk hax j
      have hta := tornSuffix_ascii o hint (axisOf N hint) j
      have hdt : dictText d o hint = dictPrefix d o ++ placeholder o hint := by rw [dictText_suffix hsk, suffixText_filler]
      obtain ⟨A, C, hA, hsp1, hsp2⟩ := headerBytes_split (p := dictPrefix d o) (placeholder_ascii o hint) hta htl
      have hTl : (headerBytes (dictPrefix d o ++ tornSuffix o hint (axisOf N hint) j)).length = hdrB.length := by
        have hlP := encodeUtf8_length_ascii (placeholder_ascii o hint)
        have hlT := encodeUtf8_length_ascii hta
        rw [← hhl, hdt, hsp1, hsp2]
        simp only [List.length_append]
        omega
      have hi : i < hdrB.length + Q := by
        have := (List.getElem?_eq_some_iff.mp h1).1
        rw [tornFileBytes, List.length_append, hTl, List.length_take] at this
        omega
      refine ⟨?_, hi⟩
      have h2 := hS.torn hsk j i x
      rw [hNl] at h2
      apply h2
      unfold tornFileBytes at h1 ⊢
      by_cases hih : i < hdrB.length
      · rw [List.getElem?_append_left (by omega)] at h1 ⊢
        exact h1
      · rw [List.getElem?_append_right (by omega)] at h1 ⊢
        rw [List.getElem?_take] at h1
        rw [if_pos (by omega)] at h1
        rw [hiN, List.getElem?_take, if_pos (by omega)]
        exact h1
  refine ⟨N, Q, sN, hdrB, itemsN, _, hW, hN, hNk, hQ, hNQ, hiNl, hS.final, hS.finalLen, hS.run, rfl, by rw [hNl], rfl, ?_, rfl, ?_⟩
  · have := finalShape_prod (o := o) (watched_fits hW)
    rw [hNl] at this ⊢
    exact this
  · intro D Q' hQ' hD cap evs last
    refine live_open (P := fun i x => oldF[i]? = some x ∨ (hdrB ++ itemsN)[i]? = some x) rfl rfl hS.mixed hD ?_ cap
    intro c hc i x hx
    have hfound : ∃ n, c = foundAt M t d o hint (vs.take k) fin s sched n := by
      rcases hc with hc | rfl
      · obtain ⟨a, ha, rfl⟩ := List.mem_map.mp hc
        obtain ⟨ev, hev, rfl⟩ := List.mem_map.mp ha
        exact ⟨ev.1, rfl⟩
      · exact ⟨last, rfl⟩
    obtain ⟨n, rfl⟩ := hfound
    obtain ⟨h1, h2⟩ := hbyte n i x hx
    refine ⟨h1, fun hi => ?_⟩
    have h3 : (hdrB ++ itemsN)[i]? = some x := by
      rcases h1 with h1 | h1
      · rw [← hS.behind i hi]; exact h1
      · exact h1
    rw [List.getElem?_append_right hi] at h3 ⊢
    rw [List.getElem?_take, if_pos (by omega)]
    exact h3

/-! ### The property -/

/-- C121: opening the file at any time during a session that fails, or that is given up after `k` of its values, fails or gives the dtype and the order of the
session, and a shape that is the same at all times of this session: that of all its values or of some of those that were pushed. -/
theorem C121_open (h : Watched M M' py t d size o hint vs s s') {k : Nat} (hk : k ≤ vs.length) (fin : Bool) (sched : List Ev) :
    ∃ N, (N = vs.length ∨ N ≤ k) ∧ ∀ cap evs last,
      (∃ e, (NpyFile.new M' py (live cap) (watchFailing M t d o hint (vs.take k) fin s sched evs last)).1 = .err e) ∨
      ∃ f, (NpyFile.new M' py (live cap) (watchFailing M t d o hint (vs.take k) fin s sched evs last)).1 = .ok f ∧ f.header.dtype = d ∧
        f.header.shape = finalShape o N hint ∧ f.header.order = o ∧ f.header.nRecords = N := by
  obtain ⟨N, Q, sN, hdrB, items, hdr, -, -, h2, hQ, -, hil, h3, -, -, h5, h6, h7, h8, -, h10⟩ := failing_open h hk fin sched
  refine ⟨N, h2, fun cap evs last => ?_⟩
  rcases h10 sN.data items.length (by omega) (by rw [List.take_length]; exact h3) cap evs last with h | ⟨f, k1, rfl, -⟩
  · exact .inl h
  · exact .inr ⟨f, by rw [k1], h5, h6, h7, h8⟩

/-- C121: reading the whole file at any time during a session that fails, or that is given up after `k` of its values, fails or gives exactly the values that
were pushed; never a part of them, and never anything else. -/
theorem C121_read_file (h : Watched M M' py t d size o hint vs s s') {k : Nat} (hk : k ≤ vs.length) (hsz : 0 < size ∨ k = vs.length) (fin : Bool)
    (sched : List Ev) (cap : Nat) (evs : List (Nat × Nat)) (last : Nat) :
    readFile M' py (live cap) t (watchFailing M t d o hint (vs.take k) fin s sched evs last) = .ok ((vs.take k).map (readBack t d)) ∨
    ∃ e, readFile M' py (live cap) t (watchFailing M t d o hint (vs.take k) fin s sched evs last) = .err e := by
  obtain ⟨N, Q, sN, hdrB, items, hdr, hW, hN, -, hQ, hNQ, hil, h3, h4, hrun, h5, h6, h7, h8, h9, h10⟩ := failing_open h hk fin sched
  unfold readFile
  by_cases hq : Q = N * size
  · obtain rfl := hNQ hsz hq
    obtain ⟨g, g1, -, -, -, -, -, -, g8, -⟩ := watch_open hW 0 [] 0
    rw [new_ok (hrun items) h3 h4] at g1
    obtain ⟨g2, -⟩ := Prod.mk.inj g1
    cases g2
    rcases h10 sN.data items.length (by omega) (by rw [List.take_length]; exact h3) cap evs last with ⟨e, h⟩ | ⟨f, k1, k2, k3⟩
    · rw [h]; exact .inr ⟨e, rfl⟩
    · rw [k1]
      rcases alike_intoVec (M' := M') (t := t) (g := ⟨hdr, ⟨sN.data, s.pos + hdrB.length⟩⟩) (live_alike cap _ _) k2 k3 with h11 | ⟨e, -, h11⟩
      · left
        simp only [h11, g8]
      · exact .inr ⟨e, h11⟩
  · right
    have hlen := congrArg List.length h3
    rw [List.length_drop, List.length_append] at hlen
    have hD : (sN.data.take (s.pos + (hdrB.length + Q))).drop s.pos = hdrB ++ items.take Q := by
      rw [List.drop_take, h3, Nat.add_sub_cancel_left, List.take_length_add_append]
    have hDl : (sN.data.take (s.pos + (hdrB.length + Q))).length = s.pos + (hdrB.length + Q) := by rw [List.length_take]; omega
    rcases h10 _ Q (Nat.le_refl _) hD cap evs last with ⟨e, h⟩ | ⟨f, k1, k2, k3⟩
    · rw [h]; exact ⟨e, rfl⟩
    · rw [k1]
      have hnew := new_ok (hrun (items.take Q)) hD (by omega)
      obtain ⟨ho, hb⟩ := opened_of_new (by rw [hnew])
      obtain ⟨e', he'⟩ := C21_truncated (t := t) ho h9 hW.readable hb (by simp only [hDl, h8]; omega)
      rcases alike_intoVec (M' := M') (t := t) (g := ⟨hdr, ⟨sN.data.take (s.pos + (hdrB.length + Q)), s.pos + hdrB.length⟩⟩) (live_alike cap _ _) k2 k3 with h11 | ⟨e, -, h11⟩
      · exact ⟨e', by simp only [h11, he']⟩
      · exact ⟨e, h11⟩

/-- C121: a reader that was opened during such a session, used with any calls while the session goes on, fails or gives, as far as its calls succeed, what they give
on the complete file of the first `N` values of the session. -/
theorem C121_history (h : Watched M M' py t d size o hint vs s s') (hc : vs.length < 2 ^ 63) (hl : s'.data.length < 2 ^ 63) {k : Nat} (hk : k ≤ vs.length)
    (fin : Bool) (sched : List Ev) :
    ∃ N sN, (N = vs.length ∨ N ≤ k) ∧ NpyWriter.save M solid t d o hint (vs.take N) s = (.ok (), sN) ∧
      ∃ g q, (NpyFile.new M' py disk ⟨sN.data, s.pos⟩).1 = .ok g ∧ g.data M' t = .ok q ∧ (g.intoVec M' disk t).1 = .ok ((vs.take N).map (readBack t d)) ∧
        ∀ cap evs last f r ops, (NpyFile.new M' py (live cap) (watchFailing M t d o hint (vs.take k) fin s sched evs last)).1 = .ok f →
          f.data M' t = .ok r →
          ((r.steps M' (live cap) ops).1 = (q.steps M' disk ops).1 ∨
           ∃ j e out, j < ops.length ∧ (r.steps M' (live cap) ops).1.take j = (q.steps M' disk ops).1.take j ∧
            (r.steps M' (live cap) ops).1[j]? = some out ∧ FailsWith e out) := by
  obtain ⟨N, Q, sN, hdrB, items, hdr, hW, hN, h2, hQ, hNQ, hil, h3, h4, hrun, h5, h6, h7, h8, h9, h10⟩ := failing_open h hk fin sched
  refine ⟨N, sN, h2, hW.saved, ?_⟩
  obtain ⟨g, g1, -, -, -, g5, g6, g7, g8, -⟩ := watch_open hW 0 [] 0
  have hNl : (vs.take N).length = N := by rw [List.length_take]; omega
  have hlN : sN.data.length < 2 ^ 63 := by
    obtain ⟨oldF, hdrF, itemsF, K, hS⟩ := seen1 h
    obtain ⟨oldN, hdrN, itemsN, KN, hSN⟩ := seen1 hW
    have a1 := congrArg List.length hS.final
    have a2 := congrArg List.length hSN.final
    have a3 := hS.len
    have a4 := hSN.len
    rw [hS.unfinished] at a3
    rw [hSN.unfinished] at a4
    rw [List.length_drop] at a1 a2
    simp only [List.length_append] at a1 a2 a3 a4
    obtain ⟨w, s1, hb⟩ := save_begins h.saved
    obtain ⟨hst, -, -, -⟩ := begin_ok hb
    have hlen : ∀ v b, encode t d v = some b → b.length = size := fun v b => encode_length h.wf h.exact h.writable hst.prog v b
    have b1 := (encodeAll_item hlen vs hS.enc).1
    have b2 := (encodeAll_item hlen (vs.take N) hSN.enc).1
    rw [hNl] at b2
    have b3 : N * size ≤ vs.length * size := Nat.mul_le_mul_right _ hN
    have b4 := hS.finalLen
    have b5 := hSN.finalLen
    omega
  cases hq : g.data M' t with
  | err e => simp only [NpyFile.intoVec, hq] at g8; cases g8
  | panic => simp only [NpyFile.intoVec, hq] at g8; cases g8
  | ok q =>
    obtain ⟨I, i1, i2, i3⟩ := watch_inv hW (by omega) hlN g1 g5 g6 g7 g8 hq
    refine ⟨g, q, by rw [g1], hq, by rw [g8], ?_⟩
    intro cap evs last f r ops hf hr
    rw [new_ok (hrun items) h3 h4] at g1
    obtain ⟨g2, -⟩ := Prod.mk.inj g1
    cases g2
    rcases h10 sN.data items.length (by omega) (by rw [List.take_length]; exact h3) cap evs last with ⟨e, h11⟩ | ⟨f', k1, k2, k3⟩
    · rw [hf] at h11; cases h11
    · rw [k1] at hf
      cases hf
      obtain ⟨j1, p, j2, rfl⟩ := data_ok_iff.mp hr
      obtain ⟨m1, p', m2, rfl⟩ := data_ok_iff.mp hq
      simp only [k2] at j2
      simp only at m2
      rw [j2] at m2
      cases m2
      rcases alike_steps (M := M') (live_alike cap (s.pos + hdrB.length) sN.data) I i2 i3 ops (r := ⟨f.header, p, f.src, 0⟩) ⟨k2, rfl, rfl, k3⟩ i1 with
        ⟨a1, -⟩ | ⟨j, e, out, a1, -, a2, a3, a4⟩
      · exact .inl a1
      · exact .inr ⟨j, e, out, a1, a2, a3, a4⟩

theorem extend_recorded {V : Type} (vs : List V) (w : NpyWriter V) (σ : Sink × List Ev × List Bytes) :
    (w.extend M traced vs σ).1 = (w.extend M shaky vs (σ.1, σ.2.1)).1 ∧ (w.extend M traced vs σ).2.1 = (w.extend M shaky vs (σ.1, σ.2.1)).2.1 ∧
    ((w.extend M traced vs σ).2.2.1, (w.extend M traced vs σ).2.2.2.1) = (w.extend M shaky vs (σ.1, σ.2.1)).2.2 := by
  induction vs generalizing w σ with
  | nil => exact ⟨rfl, rfl, rfl⟩
  | cons v vs ih =>
    unfold NpyWriter.extend NpyWriter.push
    cases hc : w.counted M with
    | err e => exact ⟨rfl, rfl, rfl⟩
    | panic => exact ⟨rfl, rfl, rfl⟩
    | ok w' =>
      simp only [traced, shaky]
      rcases hr : (w'.prog v).runSched σ.1 σ.2.1 with ⟨(⟨⟩ | e | _), s2, ev2⟩
      · exact ih w' (s2, ev2, σ.2.2 ++ (w'.prog v).seen σ.1 σ.2.1)
      · exact ⟨rfl, rfl, rfl⟩
      · exact ⟨rfl, rfl, rfl⟩

theorem drop_recorded {V : Type} (w : NpyWriter V) (σ : Sink × List Ev × List Bytes) :
    (w.drop M traced σ).1 = (w.drop M shaky (σ.1, σ.2.1)).1 ∧ ((w.drop M traced σ).2.1, (w.drop M traced σ).2.2.1) = (w.drop M shaky (σ.1, σ.2.1)).2 := by
  unfold NpyWriter.drop
  simp only [traced, shaky]
  rcases (w.finish_ M).runSched σ.1 σ.2.1 with ⟨(⟨⟩ | e | _), s2, ev2⟩ <;> exact ⟨rfl, rfl⟩

theorem finish_recorded {V : Type} (w : NpyWriter V) (σ : Sink × List Ev × List Bytes) :
    (w.finish M traced σ).1 = (w.finish M shaky (σ.1, σ.2.1)).1 ∧ ((w.finish M traced σ).2.1, (w.finish M traced σ).2.2.1) = (w.finish M shaky (σ.1, σ.2.1)).2 := by
  unfold NpyWriter.finish
  obtain ⟨h1, h2⟩ := drop_recorded (M := M) w (traced.exec (w.finish_ M) σ).2
  have h3 : shaky.exec (w.finish_ M) (σ.1, σ.2.1) = ((traced.exec (w.finish_ M) σ).1, (traced.exec (w.finish_ M) σ).2.1, (traced.exec (w.finish_ M) σ).2.2.1) := rfl
  rw [h3]
  rcases hd : w.drop M traced (traced.exec (w.finish_ M) σ).2 with ⟨r1, σ1⟩
  rcases he : w.drop M shaky ((traced.exec (w.finish_ M) σ).2.1, (traced.exec (w.finish_ M) σ).2.2.1) with ⟨r2, σ2⟩
  rw [hd, he] at h1 h2
  simp only at h1 h2
  subst h1 h2
  rcases r1 with _ | _ | _ <;> exact ⟨rfl, rfl⟩

/-- C121: these are the sessions of the library: recording what the file holds changes neither their results nor what they leave behind, and if the values are
all pushed and the writer is finished, the session is the one of the other claims. -/
theorem C121_sessions (k : Nat) (fin : Bool) (sched : List Ev) (tr : List Bytes) :
    (NpyWriter.attempt M traced t d o hint (vs.take k) fin (s, sched, tr)).1 = (NpyWriter.attempt M shaky t d o hint (vs.take k) fin (s, sched)).1 ∧
    (NpyWriter.attempt M traced t d o hint (vs.take k) fin (s, sched, tr)).2.1 = (NpyWriter.attempt M shaky t d o hint (vs.take k) fin (s, sched)).2.1 ∧
    NpyWriter.attempt M shaky t d o hint vs true (s, sched) = NpyWriter.save M shaky t d o hint vs (s, sched) := by
  have key : (NpyWriter.attempt M traced t d o hint (vs.take k) fin (s, sched, tr)).1 = (NpyWriter.attempt M shaky t d o hint (vs.take k) fin (s, sched)).1 ∧
      ((NpyWriter.attempt M traced t d o hint (vs.take k) fin (s, sched, tr)).2.1, (NpyWriter.attempt M traced t d o hint (vs.take k) fin (s, sched, tr)).2.2.1) =
        (NpyWriter.attempt M shaky t d o hint (vs.take k) fin (s, sched)).2 := by
    unfold NpyWriter.attempt
    have h3 : shaky.exec (NpyWriter.begin M t d o hint) (s, sched) = ((traced.exec (NpyWriter.begin M t d o hint) (s, sched, tr)).1,
      (traced.exec (NpyWriter.begin M t d o hint) (s, sched, tr)).2.1, (traced.exec (NpyWriter.begin M t d o hint) (s, sched, tr)).2.2.1) := rfl
    rw [h3]
    rcases traced.exec (NpyWriter.begin M t d o hint) (s, sched, tr) with ⟨(w | e | _), σ⟩
    · simp only
      obtain ⟨h1, h2, h3⟩ := extend_recorded (M := M) (vs.take k) w σ
      rcases hx : w.extend M traced (vs.take k) σ with ⟨r1, w1, σ1⟩
      rcases hy : w.extend M shaky (vs.take k) (σ.1, σ.2.1) with ⟨r2, w2, σ2⟩
      rw [hx, hy] at h1 h2 h3
      simp only at h1 h2 h3
      subst h1 h2 h3
      rcases r1 with ⟨⟩ | e | _
      · simp only
        cases fin with
        | true => exact finish_recorded w1 σ1
        | false => exact drop_recorded w1 σ1
      · simp only
        obtain ⟨h1, h2⟩ := drop_recorded (M := M) w1 σ1
        rcases hd : w1.drop M traced σ1 with ⟨r1, σ3⟩
        rcases he : w1.drop M shaky (σ1.1, σ1.2.1) with ⟨r2, σ4⟩
        rw [hd, he] at h1 h2
        simp only at h1 h2
        subst h1 h2
        rcases r1 with _ | _ | _ <;> exact ⟨rfl, rfl⟩
      · exact ⟨rfl, (drop_recorded (M := M) w1 σ1).2⟩
    · exact ⟨rfl, rfl⟩
    · exact ⟨rfl, rfl⟩
  refine ⟨key.1, by rw [← key.2], ?_⟩
  unfold NpyWriter.attempt NpyWriter.save NpyWriter.saveWith
  rcases shaky.exec (NpyWriter.begin M t d o hint) (s, sched) with ⟨(w | e | _), σ⟩
  · simp only
    rcases w.extend M shaky vs σ with ⟨(⟨⟩ | e | _), w', σ'⟩ <;> rfl
  · rfl
  · rfl

/-- C121: nothing is left out: whatever the stream does, all contents that the file has between any two bytes of a program are among those that are found. -/
theorem C121_moments {α : Type} (p : WProg α) (s : Sink) (sched : List Ev) (tr : List Bytes) :
    ∃ m, (traced.exec p (s, sched, s.data :: tr)).2.1.data = (p.crash m s).data ∧
      ∀ n, (n ≤ m ∨ ∀ e, Ev.fail e ∉ sched) → (p.crash n s).data ∈ (traced.exec p (s, sched, s.data :: tr)).2.2.2 := by
  obtain ⟨m, h1, h2⟩ := WProg.seen_all p s sched
  refine ⟨m, h1, fun n hn => ?_⟩
  rcases List.mem_cons.mp (h2 n hn) with h | h
  · rw [h]
    exact List.mem_append_left _ List.mem_cons_self
  · exact List.mem_append_right _ h

/-- C121: in particular, all moments of the sessions of C119 are moments here. -/
theorem C121_undisturbed (h : Watched M M' py t d size o hint vs s s') (n : Nat) :
    ∃ m, foundAt M t d o hint vs true s [] m = ((NpyWriter.saveProg M t d o hint vs).crash n s).data := by
  obtain ⟨w, s1, hb⟩ := save_begins h.saved
  obtain ⟨items, he, -, -, -, -, hr, -⟩ := save_ok h.wf h.exact h.writable h.count (fun _ => h.place) h.saved
  obtain ⟨hst, h0, hk, hs1⟩ := begin_ok hb
  have hz : hint ≠ .twoD 0 := by rintro rfl; exact (hr 0 rfl).1 rfl
  have hwa := writer_writesAll hst.prog h.wf h.exact h.writable
  have hl := headerBytes_le d o hint
  have hpl := h.place
  obtain ⟨tr1, h1, h2⟩ := NpyWriter.begin_all hb (tr := [s.data]) List.mem_cons_self
  obtain ⟨tr2, h3, h4, h5⟩ := NpyWriter.extend_all (M := M) vs w hwa (by have := h.count; omega) s1 he (tr := tr1)
    (by have := h2 (headerBytes (dictText d o hint)).length; rw [List.take_length] at this; rw [hs1]; exact this)
  rw [h0, Nat.zero_add, hs1, Sink.put_put] at h3
  have hsave : (NpyWriter.attempt M traced t d o hint vs true (s, [], [s.data])).2 =
      (traced.exec (NpyWriter.finish_ M { w with numItems := vs.length })
        (traced.exec (NpyWriter.finish_ M { w with numItems := vs.length }) (s.put (headerBytes (dictText d o hint) ++ items), [], tr2)).2).2 := by
    rw [← NpyWriter.finish_state]
    unfold NpyWriter.attempt
    rw [h1]; simp only; rw [hs1, h3]
    rfl
  have hfound : ∀ c, c ∈ tr2 ++ (NpyWriter.finish_ M { w with numItems := vs.length }).seen (s.put (headerBytes (dictText d o hint) ++ items)) [] →
      ∃ m, foundAt M t d o hint vs true s [] m = c := by
    intro c hc
    have hc' : c ∈ (NpyWriter.attempt M traced t d o hint vs true (s, [], [s.data])).2.2.2 := by
      rw [hsave]
      exact List.mem_append_left _ hc
    obtain ⟨m, hm⟩ := List.mem_iff_getElem?.mp hc'
    exact ⟨m, by unfold foundAt; rw [hm]; rfl⟩
  have hprefix : ∀ n, (s.put ((headerBytes (dictText d o hint) ++ items).take n)).data ∈ tr2 := by
    intro n
    by_cases hn : n ≤ (headerBytes (dictText d o hint)).length
    · rw [List.take_append_of_le_length hn]
      exact h4 _ (h2 n)
    · have := h5 (n - (headerBytes (dictText d o hint)).length)
      rwa [hs1, Sink.put_put, ← List.take_length_add_append,
        show (headerBytes (dictText d o hint)).length + (n - (headerBytes (dictText d o hint)).length) = n by omega] at this
  obtain ⟨K, L, -, hK1, hK2, hK3, -⟩ := moments h.wf h.exact h.writable h.count h.place h.saved he
  by_cases hn : n < K
  · rw [hK1 n hn]
    exact hfound _ (List.mem_append_left _ (hprefix n))
  · by_cases hsk : hint.seeks = true
    · obtain ⟨j, hj⟩ := hK2 hsk n (by omega)
      have htorn := finish_torn (w := ({ w with numItems := vs.length } : NpyWriter t.Val)) hsk (hk hsk) (hst.count vs.length).toBegun (by omega) h.count hz
        (watched_fits h) items j
      rw [hj]
      obtain ⟨m, -, h6⟩ := WProg.seen_all (NpyWriter.finish_ M ({ w with numItems := vs.length } : NpyWriter t.Val)) (s.put (headerBytes (dictText d o hint) ++ items)) []
      have h7 := h6 j (.inr (by simp))
      rw [htorn] at h7
      apply hfound
      rcases List.mem_cons.mp h7 with h7 | h7
      · unfold tornFileBytes
        rw [h7]
        have := hprefix (headerBytes (dictText d o hint) ++ items).length
        rw [List.take_length] at this
        exact List.mem_append_left _ this
      · exact List.mem_append_right _ h7
    · rw [hK3 (by simpa using hsk) n (by omega)]
      have := hprefix (headerBytes (dictText d o hint) ++ items).length
      rw [List.take_length] at this
      exact hfound _ (List.mem_append_left _ this)

/-! ### Concrete cases -/

/-- What a program sees that opens and reads the file of a session of four numbers in two rows (behind three other bytes), of which the first `k` are pushed. -/
def rowsFound (k : Nat) (fin : Bool) (sched : List Ev) (cap : Nat) (evs : List (Nat × Nat)) (last : Nat) : Option (List Nat × Option (List Nat)) :=
  match (NpyFile.new ⟨false, 64, true⟩ Py.parse (live cap) (watchFailing ⟨false, 64, true⟩ f64 (.plain ⟨.little, .float, 8, none⟩) .c (.twoD 2)
    (([1#64, 2#64, 3#64, 4#64] : List f64.Val).take k) fin ⟨[9, 9, 9], 3, true⟩ sched evs last)).1 with
  | .ok f => some (f.header.shape, match (f.intoVec ⟨false, 64, true⟩ (live cap) f64).1 with
    | .ok xs => some (xs.map fun x : BitVec 64 => x.toNat)
    | _ => none)
  | _ => none

/-- C121_open, C121_read_file: for every schedule of the writer and of the reader, if the session is given up after two numbers. -/
example (fin : Bool) (sched : List Ev) :
    (∃ N, (N = 4 ∨ N ≤ 2) ∧ ∀ cap evs last,
      (∃ e, (NpyFile.new ⟨false, 64, true⟩ Py.parse (live cap) (watchFailing ⟨false, 64, true⟩ f64 (.plain ⟨.little, .float, 8, none⟩) .c (.twoD 2)
        ([1#64, 2#64] : List f64.Val) fin ⟨[9, 9, 9], 3, true⟩ sched evs last)).1 = .err e) ∨
      ∃ f, (NpyFile.new ⟨false, 64, true⟩ Py.parse (live cap) (watchFailing ⟨false, 64, true⟩ f64 (.plain ⟨.little, .float, 8, none⟩) .c (.twoD 2)
        ([1#64, 2#64] : List f64.Val) fin ⟨[9, 9, 9], 3, true⟩ sched evs last)).1 = .ok f ∧ f.header.shape = [N / 2, 2]) ∧
    ∀ cap evs last, readFile ⟨false, 64, true⟩ Py.parse (live cap) f64 (watchFailing ⟨false, 64, true⟩ f64 (.plain ⟨.little, .float, 8, none⟩) .c (.twoD 2)
        ([1#64, 2#64] : List f64.Val) fin ⟨[9, 9, 9], 3, true⟩ sched evs last) = .ok ([1#64, 2#64] : List f64.Val) ∨
      ∃ e, readFile ⟨false, 64, true⟩ Py.parse (live cap) f64 (watchFailing ⟨false, 64, true⟩ f64 (.plain ⟨.little, .float, 8, none⟩) .c (.twoD 2)
        ([1#64, 2#64] : List f64.Val) fin ⟨[9, 9, 9], 3, true⟩ sched evs last) = .err e := by
  obtain ⟨s', h, -⟩ := rows_watched
  refine ⟨?_, fun cap evs last => C121_read_file h (k := 2) (by decide) (.inl (by decide)) fin sched cap evs last⟩
  obtain ⟨N, h1, h2⟩ := C121_open h (k := 2) (by decide) fin sched
  refine ⟨N, h1, fun cap evs last => ?_⟩
  rcases h2 cap evs last with h | ⟨f, h3, -, h4, -⟩
  · exact .inl h
  · exact .inr ⟨f, h3, h4⟩

-- given up after one row: the file of one row, at the end
example : rowsFound 2 false [] 0 [] 1000 = some ([1, 2], some [1, 2]) := by decide +kernel
-- given up in the middle of a row: the file cannot be opened
example : rowsFound 3 true [] 0 [] 1000 = none := by decide +kernel
-- the second number is written in part only, then the disk is full for a while: the file has a header for one row, but reading it fails
example : rowsFound 4 true (List.replicate 7 (.short 200) ++ [.short 2, .fail 5]) 0 [] 1000 = some ([1, 2], none) := by decide +kernel
-- the same with the first number: the header is not completed
example : rowsFound 4 true (List.replicate 6 (.short 200) ++ [.short 2, .fail 5]) 0 [] 1000 = none := by decide +kernel
-- during the session, before the error
example : rowsFound 4 true (List.replicate 7 (.short 200) ++ [.short 2, .fail 5]) 0 [] 150 = none := by decide +kernel
-- completing the header fails, and is tried once more when the writer is dropped
example : rowsFound 4 true (List.replicate 12 (.short 200) ++ [.short 2, .fail 5]) 0 [] 1000 = some ([2, 2], some [1, 2, 3, 4]) := by decide +kernel

/-- C121_undisturbed, C121_moments -/
example (n : Nat) : ∃ m, foundAt ⟨false, 64, true⟩ f64 (.plain ⟨.little, .float, 8, none⟩) .c (.twoD 2) ([1#64, 2#64, 3#64, 4#64] : List f64.Val) true
    ⟨[9, 9, 9], 3, true⟩ [] m = ((NpyWriter.saveProg ⟨false, 64, true⟩ f64 (.plain ⟨.little, .float, 8, none⟩) .c (.twoD 2)
      ([1#64, 2#64, 3#64, 4#64] : List f64.Val)).crash n ⟨[9, 9, 9], 3, true⟩).data := by
  obtain ⟨s', h, -⟩ := rows_watched
  exact C121_undisturbed h n
example : (traced.exec (.write [1, 2, 3, 4] (.write [5] (.ret (.ok ())))) (⟨[], 0, true⟩, [.short 0, .interrupted, .short 1, .fail 3], [[]])).2.2.2 =
    [[], [], [1], [1], [1, 2], [1, 2, 3]] := by decide +kernel

/-- C121_history -/
example (sched : List Ev) : ∃ N sN, (N = 4 ∨ N ≤ 4) ∧
    NpyWriter.save ⟨false, 64, true⟩ solid f64 (.plain ⟨.little, .float, 8, none⟩) .c (.twoD 2) (([1#64, 2#64, 3#64, 4#64] : List f64.Val).take N) ⟨[9, 9, 9], 3, true⟩ =
      (.ok (), sN) := by
  obtain ⟨s', h, hl⟩ := rows_watched
  obtain ⟨N, sN, h1, h2, -⟩ := C121_history h (by decide) (by rw [hl]; decide) (k := 4) (by decide) true sched
  exact ⟨N, sN, h1, h2⟩

end Npyz.Props
