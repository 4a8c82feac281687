import Verif.Spec.Faulty
import Verif.Proofs.Read
/-!
Archives on failing streams.
-/
set_option autoImplicit false
namespace Npyz
open Spec RProg

/-! ### What is left of a schedule -/

theorem readLoop_left (evs : List Ev) (need : Nat) (src got : Bytes) : ∀ e ∈ (readLoop evs need src got).2.2, e ∈ evs := by
  induction evs generalizing need src got with
  | nil =>
    rw [readLoop]
    split <;> exact fun e h => h
  | cons ev evs ih =>
    rw [readLoop.eq_def]
    simp only
    by_cases h0 : need = 0
    · rw [if_pos h0]; exact fun e h => h
    · rw [if_neg h0]
      cases ev with
      | interrupted => exact fun e h => List.mem_cons_of_mem _ (ih _ _ _ e h)
      | fail c => exact fun e h => List.mem_cons_of_mem _ h
      | short k =>
        simp only
        split
        · exact fun e h => List.mem_cons_of_mem _ h
        · exact fun e h => List.mem_cons_of_mem _ (ih _ _ _ e h)

theorem runSched_left {α : Type} (p : RProg α) (src : Bytes) (evs : List Ev) : ∀ e ∈ (p.runSched src evs).2.2, e ∈ evs := by
  induction p generalizing src evs with
  | ret r => exact fun e h => h
  | read n eof k ih =>
    rw [runSched]
    have hl := readLoop_left evs n src []
    rcases hx : readLoop evs n src [] with ⟨(b | _ | c), src', evs'⟩
    · rw [hx] at hl
      exact fun e h => hl e (ih _ _ _ e h)
    · rw [hx] at hl; exact hl
    · rw [hx] at hl; exact hl

theorem flaky_left {α : Type} (p : RProg α) (s : FlakySrc) : ∀ e ∈ (flaky.exec p s).2.evs, e ∈ s.evs := runSched_left p _ _

theorem new_left {M : Machine} {py : PyParser} (s : FlakySrc) : ∀ e ∈ (NpyFile.new M py flaky s).2.evs, e ∈ s.evs := by
  have h := flaky_left (NpyHeader.fromReader M py) s
  unfold NpyFile.new
  rcases hx : flaky.exec (NpyHeader.fromReader M py) s with ⟨(f | e | _), s'⟩ <;> rw [hx] at h <;> exact h

theorem next_left {V : Type} (r : NpyReader V FlakySrc) : ∀ e ∈ (r.next flaky).2.src.evs, e ∈ r.src.evs := by
  unfold NpyReader.next
  split
  · exact flaky_left r.prog r.src
  · exact fun e h => h

theorem collectLoop_left {V : Type} (k : Nat) (r : NpyReader V FlakySrc) : ∀ e ∈ (r.collectLoop flaky k).2.src.evs, e ∈ r.src.evs := by
  induction k generalizing r with
  | zero => exact fun e h => h
  | succ k ih =>
    have hn := next_left r
    rw [NpyReader.collectLoop]
    rcases hx : r.next flaky with ⟨(_ | v | e | _), r'⟩ <;> rw [hx] at hn
    · exact hn
    · have hi := ih r'
      simp only
      rcases hy : r'.collectLoop flaky k with ⟨(vs | e | _), r''⟩ <;> rw [hy] at hi <;> exact fun e h => hn e (hi e h)
    · exact hn
    · exact hn

/-! ### Reading -/

/-- `Follows`, with what is left of the schedules. -/
def Tracks {α : Type} (p : ZipM α) (r : NpzArchive → Res α) : Prop :=
  ∀ z, (p z).2.archive = z.archive ∧ (∀ e ∈ (p z).2.opens, e ∈ z.opens) ∧ (∀ e ∈ (p z).2.evs, e ∈ z.evs) ∧
    ((p z).1 = r z.archive ∨ ∃ e, Meets z e ∧ (p z).1 = .err e)

theorem Tracks.follows {α : Type} {p : ZipM α} {r : NpzArchive → Res α} (h : Tracks p r) : Follows p r :=
  fun z => ⟨(h z).1, (h z).2.2.2⟩

theorem meets_mono {z z' : FlakyArchive} (ho : ∀ e ∈ z'.opens, e ∈ z.opens) (he : ∀ e ∈ z'.evs, e ∈ z.evs) {e : Err} (h : Meets z' e) :
    Meets z e := by
  cases h with
  | read c h => exact .read c (he _ h)
  | opening c h => exact .opening c (ho _ h)
  | invalid w h => exact .invalid w (ho _ h)
  | unsupported w h => exact .unsupported w (ho _ h)

theorem Tracks.lift {α : Type} (r : Res α) : Tracks (ZipM.lift r) fun _ => r :=
  fun _ => ⟨rfl, fun _ h => h, fun _ h => h, .inl rfl⟩

theorem Tracks.bind {α β : Type} {p : ZipM α} {r : NpzArchive → Res α} {k : α → ZipM β} {r' : α → NpzArchive → Res β}
    (hp : Tracks p r) (hk : ∀ a, Tracks (k a) (r' a)) : Tracks (p >>= k) fun a => r a >>= fun x => r' x a := by
  intro z
  obtain ⟨h1, h2, h3, h4⟩ := hp z
  have hb : (p >>= k) z = ZipM.bind p k z := rfl
  rw [hb]
  unfold ZipM.bind
  rcases hx : p z with ⟨(a | e | _), z'⟩ <;> rw [hx] at h1 h2 h3 h4 <;> simp only at h1 h2 h3 h4 ⊢
  · obtain ⟨k1, k2, k3, k4⟩ := hk a z'
    refine ⟨k1.trans h1, fun e h => h2 e (k2 e h), fun e h => h3 e (k3 e h), ?_⟩
    rcases h4 with h4 | ⟨e, -, h4⟩
    · rw [← h4]
      rcases k4 with k4 | ⟨e, m, k4⟩
      · exact .inl (by rw [k4, h1]; rfl)
      · exact .inr ⟨e, meets_mono h2 h3 m, k4⟩
    · cases h4
  · refine ⟨h1, h2, h3, ?_⟩
    rcases h4 with h4 | ⟨e', m, h4⟩
    · exact .inl (by rw [← h4]; rfl)
    · cases h4; exact .inr ⟨e, m, rfl⟩
  · refine ⟨h1, h2, h3, ?_⟩
    rcases h4 with h4 | ⟨e', m, h4⟩
    · exact .inl (by rw [← h4]; rfl)
    · cases h4

theorem Tracks.pure {α : Type} (a : α) : Tracks (Pure.pure a : ZipM α) fun _ => .ok a :=
  fun _ => ⟨rfl, fun _ h => h, fun _ h => h, .inl rfl⟩

section
variable {M : Machine} {py : PyParser}

theorem tracks_openMember (content : Bytes) : Tracks (FlakyArchive.openMember M py content) fun _ => NpzArchive.openMember M py content := by
  intro z
  have hl := new_left (M := M) (py := py) ⟨⟨content, 0⟩, z.evs⟩
  unfold FlakyArchive.openMember NpzArchive.openMember
  rcases flaky_new (M := M) py ⟨⟨content, 0⟩, z.evs⟩ with ⟨evs, -, h2, h3⟩ | ⟨c, h1, h2⟩
  · rcases hx : NpyFile.new M py flaky ⟨⟨content, 0⟩, z.evs⟩ with ⟨x, s⟩
    rw [hx] at h2 h3 hl
    simp only at h2 h3 hl
    rcases hy : (NpyFile.new M py disk ⟨content, 0⟩).1 with f | e | _ <;> rw [hy] at h3 <;> subst h3
    · exact ⟨rfl, fun _ h => h, hl, .inl rfl⟩
    · exact ⟨rfl, fun _ h => h, hl, .inl rfl⟩
    · exact ⟨rfl, fun _ h => h, hl, .inl rfl⟩
  · rcases hx : NpyFile.new M py flaky ⟨⟨content, 0⟩, z.evs⟩ with ⟨x, s⟩
    rw [hx] at h2 hl
    simp only at h2 hl
    subst h2
    exact ⟨rfl, fun _ h => h, hl, .inr ⟨_, .read c h1, rfl⟩⟩

theorem tracks_byName (name : Text) : Tracks (FlakyArchive.byName M py name) fun a => a.byName M py name := by
  intro z
  unfold FlakyArchive.byName NpzArchive.byName
  simp only
  rcases z.archive.find (fileNameFromArrayName name) with _ | content
  · exact ⟨rfl, fun _ h => h, fun _ h => h, .inl rfl⟩
  · simp only
    have ht := tracks_openMember (M := M) (py := py) content { z with opens := z.opens.tail }
    have good : ∀ p : Res (Option (NpyFile Src)) × FlakyArchive, p = FlakyArchive.openMember M py content { z with opens := z.opens.tail } →
        p.2.archive = z.archive ∧ (∀ e ∈ p.2.opens, e ∈ z.opens) ∧ (∀ e ∈ p.2.evs, e ∈ z.evs) ∧
        (p.1 = NpzArchive.openMember M py content ∨ ∃ e, Meets z e ∧ p.1 = .err e) := by
      rintro _ rfl
      refine ⟨ht.1, fun e h => List.mem_of_mem_tail (ht.2.1 e h), ht.2.2.1, ?_⟩
      rcases ht.2.2.2 with h | ⟨e, m, h⟩
      · exact .inl h
      · exact .inr ⟨e, meets_mono (z' := { z with opens := z.opens.tail }) (fun e h => List.mem_of_mem_tail h) (fun e h => h) m, h⟩
    rcases ho : z.opens with _ | ⟨(_ | x), opens⟩ <;> rw [ho] at good
    · exact good _ rfl
    · exact good _ rfl
    · refine ⟨rfl, fun e h => List.mem_cons_of_mem _ h, fun e h => h, .inr ⟨x.toIo, ?_, rfl⟩⟩
      cases x with
      | io c => exact .opening c (by rw [ho]; exact List.mem_cons_self)
      | invalidArchive => exact .invalid _ (by rw [ho]; exact List.mem_cons_self)
      | unsupportedArchive => exact .unsupported _ (by rw [ho]; exact List.mem_cons_self)

theorem tracks_collect {V : Type} (r : NpyReader V Src) : Tracks (FlakyArchive.collect r) fun _ => (r.collect disk).1 := by
  intro z
  have hl := collectLoop_left (r.header.nRecords - r.cur + 1) (⟨r.header, r.prog, ⟨r.src, z.evs⟩, r.cur⟩ : NpyReader V FlakySrc)
  have hf := flaky_collectLoop (r.header.nRecords - r.cur + 1) (⟨r.header, r.prog, ⟨r.src, z.evs⟩, r.cur⟩ : NpyReader V FlakySrc)
  refine ⟨rfl, fun _ h => h, hl, ?_⟩
  rcases hf with ⟨h, -⟩ | ⟨c, h1, h2⟩
  · exact .inl h
  · exact .inr ⟨_, .read c h1, h2⟩

theorem intoVec_left {t : Ty} (f : NpyFile FlakySrc) : ∀ e ∈ (f.intoVec M flaky t).2.evs, e ∈ f.src.evs := by
  unfold NpyFile.intoVec
  rcases hd : f.data M t with r | e | _
  · obtain ⟨-, p, -, hr⟩ := data_ok_iff.mp hd
    have hsrc : r.src = f.src := by rw [hr]
    rw [← hsrc]
    exact collectLoop_left _ r
  · exact fun _ h => h
  · exact fun _ h => h

theorem tracks_intoVec {t : Ty} (f : NpyFile Src) : Tracks (FlakyArchive.intoVec M t f) fun _ => (f.intoVec M disk t).1 := by
  intro z
  refine ⟨rfl, fun _ h => h, intoVec_left (M := M) (t := t) ⟨f.header, ⟨f.src, z.evs⟩⟩, ?_⟩
  rcases flaky_intoVec (M := M) (t := t) ⟨f.header, ⟨f.src, z.evs⟩⟩ with ⟨h, -⟩ | ⟨c, h1, h2⟩
  · exact .inl h
  · exact .inr ⟨_, .read c h1, h2⟩

theorem tracks_extract (name : String) (ndim : Nat) :
    Tracks (FlakyArchive.extractAndCheckNdim M py name ndim) fun a => Sparse.extractAndCheckNdim M py a name ndim :=
  (tracks_byName _).bind fun m => (Tracks.lift (Sparse.present m)).bind fun f => Tracks.lift _

theorem tracks_scalar (t : Ty) (name : String) :
    Tracks (FlakyArchive.extractScalar M py t name) fun a => Sparse.extractScalar M py t a name :=
  (tracks_extract _ _).bind fun f => (tracks_intoVec f).bind fun vs => Tracks.lift _

theorem tracks_expectFormat (expected : String) :
    Tracks (FlakyArchive.expectFormat M py expected) fun a => Sparse.expectFormat M py a expected :=
  (tracks_scalar .vecU8 "format").bind fun _ => Tracks.lift _

theorem tracks_indicesI64 (f : NpyFile Src) : Tracks (FlakyArchive.indicesI64 M f) fun _ => Sparse.indicesI64 M f := by
  unfold FlakyArchive.indicesI64 Sparse.indicesI64
  rcases f.tryData M (.num .i64) with r | f' | _
  · exact tracks_collect r
  · exact Tracks.lift _
  · exact Tracks.lift _

theorem tracks_indicesOf (f : NpyFile Src) : Tracks (FlakyArchive.indicesOf M f) fun _ => Sparse.indicesOf M f := by
  unfold FlakyArchive.indicesOf Sparse.indicesOf
  rcases f.tryData M (.num .i32) with r | f' | _
  · exact (tracks_collect r).bind fun xs => Tracks.pure _
  · exact tracks_indicesI64 f'
  · exact Tracks.lift _

theorem tracks_indices (name : String) : Tracks (FlakyArchive.extractIndices M py name) fun a => Sparse.extractIndices M py a name :=
  (tracks_extract _ _).bind fun f => tracks_indicesOf f

theorem tracks_usize (name : String) : Tracks (FlakyArchive.extractUsizeIndices M py name) fun a => Sparse.extractUsizeIndices M py a name :=
  (tracks_indices name).bind fun _ => Tracks.pure _

theorem tracks_shape (name : String) : Tracks (FlakyArchive.extractShape M py name) fun a => Sparse.extractShape M py a name :=
  (tracks_indices name).bind fun _ => Tracks.lift _

theorem tracks_1d (t : Ty) (name : String) : Tracks (FlakyArchive.extract1d M py t name) fun a => Sparse.extract1d M py t a name :=
  (tracks_extract _ _).bind fun f => tracks_intoVec f

theorem tracks_nd (t : Ty) (name : String) (ndim : Nat) : Tracks (FlakyArchive.extractNd M py t name ndim) fun a => Sparse.extractNd M py t a name ndim :=
  (tracks_extract _ _).bind fun f => (Tracks.lift (Sparse.requireC f)).bind fun _ => (tracks_intoVec f).bind fun _ => Tracks.pure _

theorem tracks_coo (t : Ty) : Tracks (FlakyArchive.readCoo M py t) (Coo.fromNpz M py t) :=
  (tracks_expectFormat "coo").bind fun _ => (tracks_shape "shape").bind fun _ => (tracks_indices "row").bind fun _ =>
    (tracks_indices "col").bind fun _ => (tracks_1d t "data").bind fun _ => Tracks.pure _

theorem tracks_csr (t : Ty) : Tracks (FlakyArchive.readCsr M py t) (Csr.fromNpz M py t) :=
  (tracks_expectFormat "csr").bind fun _ => (tracks_shape "shape").bind fun _ => (tracks_indices "indices").bind fun _ =>
    (tracks_usize "indptr").bind fun _ => (tracks_1d t "data").bind fun _ => Tracks.pure _

theorem tracks_csc (t : Ty) : Tracks (FlakyArchive.readCsc M py t) (Csc.fromNpz M py t) :=
  (tracks_expectFormat "csc").bind fun _ => (tracks_shape "shape").bind fun _ => (tracks_indices "indices").bind fun _ =>
    (tracks_usize "indptr").bind fun _ => (tracks_1d t "data").bind fun _ => Tracks.pure _

theorem tracks_dia (t : Ty) : Tracks (FlakyArchive.readDia M py t) (Dia.fromNpz M py t) :=
  (tracks_expectFormat "dia").bind fun _ => (tracks_shape "shape").bind fun _ => (tracks_indices "offsets").bind fun _ =>
    (tracks_nd t "data" 2).bind fun _ => Tracks.pure _

theorem tracks_bsr (t : Ty) : Tracks (FlakyArchive.readBsr M py t) (Bsr.fromNpz M py t) :=
  (tracks_expectFormat "bsr").bind fun _ => (tracks_shape "shape").bind fun _ => (tracks_indices "indices").bind fun _ =>
    (tracks_usize "indptr").bind fun _ => (tracks_nd t "data" 3).bind fun r => (Tracks.lift (Sparse.index r.2 1)).bind fun _ =>
      (Tracks.lift (Sparse.index r.2 2)).bind fun _ => Tracks.pure _

theorem tracks_dispatch (t : Ty) (format : Bytes) :
    Tracks (FlakyArchive.dispatch M py t format) fun a => Sparse.dispatch M py t a format := by
  unfold FlakyArchive.dispatch Sparse.dispatch
  by_cases h1 : format = Sparse.strBytes "coo"
  · simp only [if_pos h1]; exact (tracks_coo t).bind fun _ => Tracks.pure _
  · simp only [if_neg h1]
    by_cases h2 : format = Sparse.strBytes "csc"
    · simp only [if_pos h2]; exact (tracks_csc t).bind fun _ => Tracks.pure _
    · simp only [if_neg h2]
      by_cases h3 : format = Sparse.strBytes "csr"
      · simp only [if_pos h3]; exact (tracks_csr t).bind fun _ => Tracks.pure _
      · simp only [if_neg h3]
        by_cases h4 : format = Sparse.strBytes "dia"
        · simp only [if_pos h4]; exact (tracks_dia t).bind fun _ => Tracks.pure _
        · simp only [if_neg h4]
          by_cases h5 : format = Sparse.strBytes "bsr"
          · simp only [if_pos h5]; exact (tracks_bsr t).bind fun _ => Tracks.pure _
          · simp only [if_neg h5]; exact Tracks.lift _

theorem tracks_sparse (t : Ty) : Tracks (FlakyArchive.readSparse M py t) (Sparse.fromNpz M py t) :=
  (tracks_scalar .vecU8 "format").bind fun format => tracks_dispatch t format

end

end Npyz
