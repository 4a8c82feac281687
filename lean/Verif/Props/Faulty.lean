import Verif.Proofs.Faulty
import Verif.Proofs.FaultyWrite
import Verif.Props.Sparse
import Verif.Props.Faults
/-!
C91-C93: archives on failing streams.

`FlakyArchive` is an archive that is read from a stream with a schedule of short reads, interruptions and failures (as in
C26), and whose members may fail to open.  `ShakyArchive` is one that is written to a stream with such a schedule (as in
C63), and whose members may fail to start.
-/
set_option autoImplicit false
namespace Npyz.Props
open Npyz Spec Py RProg

section
variable {M M' : Machine} {py : PyParser} {t : Ty}

/-! ### C91 -/

/-- C91: whatever goes wrong with the stream of an archive, reading a sparse matrix gives what is in the archive (see
C53-C57 for what that is), or an error that was met; in particular never another matrix and no panic of its own.  The
archive is not changed. -/
theorem C91_never_wrong : Follows (FlakyArchive.readSparse M py t) (Sparse.fromNpz M py t) := (tracks_sparse t).follows

/-- C91: the same for the readers of the five formats. -/
theorem C91_formats : Follows (FlakyArchive.readCoo M py t) (Coo.fromNpz M py t) ∧ Follows (FlakyArchive.readCsr M py t) (Csr.fromNpz M py t) ∧
    Follows (FlakyArchive.readCsc M py t) (Csc.fromNpz M py t) ∧ Follows (FlakyArchive.readDia M py t) (Dia.fromNpz M py t) ∧
    Follows (FlakyArchive.readBsr M py t) (Bsr.fromNpz M py t) :=
  ⟨(tracks_coo t).follows, (tracks_csr t).follows, (tracks_csc t).follows, (tracks_dia t).follows, (tracks_bsr t).follows⟩

/-- C91: and for opening an array by its name. -/
theorem C91_by_name (name : Text) : Follows (FlakyArchive.byName M py name) (fun a => a.byName M py name) := (tracks_byName name).follows

theorem follows_harmless {α : Type} {p : ZipM α} {r : NpzArchive → Res α} (h : Follows p r) {z : FlakyArchive} (hz : Harmless z) :
    (p z).1 = r z.archive := by
  rcases (h z).2 with h | ⟨e, m, -⟩
  · exact h
  · cases m with
    | read c h => exact absurd h (hz.1 c)
    | opening c h => exact absurd h (hz.2 _)
    | invalid w h => exact absurd h (hz.2 _)
    | unsupported w h => exact absurd h (hz.2 _)

/-- C91: short reads and interruptions make no difference. -/
theorem C91_harmless {z : FlakyArchive} (hz : Harmless z) : (FlakyArchive.readSparse M py t z).1 = Sparse.fromNpz M py t z.archive :=
  follows_harmless C91_never_wrong hz

/-- C91: so a matrix that was written is read back from a failing stream, or an error is returned. -/
theorem C91_round_trip {d : DType} (hM : M.Wf) (hM' : M'.Wf) (hpy : py.ExtendsRef) {m : Sparse t} (hdef : t.defaultDType M = some (.ok d))
    (hf : SparseFits M M' d m) {w w' : NpzWriter} (h : m.writeNpz M hdef w = (.ok (), w')) {z : FlakyArchive} (hz : z.archive = w'.archive) :
    (FlakyArchive.readSparse M' py t z).1 = .ok (mapData (readBack t d) m) ∨ ∃ e, Meets z e ∧ (FlakyArchive.readSparse M' py t z).1 = .err e := by
  have := (C91_never_wrong (M := M') (py := py) (t := t) z).2
  rwa [hz, C53_round_trip hM hM' hpy hdef hf h] at this

/-! ### C92 -/

/-- C92: if writing a sparse matrix to a failing stream reports success then it would have succeeded on a reliable one, and
the members of the archive are the same. -/
theorem C92_success {r : DRes DType} {hdef : t.defaultDType M = some r} {m : Sparse t} {z z' : ShakyArchive}
    (h : ShakyArchive.writeSparse M hdef m z = (.ok (), z')) : m.writeNpz M hdef z.writer = (.ok (), z'.writer) := by
  obtain ⟨-, -, -, h1 | ⟨e, -, h1, -⟩⟩ := copies_sparse hdef m z
  · rw [h] at h1
    exact Prod.ext h1.1.symm h1.2.symm
  · rw [h] at h1; cases h1

/-- C92: so it is read back (see C53). -/
theorem C92_reads_back {d : DType} (hM : M.Wf) (hM' : M'.Wf) (hpy : py.ExtendsRef) {m : Sparse t} (hdef : t.defaultDType M = some (.ok d))
    (hf : SparseFits M M' d m) {z z' : ShakyArchive} (h : ShakyArchive.writeSparse M hdef m z = (.ok (), z')) :
    Sparse.fromNpz M' py t z'.writer.archive = .ok (mapData (readBack t d) m) :=
  C53_round_trip hM hM' hpy hdef hf (C92_success h)

/-- C92: in any case the result is the one on a reliable stream, with the same members, or it is an error that was met, and
then the archive has those members as far as they were written: some complete, and perhaps a part of the next. -/
theorem C92_left_over {r : DRes DType} {hdef : t.defaultDType M = some r} (m : Sparse t) (z : ShakyArchive) :
    ((ShakyArchive.writeSparse M hdef m z).1 = (m.writeNpz M hdef z.writer).1 ∧
      (ShakyArchive.writeSparse M hdef m z).2.writer = (m.writeNpz M hdef z.writer).2) ∨
    ∃ e, MeetsW z e ∧ (ShakyArchive.writeSparse M hdef m z).1 = .err e ∧
      PartOf (ShakyArchive.writeSparse M hdef m z).2.writer.members (m.writeNpz M hdef z.writer).2.members :=
  (copies_sparse hdef m z).2.2.2

theorem starts_writer {name : Text} {z z1 : ShakyArchive} (h : ShakyArchive.array name z = (.ok (), z1)) :
    z1.writer = z.writer.array name ∧ z1.evs = z.evs ∧ z1.starts = z.starts.tail := by
  unfold ShakyArchive.array at h
  rcases hs : z.starts with _ | ⟨(_ | c), starts⟩ <;> rw [hs] at h <;> cases h <;> exact ⟨rfl, rfl, rfl⟩

/-- C92 for a single array written with `finish`. -/
theorem C92_array {d : DType} {o : Order} {dims : List Nat} {vs : List t.Val} {name : Text} {z z' : ShakyArchive}
    (h : ShakyArchive.saveArray M t d o dims vs name z = (.ok (), z')) : z.writer.saveArray M t d o dims vs name = (.ok (), z'.writer) := by
  unfold ShakyArchive.saveArray ShakyArchive.andThen at h
  rcases hx : ShakyArchive.array name z with ⟨(⟨⟩ | e | _), z1⟩ <;> rw [hx] at h
  · obtain ⟨hw, he, -⟩ := starts_writer hx
    have e1 : z1 = ⟨⟨z.writer.members ++ [(fileNameFromArrayName name, [])]⟩, z1.starts, z.evs⟩ := by
      rw [← he]
      show z1 = ⟨z.writer.array name, _, _⟩
      rw [← hw]
    have h1 := (plain_shakyZip z.writer.members (fileNameFromArrayName name) z1.starts).save (M := M) (t := t) d o (.nd dims) vs ([], z.evs)
    have h2 := plainShaky_shaky.save (M := M) (t := t) d o (.nd dims) vs ([], z.evs)
    have h3 := plain_solid.save (M := M) (t := t) d o (.nd dims) vs []
    have h4 := (plain_zip z.writer.members (fileNameFromArrayName name)).save (M := M) (t := t) d o (.nd dims) vs []
    simp only at h h1 h2
    rw [e1, h1] at h
    rcases hs : NpyWriter.save M plainShaky t d o (.nd dims) vs ([], z.evs) with ⟨r, c, evs⟩
    rw [hs] at h h2
    simp only [Prod.mk.injEq] at h
    obtain ⟨rfl, rfl⟩ := h
    obtain ⟨s2, k1, k2⟩ := C64_success h2
    rw [h3] at k1
    have k3 : (NpyWriter.save M plainStream t d o (.nd dims) vs []).1 = .ok () := congrArg Prod.fst k1
    have k4 : plainSink (NpyWriter.save M plainStream t d o (.nd dims) vs []).2 = s2 := congrArg Prod.snd k1
    have k5 : (NpyWriter.save M plainStream t d o (.nd dims) vs []).2 = c := by
      rw [← k4] at k2
      exact k2.symm
    show NpyWriter.save M zipStream t d o (.nd dims) vs ⟨z.writer.members ++ [(fileNameFromArrayName name, [])]⟩ = _
    rw [h4, k3, k5]
  · cases h
  · cases h

/-! ### C93 -/

/-- C93, the part that holds: when success is reported, at most one failure of the stream was lost for each member that
was written (the one of the `flush` when its writer is dropped; nothing but the `flush` is lost, by C92), and no failure to
start a member.  Missing: that none is lost (`C93_violated`). -/
theorem C93_lost_partial {r : DRes DType} {hdef : t.defaultDType M = some r} {m : Sparse t} {z z' : ShakyArchive}
    (h : ShakyArchive.writeSparse M hdef m z = (.ok (), z')) :
    failures z.evs ≤ failures z'.evs + (z'.writer.members.length - z.writer.members.length) ∧
    ∀ c, z.starts.count (some c) = z'.starts.count (some c) := by
  obtain ⟨h1, h2⟩ := loses_sparse hdef m z z' h
  have h3 : z.writer.members.length ≤ z'.writer.members.length := by
    have := (copies_sparse hdef m z).2.2.1
    rw [C92_success h] at this
    exact this.length_le
  exact ⟨by omega, h2⟩

/-- C93, the part that holds, for a single array: an error of the stream is always reported. -/
theorem C93_array_partial {d : DType} {o : Order} {dims : List Nat} {vs : List t.Val} {name : Text} (z : ShakyArchive) :
    (ShakyArchive.saveArray M t d o dims vs name z).1 = (z.writer.saveArray M t d o dims vs name).1 ∨
    ∃ e, MeetsW z e ∧ (ShakyArchive.saveArray M t d o dims vs name z).1 = .err e := by
  unfold ShakyArchive.saveArray ShakyArchive.andThen
  have h3 := plain_solid.save (M := M) (t := t) d o (.nd dims) vs []
  have h4 := (plain_zip z.writer.members (fileNameFromArrayName name)).save (M := M) (t := t) d o (.nd dims) vs []
  have h5 : (z.writer.saveArray M t d o dims vs name).1 = (NpyWriter.save M solid t d o (.nd dims) vs (plainSink [])).1 := by
    show (NpyWriter.save M zipStream t d o (.nd dims) vs ⟨z.writer.members ++ [(fileNameFromArrayName name, [])]⟩).1 = _
    rw [h4, h3]
  rcases hx : ShakyArchive.array name z with ⟨(⟨⟩ | e | _), z1⟩
  · obtain ⟨hw, he, -⟩ := starts_writer hx
    have e1 : z1 = ⟨⟨z.writer.members ++ [(fileNameFromArrayName name, [])]⟩, z1.starts, z.evs⟩ := by
      rw [← he]
      show z1 = ⟨z.writer.array name, _, _⟩
      rw [← hw]
    have h1 := (plain_shakyZip z.writer.members (fileNameFromArrayName name) z1.starts).save (M := M) (t := t) d o (.nd dims) vs ([], z.evs)
    have h2 := plainShaky_shaky.save (M := M) (t := t) d o (.nd dims) vs ([], z.evs)
    simp only at h1 h2 ⊢
    rw [e1, h1, h5]
    rcases C64_reported (M := M) (t := t) (d := d) (o := o) (hint := .nd dims) (by intro h; cases h) (vs := vs) (s := plainSink [])
      (by intro h; cases h) z.evs with h | ⟨c, k1, k2⟩
    · left; rw [h2] at h; exact h
    · right; rw [h2] at k2; exact ⟨_, .stream c k1, k2⟩
  · right
    unfold ShakyArchive.array at hx
    rcases hs : z.starts with _ | ⟨(_ | c), starts⟩ <;> rw [hs] at hx <;> cases hx
    exact ⟨_, .starting c (by rw [hs]; exact List.mem_cons_self), rfl⟩
  · unfold ShakyArchive.array at hx
    rcases hs : z.starts with _ | ⟨(_ | c), starts⟩ <;> rw [hs] at hx <;> cases hx

end

/-! ### Concrete archives -/

/-- An archive with a matrix, on a failing stream. -/
def flakyCoo (opens : List (Option ZipErr)) (evs : List Ev) : FlakyArchive :=
  ⟨(cooMatrix.writeNpz pc f64_default .new).2.archive, opens, evs⟩

/-- Reading it: the data and the indices, or the error. -/
def readFlaky (opens : List (Option ZipErr)) (evs : List Ev) : Option (List (BitVec 64) × List (String × List (BitVec 64))) ⊕ Err :=
  match (FlakyArchive.readSparse pc Py.parse f64 (flakyCoo opens evs)).1 with
  | .ok m => .inl (some (dataOf m, indexArrays m))
  | .err e => .inr e
  | .panic => .inl none

example : readFlaky [] [.short 0, .interrupted, .short 100, .short 3] =
    .inl (some ([1#64, 2#64], [("row", [0#64, 1#64]), ("col", [2#64, 0#64])])) := by decide +kernel
example : readFlaky [] (List.replicate 20 (.short 1000) ++ [.fail 5]) = .inr (.source 5) := by decide +kernel
example : readFlaky [none, none, some (.io 7)] [] = .inr (.source 7) := by decide +kernel
example : Harmless (flakyCoo [none] [.short 0, .interrupted]) := ⟨by simp [flakyCoo], by simp [flakyCoo]⟩

/-- Writing a matrix to a failing stream: the error if any, the number of members, and whether the archive is the one
written to a reliable stream. -/
def writeShaky (starts : List (Option Nat)) (evs : List Ev) : Option Nat × Nat × Bool :=
  match ShakyArchive.writeSparse pc f64_default cooMatrix ⟨.new, starts, evs⟩ with
  | (r, z) => (match r with
      | .ok () => none
      | .err (.source c) => some c
      | _ => some 99, z.writer.members.length, z.writer == (cooMatrix.writeNpz pc f64_default .new).2)

-- success, a failing write in the second member, a third member that cannot be started
example : writeShaky [] [.short 0, .interrupted, .short 0, .short 20] = (none, 5, true) := by decide +kernel
example : writeShaky [] (List.replicate 8 (.short 1000) ++ [.fail 7]) = (some 7, 2, false) := by decide +kernel
example : writeShaky [none, none, some 4] [] = (some 4, 2, false) := by decide +kernel

/-- C93 is violated: the seventh call on the stream, the `flush` when the writer of the first array is dropped, fails, and
writing the matrix reports success. -/
theorem C93_violated : writeShaky [] (List.replicate 6 (.short 1000) ++ [.fail 7]) = (none, 5, true) := by decide +kernel

theorem shaky_written {starts : List (Option Nat)} {evs : List Ev} (h : (writeShaky starts evs).1 = none) :
    ∃ z', ShakyArchive.writeSparse pc f64_default cooMatrix ⟨.new, starts, evs⟩ = (.ok (), z') := by
  unfold writeShaky at h
  rcases hx : ShakyArchive.writeSparse pc f64_default cooMatrix ⟨.new, starts, evs⟩ with ⟨(⟨⟩ | e | _), z⟩
  · exact ⟨z, rfl⟩
  · rw [hx] at h; cases e <;> cases h
  · rw [hx] at h; cases h

/-- The matrix on a stream with short reads and interruptions, and on one with any errors. -/
example : (FlakyArchive.readSparse pc Py.parse f64 (flakyCoo [none] [.short 0, .interrupted])).1 =
    Sparse.fromNpz pc Py.parse f64 (flakyCoo [none] [.short 0, .interrupted]).archive :=
  C91_harmless ⟨by simp [flakyCoo], by simp [flakyCoo]⟩

example (opens : List (Option ZipErr)) (evs : List Ev) :
    (FlakyArchive.readSparse pc Py.parse f64 (flakyCoo opens evs)).1 = .ok (mapData (readBack f64 (.plain ⟨.little, .float, 8, none⟩)) cooMatrix) ∨
    ∃ e, Meets (flakyCoo opens evs) e ∧ (FlakyArchive.readSparse pc Py.parse f64 (flakyCoo opens evs)).1 = .err e := by
  obtain ⟨z', h⟩ := pc_written (m := cooMatrix) (by decide +kernel)
  exact C91_round_trip pc_wf pc_wf (fun _ _ h => h) f64_default cooMatrix_fits h (by unfold flakyCoo; rw [h])

theorem shaky_start (starts : List (Option Nat)) (evs : List Ev) (h : (writeShaky starts evs).1 = none) :
    ∃ z z', z.writer = .new ∧ z.starts = starts ∧ z.evs = evs ∧ ShakyArchive.writeSparse pc f64_default cooMatrix z = (.ok (), z') :=
  let ⟨z', h⟩ := shaky_written h
  ⟨_, z', rfl, rfl, rfl, h⟩

/-- Writing it through short writes and interruptions. -/
example : ∃ z z', z.evs = [.short 0, .interrupted, .short 0, .short 20] ∧ ShakyArchive.writeSparse pc f64_default cooMatrix z = (.ok (), z') ∧
    cooMatrix.writeNpz pc f64_default z.writer = (.ok (), z'.writer) ∧
    Sparse.fromNpz pc Py.parse f64 z'.writer.archive = .ok (mapData (readBack f64 (.plain ⟨.little, .float, 8, none⟩)) cooMatrix) := by
  obtain ⟨z, z', -, -, h1, h⟩ := shaky_start [] [.short 0, .interrupted, .short 0, .short 20] (by decide +kernel)
  exact ⟨z, z', h1, h, C92_success h, C92_reads_back pc_wf pc_wf (fun _ _ h => h) f64_default cooMatrix_fits h⟩

/-- The error of `C93_violated` is one of at most five that can be lost. -/
example : ∃ z z', failures z.evs = 1 ∧ ShakyArchive.writeSparse pc f64_default cooMatrix z = (.ok (), z') ∧
    failures z.evs ≤ failures z'.evs + (z'.writer.members.length - z.writer.members.length) := by
  obtain ⟨z, z', -, -, h1, h⟩ := shaky_start [] (List.replicate 6 (.short 1000) ++ [.fail 7]) (by decide +kernel)
  exact ⟨z, z', by rw [h1]; decide, h, (C93_lost_partial h).1⟩

def savedShaky (z : ShakyArchive) : Res Unit × ShakyArchive :=
  ShakyArchive.saveArray pc f64 (.plain ⟨.little, .float, 8, none⟩) .c [2] [4#64, 5#64] (txt "a") z

/-- One array, written one byte at a time. -/
example : ∃ z z', z.evs = [.short 0, .interrupted, .short 0] ∧ savedShaky z = (.ok (), z') ∧
    z.writer.saveArray pc f64 (.plain ⟨.little, .float, 8, none⟩) .c [2] [4#64, 5#64] (txt "a") = (.ok (), z'.writer) := by
  have h : (match (savedShaky ⟨.new, [], [.short 0, .interrupted, .short 0]⟩).1 with | .ok () => true | _ => false) = true := by decide +kernel
  rcases hx : savedShaky ⟨.new, [], [.short 0, .interrupted, .short 0]⟩ with ⟨(⟨⟩ | e | _), z⟩
  · exact ⟨_, z, rfl, hx, C92_array hx⟩
  · rw [hx] at h; cases h
  · rw [hx] at h; cases h

end Npyz.Props
