import Verif.Proofs.Stream
import Verif.Proofs.Portable
import Verif.Props.Writer
/-!
C67-C69: several arrays in one stream, grouping of calls, other machines.
-/
namespace Npyz.Props
open Npyz Spec Py RProg

/-! ### C67 -/

/-- C67: arrays of any element types, shapes and orders that were written one after the other to the same
stream are read back one after the other: opening and reading the first one leaves the source where the
second one starts, and so on, up to the position at which writing stopped. -/
theorem C67_consecutive {M M' : Machine} (hM' : M'.Wf) {py : PyParser} (hpy : py.ExtendsRef) {as : List Arr} {s s' : Sink}
    (ha : ∀ a ∈ as, a.Fits M M') (hpos : s'.pos + 76 ≤ 2 ^ 64) (h : saveArrays M solid as s = (.ok (), s')) :
    ReadsAll M' py as ⟨s'.data, s.pos⟩ ⟨s'.data, s'.pos⟩ := (saveArrays_reads hM' hpy as ha hpos h).1

/-- C67: what was in the stream before is not changed. -/
theorem C67_before {M M' : Machine} (hM' : M'.Wf) {as : List Arr} {s s' : Sink} (ha : ∀ a ∈ as, a.Fits M M')
    (hpos : s'.pos + 76 ≤ 2 ^ 64) (h : saveArrays M solid as s = (.ok (), s')) (hl : s.pos ≤ s.data.length) :
    s'.data.take s.pos = s.data.take s.pos :=
  (saveArrays_reads (py := Py.parse) hM' (fun _ _ h => h) as ha hpos h).2 hl

/-- Two arrays of different types. -/
def twoArrays : List Arr :=
  [⟨f64, .plain ⟨.little, .float, 8, none⟩, .c, .oneD, [1#64, 2#64]⟩,
   ⟨.bool, .plain ⟨.irrelevant, .bool, 1, none⟩, .fortran, .twoD 3, [true, false, true]⟩]

/-- The result, the position and the length. -/
def savedLen (as : List Arr) (s : Sink) : Bool × Nat × Nat :=
  match saveArrays ⟨false, 64, true⟩ solid as s with
  | (.ok (), s') => (true, s'.pos, s'.data.length)
  | (_, s') => (false, s'.pos, s'.data.length)

-- the hypotheses are met: two arrays after three bytes of something else
example : savedLen twoArrays ⟨[7, 7, 7], 3, true⟩ = (true, 3 + (128 + 16) + (128 + 3), 3 + (128 + 16) + (128 + 3)) := by decide +kernel

theorem twoArrays_fit : ∀ a ∈ twoArrays, a.Fits ⟨false, 64, true⟩ ⟨true, 32, false⟩ := by
  intro a ha
  simp only [twoArrays, List.mem_cons, List.not_mem_nil, or_false] at ha
  rcases ha with rfl | rfl
  · exact ⟨⟨by constructor <;> simp [SizeAllowed, OrderMatters], by decide, by simp⟩, ⟨8, by decide, by decide, by decide⟩, (fun n hn => by cases hn; decide), ⟨_, rfl⟩,
      trivial, by decide, by decide⟩
  · exact ⟨⟨by constructor <;> simp [SizeAllowed, OrderMatters], by decide, by simp⟩, ⟨1, by decide, by decide, by decide⟩, (fun n hn => by cases hn; decide), ⟨_, rfl⟩,
      by decide, by decide, by decide⟩

/-- C67_consecutive, C67_before. -/
example : ∃ s s' : Sink, s.pos = 3 ∧ saveArrays ⟨false, 64, true⟩ solid twoArrays s = (.ok (), s') ∧
    ReadsAll ⟨true, 32, false⟩ Py.parse twoArrays ⟨s'.data, s.pos⟩ ⟨s'.data, s'.pos⟩ ∧ s'.data.take s.pos = s.data.take s.pos := by
  have h : savedLen twoArrays ⟨[7, 7, 7], 3, true⟩ = (true, 278, 278) := by decide +kernel
  unfold savedLen at h
  rcases hx : saveArrays ⟨false, 64, true⟩ solid twoArrays ⟨[7, 7, 7], 3, true⟩ with ⟨(⟨⟩ | e | _), s'⟩
  · rw [hx] at h
    simp only [Prod.mk.injEq, true_and] at h
    exact ⟨_, s', rfl, hx, C67_consecutive (.inl rfl) (fun _ _ h => h) twoArrays_fit (by omega) hx, C67_before (.inl rfl) twoArrays_fit (by omega) hx (by decide)⟩
  · rw [hx] at h; cases h
  · rw [hx] at h; cases h

/-! ### C68 -/

/-- C68: it does not matter how values are grouped into `push` and `extend` calls: on every stream, failing
or not, a sequence of calls (up to the first error) has the result of a single `extend` of all the values,
and leaves the same writer and the same stream. -/
theorem C68_grouping {M : Machine} {t : Ty} {σ : Type} (T : Target σ) (cs : List (AddCall t)) (w : NpyWriter t.Val) (s : σ) :
    addAll M T cs w s = w.extend M T (cs.flatMap AddCall.values) s := addAll_eq M T cs w s

/-- C68: two sequences of calls with the same values leave the same file. -/
theorem C68_same_file {M : Machine} {t : Ty} {σ : Type} (T : Target σ) {cs cs' : List (AddCall t)}
    (h : cs.flatMap AddCall.values = cs'.flatMap AddCall.values) (w : NpyWriter t.Val) (s : σ) :
    addAll M T cs w s = addAll M T cs' w s := by rw [C68_grouping, C68_grouping, h]

example : ([.push 1#64, .extend [2#64, 3#64], .extend []] : List (AddCall f64)).flatMap AddCall.values =
    ([.extend [1#64, 2#64], .push 3#64] : List (AddCall f64)).flatMap AddCall.values := rfl

/-! ### C69 -/

/-- C69: a session that succeeds on one machine succeeds on every other machine that supports the dtype and
leaves the same bytes, whatever byte order, word size and overflow checking. -/
theorem C69_same_file {M M' : Machine} {t : Ty} {d : DType} {size : Nat} (hd : d.Wf) (hn : exactBytes d = some size)
    (hm : size ≤ M.isizeMax) (hm' : size ≤ M'.isizeMax) (hw' : ∃ w, t.writer M' d = .ok w) {o : Order} {hint : ShapeHint}
    (hh : hint.Fits) {vs : List t.Val} (hc : vs.length < 2 ^ 64) {s s' : Sink}
    (hpos : hint.seeks = true → s.pos + dictBytes d o hint + 76 ≤ 2 ^ 64)
    (h : NpyWriter.save M solid t d o hint vs s = (.ok (), s')) : NpyWriter.save M' solid t d o hint vs s = (.ok (), s') :=
  save_agree hd hn hm hm' hh hw' hc hpos h

/-- What a session leaves on a machine. -/
def savedOn (M : Machine) : Option Bytes :=
  match NpyWriter.save M solid f64 (.plain ⟨.big, .float, 8, none⟩) .c (.nd [2]) [1#64, 2#64] ⟨[], 0, false⟩ with
  | (.ok (), s') => some s'.data
  | _ => none

-- the hypotheses are met, and the conclusion is as stated
example : savedOn ⟨false, 64, true⟩ ≠ none ∧ savedOn ⟨true, 32, false⟩ = savedOn ⟨false, 64, true⟩ := by decide +kernel
example : ∃ w, f64.writer ⟨true, 32, false⟩ (.plain ⟨.big, .float, 8, none⟩) = .ok w := ⟨_, rfl⟩

/-- C69: a file that two machines can open has the same header on both, ends at the same position, and reading
all elements gives the same values if it succeeds on both. -/
theorem C69_same_meaning {M M' : Machine} {py : PyParser} {t : Ty} {src s s' : Src} {f f' : NpyFile Src}
    (h : NpyFile.new M py disk src = (.ok f, s)) (h' : NpyFile.new M' py disk src = (.ok f', s')) :
    f.header = f'.header ∧ f.src = f'.src ∧
    ∀ size, f.header.itemSize = some size → size ≤ M.isizeMax → size ≤ M'.isizeMax → f.src.pos ≤ f.src.data.length →
      ∀ vs vs', (f.intoVec M disk t).1 = .ok vs → (f'.intoVec M' disk t).1 = .ok vs' → vs = vs' := by
  obtain ⟨rfl, rfl, rfl, ho, ho'⟩ := new_agree h h'
  refine ⟨rfl, rfl, fun size hs hm hm' hb vs vs' h1 h2 => ?_⟩
  rcases C21_into_vec (t := t) ho hs hm hb with ⟨ws, e1, e2, -, e3⟩ | ⟨e, e1, -⟩
  · rcases C21_into_vec (t := t) ho' hs hm' hb with ⟨ws', e1', e2', -, e3'⟩ | ⟨e, e1', -⟩
    · rw [e1] at h1; rw [e1'] at h2
      cases h1; cases h2
      apply List.ext_getElem (by rw [e2, e2'])
      intro i hi hi'
      have := e3 i hi
      rw [e3' i hi'] at this
      simpa using this.symm
    · rw [e1'] at h2; cases h2
  · rw [e1] at h1; cases h1

-- two different machines open the same file
example : (∃ f s, NpyFile.new ⟨false, 64, true⟩ Py.parse disk ⟨twoFloats, 0⟩ = (.ok f, s)) ∧
    (∃ f s, NpyFile.new ⟨true, 32, false⟩ Py.parse disk ⟨twoFloats, 0⟩ = (.ok f, s)) := by
  obtain ⟨f, -, h, -⟩ := openAnd_ok (M := ⟨false, 64, true⟩) (t := f64) (bytes := twoFloats) (P := fun _ => true) (by decide +kernel)
  obtain ⟨f', -, h', -⟩ := openAnd_ok (M := ⟨true, 32, false⟩) (t := f64) (bytes := twoFloats) (P := fun _ => true) (by decide +kernel)
  exact ⟨⟨f, _, h⟩, ⟨f', _, h'⟩⟩

end Npyz.Props
