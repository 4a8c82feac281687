import Verif.Props.Iter
import Verif.Proofs.BufRead
/-!
C118: reading through a `BufReader`.
-/
namespace Npyz.Props
set_option autoImplicit false
open Npyz Spec Py

variable {M : Machine} {t : Ty} {py : PyParser}

/-- A `BufReader` around a source, with nothing in its buffer yet. -/
def freshReader (src : Src) (evs : List RProg.Ev) : BufReadSrc := ⟨⟨src, evs⟩, []⟩

theorem freshReader_stands {src : Src} (evs : List RProg.Ev) (hp : src.pos < 2 ^ 64) (hl : src.data.length < 2 ^ 64) :
    Stands evs (freshReader src evs) src :=
  ⟨rfl, Nat.zero_le _, rfl, fun _ h => h, hp, hl⟩

/-- C118: opening a file through a `BufReader` of any capacity gives the header, or the error, that opening it directly gives, or an error the source
returned. -/
theorem C118_open {src : Src} {evs : List RProg.Ev} (hp : src.pos < 2 ^ 64) (hl : src.data.length < 2 ^ 64) (cap : Nat) :
    (NpyFile.new M py (bufRead cap) (freshReader src evs)).1.map (·.header) = (NpyFile.new M py disk src).1.map (·.header) ∨
    ∃ c, .fail c ∈ evs ∧ (NpyFile.new M py (bufRead cap) (freshReader src evs)).1.map (·.header) = .err (.source c) := by
  rcases alike_new (M := M) (bufRead_alike cap evs) py (freshReader_stands evs hp hl) with
    (⟨f, g, h1, h2, h3, -⟩ | ⟨e, s', u', h1, h2, -⟩ | ⟨s', u', h1, h2, -⟩) | ⟨c, h1, h2⟩
  · left
    rw [h1, h2]
    simp only [Out.map, h3]
  · left
    rw [h1, h2]
    rfl
  · left
    rw [h1, h2]
    rfl
  · obtain ⟨c, h1, rfl⟩ := h1
    right
    refine ⟨c, h1, ?_⟩
    rw [h2]
    rfl

/-- C118: every history of calls on a file opened through a `BufReader` shows what it shows on the file itself, up to the first error the source
returns, which is reported. -/
theorem C118_history {src : Src} {evs : List RProg.Ev} (hp : src.pos < 2 ^ 64) (hl : src.data.length < 2 ^ 64) {cap : Nat} {f : NpyFile BufReadSrc}
    (h : (NpyFile.new M py (bufRead cap) (freshReader src evs)).1 = .ok f) {r : NpyReader t.Val BufReadSrc} (hd : f.data M t = .ok r) (ops : List ROp) :
    ∃ g q, (NpyFile.new M py disk src).1 = .ok g ∧ g.header = f.header ∧ g.data M t = .ok q ∧
      ((r.steps M (bufRead cap) ops).1 = (q.steps M disk ops).1 ∨
       ∃ k c o, k < ops.length ∧ .fail c ∈ evs ∧ (r.steps M (bufRead cap) ops).1.take k = (q.steps M disk ops).1.take k ∧
        (r.steps M (bufRead cap) ops).1[k]? = some o ∧ FailsWith (.source c) o) := by
  rcases alike_new (M := M) (bufRead_alike cap evs) py (freshReader_stands evs hp hl) with
    (⟨f', g, h1, h2, h3, h4⟩ | ⟨e, s', u', h1, h2, -⟩ | ⟨s', u', h1, h2, -⟩) | ⟨c, h1, h2⟩
  · rw [h1] at h
    cases h
    obtain ⟨k1, p, k2, rfl⟩ := data_ok_iff.mp hd
    rw [h3] at k1 k2
    refine ⟨g, ⟨g.header, p, g.src, 0⟩, by rw [h2], h3.symm, data_ok_iff.mpr ⟨k1, p, k2, rfl⟩, ?_⟩
    rcases alike_steps (M := M) (bufRead_alike cap evs) (fun _ => True) (fun _ _ _ => trivial) (fun _ _ _ _ => trivial) ops (r := ⟨f.header, p, f.src, 0⟩) (q := ⟨g.header, p, g.src, 0⟩) ⟨h3, rfl, rfl, h4⟩ trivial with
      ⟨j1, -⟩ | ⟨k, c, o, j1, ⟨c, j2, rfl⟩, j3, j4, j5⟩
    · exact .inl j1
    · exact .inr ⟨k, c, o, j1, j2, j3, j4, j5⟩
  · rw [h1] at h; cases h
  · rw [h1] at h; cases h
  · rw [h2] at h; cases h

/-- C118: reading a whole file through a `BufReader` gives what reading it directly gives, or an error the source returned. -/
theorem C118_read_file {src : Src} {evs : List RProg.Ev} (hp : src.pos < 2 ^ 64) (hl : src.data.length < 2 ^ 64) (cap : Nat) :
    readFile M py (bufRead cap) t (freshReader src evs) = readFile M py disk t src ∨
    ∃ c, .fail c ∈ evs ∧ readFile M py (bufRead cap) t (freshReader src evs) = .err (.source c) := by
  unfold readFile
  rcases alike_new (M := M) (bufRead_alike cap evs) py (freshReader_stands evs hp hl) with
    (⟨f, g, h1, h2, h3, h4⟩ | ⟨e, s', u', h1, h2, -⟩ | ⟨s', u', h1, h2, -⟩) | ⟨c, h1, h2⟩
  · rw [h1, h2]
    simp only [NpyFile.intoVec]
    have hdata : ∀ {σ : Type} (f : NpyFile σ), f.data M t =
        (f.header.forbidPickle >>= fun _ => t.reader M f.header.dtype >>= fun prog => .ok ⟨f.header, prog, f.src, 0⟩) := fun _ => rfl
    rw [hdata, hdata, h3]
    cases g.header.forbidPickle with
    | err e => exact .inl rfl
    | panic => exact .inl rfl
    | ok _ =>
      simp only [bind, Out.bind]
      cases t.reader M g.header.dtype with
      | err e => exact .inl rfl
      | panic => exact .inl rfl
      | ok p =>
        simp only [NpyReader.collect]
        rcases alike_collectLoop (bufRead_alike cap evs) (g.header.nRecords - 0 + 1) (r := ⟨g.header, p, f.src, 0⟩) (q := ⟨g.header, p, g.src, 0⟩)
          ⟨rfl, rfl, rfl, h4⟩ with ⟨j1, -⟩ | ⟨_, ⟨c, j1, rfl⟩, j2⟩
        · exact .inl j1
        · exact .inr ⟨c, j1, j2⟩
  · rw [h1, h2]
    exact .inl rfl
  · rw [h1, h2]
    exact .inl rfl
  · obtain ⟨c, h1, rfl⟩ := h1
    rw [h2]
    exact .inr ⟨c, h1, rfl⟩

/-- C118: if the source never fails, whatever parts it delivers and however often it is interrupted, a `BufReader` of any capacity makes no
difference at all. -/
theorem C118_transparent {src : Src} {evs : List RProg.Ev} (hp : src.pos < 2 ^ 64) (hl : src.data.length < 2 ^ 64) (hev : NoFail evs) (cap : Nat) :
    (NpyFile.new M py (bufRead cap) (freshReader src evs)).1.map (·.header) = (NpyFile.new M py disk src).1.map (·.header) ∧
    readFile M py (bufRead cap) t (freshReader src evs) = readFile M py disk t src ∧
    ∀ f g, (NpyFile.new M py (bufRead cap) (freshReader src evs)).1 = .ok f → (NpyFile.new M py disk src).1 = .ok g → ∀ r q, f.data M t = .ok r →
      g.data M t = .ok q → ∀ ops, (r.steps M (bufRead cap) ops).1 = (q.steps M disk ops).1 := by
  refine ⟨?_, ?_, fun f g hf hg r q hr hq ops => ?_⟩
  · rcases C118_open (M := M) (py := py) (evs := evs) hp hl cap with h | ⟨c, h, -⟩
    · exact h
    · exact absurd h (hev c)
  · rcases C118_read_file (M := M) (py := py) (t := t) (evs := evs) hp hl cap with h | ⟨c, h, -⟩
    · exact h
    · exact absurd h (hev c)
  · obtain ⟨g', q', h1, -, h2, h3⟩ := C118_history hp hl hf hr ops
    rw [hg] at h1
    cases h1
    rw [hq] at h2
    cases h2
    rcases h3 with h3 | ⟨k, c, o, -, h4, -⟩
    · exact h3
    · exact absurd h4 (hev c)

/-! ### A concrete case -/

/-- Numbers read by a history of calls through a `BufReader` of 30 bytes. -/
def bufferedNumbers (evs : List RProg.Ev) (ops : List ROp) : Option (List (Option (Option Nat))) :=
  match (NpyFile.new ⟨false, 64, true⟩ Py.parse (bufRead 30) (freshReader ⟨twoFloats, 0⟩ evs)).1 with
  | .ok f =>
    match f.data ⟨false, 64, true⟩ f64 with
    | .ok r => some ((r.steps ⟨false, 64, true⟩ (bufRead 30) ops).1.map seenNat)
    | _ => none
  | _ => none

/-- C118_history, C118_open: with interruptions and short reads the numbers are read, backwards and forwards; with an error, up to the error. -/
example : bufferedNumbers [.short 3, .interrupted, .short 0, .short 50] [.readAt 1, .readAt 0, .next, .next] =
    some [some (some 772), some (some 258), some (some 772), none] := by decide +kernel
example : bufferedNumbers [.short 29, .short 100, .short 100, .short 100, .fail 4] [.readAt 1, .readAt 0] = some [some (some 772), none] := by decide +kernel
theorem twoFloats_small : (Src.mk twoFloats 0).pos < 2 ^ 64 ∧ (Src.mk twoFloats 0).data.length < 2 ^ 64 := by decide +kernel
/-- C118_transparent, C118_read_file: the same file. -/
example : readFile ⟨false, 64, true⟩ Py.parse (bufRead 30) f64 (freshReader ⟨twoFloats, 0⟩ [.short 3, .interrupted]) =
    readFile ⟨false, 64, true⟩ Py.parse disk f64 ⟨twoFloats, 0⟩ :=
  (C118_transparent (M := ⟨false, 64, true⟩) (py := Py.parse) (t := f64) (src := ⟨twoFloats, 0⟩) (evs := [.short 3, .interrupted]) twoFloats_small.1
    twoFloats_small.2 (fun c hc => by simp at hc) 30).2.1

end Npyz.Props
