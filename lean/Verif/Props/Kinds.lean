import Verif.Proofs.Kinds
import Verif.Props.Header
import Verif.Props.Read
/-!
C100: the kind of an error tells truncated files from damaged ones.
-/
namespace Npyz.Props
set_option autoImplicit false
open Npyz.Spec

variable {M : Machine} {py : PyParser} {t : Ty}

theorem new_run (src : Src) : (NpyFile.new M py disk src).1 =
    ((NpyHeader.fromReader M py).run src.rest).1.map fun h => ⟨h, src.leave ((NpyHeader.fromReader M py).run src.rest).2⟩ := by
  unfold NpyFile.new
  simp only [disk]
  rcases (NpyHeader.fromReader M py).run src.rest with ⟨x, rest⟩
  cases x <;> rfl

/-- C100: opening a file fails with `InvalidData` or `UnexpectedEof`, never with another kind. -/
theorem C100_open_kinds {src : Src} {e : Err} (h : (NpyFile.new M py disk src).1 = .err e) : e = .unexpectedEof ∨ ∃ w, e = .invalidData w := by
  rw [new_run] at h
  obtain ⟨k, hk, hh⟩ := fromReader_honest M py
  cases hx : ((NpyHeader.fromReader M py).run src.rest).1 with
  | ok a => rw [hx] at h; cases h
  | panic => rw [hx] at h; cases h
  | err e' =>
    rw [hx] at h
    cases h
    rw [hk, RProg.run] at hx
    split at hx
    · exact (hh _).kinds hx
    · cases hx; exact .inr ⟨_, rfl⟩

/-- Opening more bytes, if the end was not the problem. -/
theorem run_more {bs : Bytes} (h8 : 8 ≤ bs.length) (h : ((NpyHeader.fromReader M py).run bs).1 ≠ .err .unexpectedEof) (more : Bytes) :
    (NpyHeader.fromReader M py).run (bs ++ more) =
      (((NpyHeader.fromReader M py).run bs).1, ((NpyHeader.fromReader M py).run bs).2 ++ more) := by
  obtain ⟨k, hk, hh⟩ := fromReader_honest M py
  rw [hk] at h ⊢
  simp only [RProg.run] at h ⊢
  rw [if_pos h8] at h
  rw [if_pos h8, if_pos (by simp; omega), List.take_append_of_le_length h8, List.drop_append_of_le_length h8]
  exact (hh _).more h more

/-- C100: a file of at least eight bytes that is refused with `InvalidData` is refused with the same error whatever is appended to it. -/
theorem C100_open_damaged {bytes : Bytes} {w : String} (h : (NpyFile.new M py disk ⟨bytes, 0⟩).1 = .err (.invalidData w)) (h8 : 8 ≤ bytes.length)
    (more : Bytes) : (NpyFile.new M py disk ⟨bytes ++ more, 0⟩).1 = .err (.invalidData w) := by
  rw [new_run] at h ⊢
  have e1 : (⟨bytes, 0⟩ : Src).rest = bytes := rfl
  have e2 : (⟨bytes ++ more, 0⟩ : Src).rest = bytes ++ more := rfl
  rw [e1] at h
  rw [e2]
  cases hx : ((NpyHeader.fromReader M py).run bytes).1 with
  | ok a => rw [hx] at h; cases h
  | panic => rw [hx] at h; cases h
  | err e =>
    rw [hx] at h
    cases h
    rw [run_more h8 (by rw [hx]; simp), hx]
    rfl

/-- C100: a file that is refused with `UnexpectedEof` starts like an NPY file and ends before the end of its header, and every such file
is refused like this, if memory can hold the header. -/
theorem C100_open_truncated {bytes : Bytes} :
    ((NpyFile.new M py disk ⟨bytes, 0⟩).1 = .err .unexpectedEof → GoodPreamble bytes ∧ bytes.length < headerEnd bytes) ∧
    (GoodPreamble bytes → bytes.length < headerEnd bytes → headerEnd bytes ≤ M.isizeMax →
      (NpyFile.new M py disk ⟨bytes, 0⟩).1 = .err .unexpectedEof) := by
  have e1 : (⟨bytes, 0⟩ : Src).rest = bytes := rfl
  constructor
  · intro h
    rw [new_run, e1] at h
    have hx : ((NpyHeader.fromReader M py).run bytes).1 = .err .unexpectedEof := by
      cases hx : ((NpyHeader.fromReader M py).run bytes).1 with
      | ok a => rw [hx] at h; cases h
      | panic => rw [hx] at h; cases h
      | err e => rw [hx] at h; cases h; rfl
    have hg : GoodPreamble bytes := by
      by_cases hg : GoodPreamble bytes
      · exact hg
      · obtain ⟨w, hw⟩ := C11_unknown_version M py bytes hg
        rw [hx] at hw
        cases hw
    refine ⟨hg, ?_⟩
    by_cases hlt : bytes.length < headerEnd bytes
    · exact hlt
    · exfalso
      rcases fromReader_cases M py bytes with ⟨-, h1⟩ | ⟨_, _, _, -, e, he, h1⟩ | ⟨maj, min, p, r, rfl, hp, hw, h1⟩ |
        ⟨_, _, _, _, _, -, -, -, -, h1⟩ | ⟨maj, min, p, szb, r, rfl, hp, hw, -, hr, h1⟩ | ⟨_, _, _, _, text, rest, -, -, -, -, -, h1⟩
      · rw [hx] at h1; cases h1
      · rw [getVersionProps_err he, hx] at h1; cases h1
      · apply hlt
        rcases getVersionProps_ok_iff.mp hp with ⟨rfl, rfl, rfl⟩ | ⟨rfl, rfl, rfl⟩ | ⟨rfl, rfl, rfl⟩ <;>
          · simp [headerEnd, byteAt, magic, VersionProps.width] at hw ⊢; omega
      · rw [hx] at h1; cases h1
      · apply hlt
        rw [headerEnd_eq hp hw]
        simp [magic, hw]; omega
      · rw [h1] at hx
        unfold finishHeader at hx
        obtain ⟨w, hw⟩ := InvalidOnly.bind (parseHeaderText_invalidOnly py text) (fun v => interpretHeader_invalidOnly M v) _ hx
        cases hw
  · intro hg hlt hm
    rw [new_run, e1, C11_truncated_header M py bytes hg hlt hm]
    rfl

/-! ### Elements -/

/-- The same reader with more bytes behind those of the file. -/
def extended {V : Type} (r : NpyReader V Src) (more : Bytes) : NpyReader V Src := { r with src := { r.src with data := r.src.data ++ more } }

theorem data_honest {f : NpyFile Src} {r : NpyReader t.Val Src} (h : f.data M t = .ok r) : Honest r.prog := by
  obtain ⟨-, p, hp, rfl⟩ := data_ok_iff.mp h
  exact reader_honest t hp

/-- One item from a longer file. -/
theorem exec_more {V : Type} {p : RProg V} (hp : Honest p) {s : Src} (h : (disk.exec p s).1 ≠ .err .unexpectedEof) (more : Bytes) :
    (disk.exec p { s with data := s.data ++ more }).1 = (disk.exec p s).1 ∧ (s.pos ≤ s.data.length →
      (disk.exec p { s with data := s.data ++ more }).2 = { (disk.exec p s).2 with data := s.data ++ more } ∧
      (disk.exec p s).2.pos ≤ s.data.length ∧ (disk.exec p s).2.data = s.data) := by
  have hrun : (p.run s.rest).1 ≠ .err .unexpectedEof := h
  by_cases hpos : s.pos ≤ s.data.length
  · have e : ({ s with data := s.data ++ more } : Src).rest = s.rest ++ more := List.drop_append_of_le_length hpos
    have h1 := hp.more hrun more
    refine ⟨?_, fun _ => ⟨?_, ?_, rfl⟩⟩
    · show (p.run (Src.rest _)).1 = _
      rw [e, h1]; rfl
    · show Src.leave _ (p.run (Src.rest _)).2 = _
      rw [e, h1]
      simp only [Src.leave, e, disk, List.length_append]
      congr 2
      omega
    · show s.pos + (s.rest.length - _) ≤ _
      simp only [Src.rest, List.length_drop]
      omega
  · have e : s.rest = [] := List.drop_eq_nil_iff.mpr (by omega)
    refine ⟨?_, fun h => absurd h hpos⟩
    show (p.run (Src.rest _)).1 = (p.run s.rest).1
    rw [e] at hrun ⊢
    have h1 := hp.more hrun (Src.rest { s with data := s.data ++ more })
    rw [List.nil_append] at h1
    rw [h1]

theorem exec_reads {V : Type} {p : RProg V} {n : Nat} {f : Bytes → Option V} (hr : Reads p n f) {s : Src} :
    ((disk.exec p s).1 = .err .unexpectedEof → s.rest.length < n) ∧
    (∀ v, (disk.exec p s).1 = .ok v → n ≤ s.rest.length ∧ (disk.exec p s).2.rest.length + n = s.rest.length) := by
  have e : ∀ h : n ≤ s.rest.length, ∃ bs rest, s.rest = bs ++ rest ∧ bs.length = n := fun h =>
    ⟨s.rest.take n, s.rest.drop n, by simp, by simp; omega⟩
  constructor
  · intro h
    by_cases hn : n ≤ s.rest.length
    · obtain ⟨bs, rest, h1, h2⟩ := e hn
      have h' : (p.run s.rest).1 = .err .unexpectedEof := h
      rw [h1] at h'
      cases hf : f bs with
      | some v => rw [hr.ok bs rest v h2 hf] at h'; cases h'
      | none =>
        obtain ⟨w, k, -, h3⟩ := hr.bad bs rest h2 hf
        rw [h3] at h'
        cases h'
    · omega
  · intro v h
    have h' : (p.run s.rest).1 = .ok v := h
    by_cases hn : n ≤ s.rest.length
    · refine ⟨hn, ?_⟩
      obtain ⟨bs, rest, h1, h2⟩ := e hn
      have h3 : p.run s.rest = (.ok v, rest) := by
        rw [h1] at h' ⊢
        cases hf : f bs with
        | some v' => rw [hr.ok bs rest v' h2 hf] at h' ⊢; cases h'; rfl
        | none =>
          obtain ⟨w, k, -, h3⟩ := hr.bad bs rest h2 hf
          rw [h3] at h'
          cases h'
      show (s.leave (p.run s.rest).2).rest.length + n = _
      rw [h3]
      simp only [Src.leave, Src.rest, List.length_drop] at h1 ⊢
      have h4 := congrArg List.length h1
      simp only [List.length_drop, List.length_append] at h4
      omega
    · obtain ⟨e, r, h3, -⟩ := hr.short s.rest (by omega)
      rw [h3] at h'
      cases h'

/-- C100: after any history of calls, an item that cannot be read is reported with `UnexpectedEof` only if the file does not contain all
of it, and with `InvalidData` only if it is not readable whatever follows; there are no other errors. -/
theorem C100_next {f : NpyFile Src} {r : NpyReader t.Val Src} {size : Nat} (ho : Opened M f.header) (hs : f.header.itemSize = some size)
    (hm : size ≤ M.isizeMax) (h : f.data M t = .ok r) (ops : List ROp) {e : Err}
    (he : ((r.steps M disk ops).2.next disk).1 = some (.err e)) :
    (e = .unexpectedEof ∧ (r.steps M disk ops).2.src.rest.length < size) ∨
    (∃ w, e = .invalidData w ∧ ∀ more, ((extended (r.steps M disk ops).2 more).next disk).1 = some (.err (.invalidData w))) := by
  have hp : (r.steps M disk ops).2.prog = r.prog := by
    obtain ⟨-, p, -, rfl⟩ := data_ok_iff.mp h
    exact (steps_inv ops _ (Nat.zero_le _)).2.1
  have hh := data_honest h
  obtain ⟨n, -, hn, hr⟩ := opened_reads ho h
  rw [hs] at hn
  cases hn
  have hr := hr hm
  rw [← hp] at hh hr
  generalize (r.steps M disk ops).2 = q at he hh hr
  unfold NpyReader.next at he
  split at he
  next hc =>
    have he' : (disk.exec q.prog q.src).1 = .err e := Option.some.inj he
    rcases hh.kinds (bs := q.src.rest) he' with rfl | ⟨w, rfl⟩
    · exact .inl ⟨rfl, (exec_reads hr).1 he'⟩
    · refine .inr ⟨w, rfl, fun more => ?_⟩
      have h1 := (exec_more hh (s := q.src) (by rw [he']; simp) more).1
      have e2 : (extended q more).next disk = (some (disk.exec q.prog { q.src with data := q.src.data ++ more }).1,
          { q with src := (disk.exec q.prog { q.src with data := q.src.data ++ more }).2, cur := q.cur + 1 }) := if_pos hc
      rw [e2]
      show some (disk.exec q.prog { q.src with data := q.src.data ++ more }).1 = _
      rw [h1, he']
  next => cases he

/-! ### Whole arrays -/

theorem collectLoop_more {V : Type} (k : Nat) {r : NpyReader V Src} (hr : Honest r.prog) (hpos : r.src.pos ≤ r.src.data.length)
    (h : (r.collectLoop disk k).1 ≠ .err .unexpectedEof) (more : Bytes) :
    ((extended r more).collectLoop disk k).1 = (r.collectLoop disk k).1 := by
  induction k generalizing r with
  | zero => rfl
  | succ k ih =>
    by_cases hc : r.cur < r.header.nRecords
    · have e1 : r.next disk = (some (disk.exec r.prog r.src).1, { r with src := (disk.exec r.prog r.src).2, cur := r.cur + 1 }) := if_pos hc
      have e2 : (extended r more).next disk = (some (disk.exec r.prog { r.src with data := r.src.data ++ more }).1,
          { r with src := (disk.exec r.prog { r.src with data := r.src.data ++ more }).2, cur := r.cur + 1 }) := if_pos hc
      have hx : (disk.exec r.prog r.src).1 ≠ .err .unexpectedEof := by
        intro hx
        rw [NpyReader.collectLoop, e1, hx] at h
        exact h rfl
      obtain ⟨h1, h2⟩ := exec_more hr hx more
      obtain ⟨h2, h3, h4⟩ := h2 hpos
      rw [h1, h2] at e2
      rw [NpyReader.collectLoop, e1] at h
      rw [NpyReader.collectLoop, e2, NpyReader.collectLoop, e1]
      cases hy : (disk.exec r.prog r.src).1 with
      | err e => rfl
      | panic => rfl
      | ok v =>
        rw [hy] at h
        simp only at h ⊢
        have h5 := ih (r := { r with src := (disk.exec r.prog r.src).2, cur := r.cur + 1 }) hr (by rw [h4]; exact h3)
        have h6 : extended { r with src := (disk.exec r.prog r.src).2, cur := r.cur + 1 } more =
            { r with src := { (disk.exec r.prog r.src).2 with data := r.src.data ++ more }, cur := r.cur + 1 } := by
          unfold extended
          rw [h4]
        rw [h6] at h5
        revert h h5
        rcases NpyReader.collectLoop disk k { r with src := (disk.exec r.prog r.src).2, cur := r.cur + 1 } with ⟨x, r1⟩
        rcases NpyReader.collectLoop disk k { r with src := { (disk.exec r.prog r.src).2 with data := r.src.data ++ more }, cur := r.cur + 1 } with ⟨y, r2⟩
        intro h h5
        have hne : x ≠ .err .unexpectedEof := by
          rintro rfl
          exact h rfl
        have h7 : y = x := h5 hne
        subst h7
        cases y <;> rfl
    · have e1 : r.next disk = (none, r) := if_neg hc
      have e2 : (extended r more).next disk = (none, extended r more) := if_neg hc
      rw [NpyReader.collectLoop, e2, NpyReader.collectLoop, e1]

theorem collectLoop_kinds {V : Type} (k : Nat) {r : NpyReader V Src} (hr : Honest r.prog) {e : Err} (h : (r.collectLoop disk k).1 = .err e) :
    e = .unexpectedEof ∨ ∃ w, e = .invalidData w := by
  induction k generalizing r with
  | zero => cases h
  | succ k ih =>
    by_cases hc : r.cur < r.header.nRecords
    · have e1 : r.next disk = (some (disk.exec r.prog r.src).1, { r with src := (disk.exec r.prog r.src).2, cur := r.cur + 1 }) := if_pos hc
      rw [NpyReader.collectLoop, e1] at h
      cases hy : (disk.exec r.prog r.src).1 with
      | err e' => rw [hy] at h; cases h; exact hr.kinds (bs := r.src.rest) hy
      | panic => rw [hy] at h; cases h
      | ok v =>
        rw [hy] at h
        have h5 := ih (r := { r with src := (disk.exec r.prog r.src).2, cur := r.cur + 1 }) hr
        revert h h5
        simp only
        rcases NpyReader.collectLoop disk k { r with src := (disk.exec r.prog r.src).2, cur := r.cur + 1 } with ⟨x, r1⟩
        intro h h5
        cases x with
        | ok a => cases h
        | panic => cases h
        | err e' => cases h; exact h5 rfl
    · have e1 : r.next disk = (none, r) := if_neg hc
      rw [NpyReader.collectLoop, e1] at h
      cases h

theorem collectLoop_eof {V : Type} {n : Nat} {f : Bytes → Option V} (k : Nat) {r : NpyReader V Src} (hr : Reads r.prog n f)
    (h : (r.collectLoop disk k).1 = .err .unexpectedEof) : r.src.rest.length < (r.header.nRecords - r.cur) * n := by
  induction k generalizing r with
  | zero => cases h
  | succ k ih =>
    by_cases hc : r.cur < r.header.nRecords
    · have e1 : r.next disk = (some (disk.exec r.prog r.src).1, { r with src := (disk.exec r.prog r.src).2, cur := r.cur + 1 }) := if_pos hc
      have e2 : (r.header.nRecords - r.cur) * n = n + (r.header.nRecords - (r.cur + 1)) * n := by
        rw [show r.header.nRecords - r.cur = (r.header.nRecords - (r.cur + 1)) + 1 by omega, Nat.succ_mul, Nat.add_comm]
      rw [NpyReader.collectLoop, e1] at h
      cases hy : (disk.exec r.prog r.src).1 with
      | err e' =>
        rw [hy] at h
        cases h
        have := (exec_reads hr).1 hy
        omega
      | panic => rw [hy] at h; cases h
      | ok v =>
        rw [hy] at h
        have h5 := ih (r := { r with src := (disk.exec r.prog r.src).2, cur := r.cur + 1 }) hr
        have h6 := (exec_reads hr).2 v hy
        revert h h5
        simp only
        rcases NpyReader.collectLoop disk k { r with src := (disk.exec r.prog r.src).2, cur := r.cur + 1 } with ⟨x, r1⟩
        intro h h5
        cases x with
        | ok a => cases h
        | panic => cases h
        | err e' => cases h; have := h5 rfl; omega
    · have e1 : r.next disk = (none, r) := if_neg hc
      rw [NpyReader.collectLoop, e1] at h
      cases h

/-- C100: reading a whole file fails with `InvalidData` or `UnexpectedEof`, never with another kind. -/
theorem C100_kinds {src : Src} {e : Err} (h : readFile M py disk t src = .err e) : e = .unexpectedEof ∨ ∃ w, e = .invalidData w := by
  unfold readFile at h
  cases hn : (NpyFile.new M py disk src).1 with
  | panic => rw [hn] at h; cases h
  | err e' => rw [hn] at h; cases h; exact C100_open_kinds hn
  | ok f =>
    rw [hn] at h
    simp only [NpyFile.intoVec] at h
    cases hd : f.data M t with
    | panic => rw [hd] at h; cases h
    | err e' => rw [hd] at h; cases h; exact .inr ⟨_, rfl⟩
    | ok r => rw [hd] at h; exact collectLoop_kinds _ (data_honest hd) h

/-- The same file, longer. -/
theorem new_more {bytes : Bytes} {f : NpyFile Src} (h : (NpyFile.new M py disk ⟨bytes, 0⟩).1 = .ok f) (more : Bytes) :
    (NpyFile.new M py disk ⟨bytes ++ more, 0⟩).1 = .ok ⟨f.header, ⟨bytes ++ more, f.src.pos⟩⟩ ∧ f.src.data = bytes ∧ f.src.pos ≤ bytes.length := by
  obtain ⟨-, -, h2, h3, h4⟩ := new_disk (s := (NpyFile.new M py disk ⟨bytes, 0⟩).2) (Prod.ext h rfl)
  refine ⟨?_, h2, h3⟩
  obtain ⟨hg, hl, -⟩ := C10_consumes_header _ _ _ _ _ h4
  have h8 : 8 ≤ bytes.length := hg.1
  rw [new_run]
  have e2 : (⟨bytes ++ more, 0⟩ : Src).rest = bytes ++ more := rfl
  rw [e2, run_more h8 (by rw [h4]; simp), h4]
  simp only [Out.map, Src.leave, e2, List.length_append, List.length_drop]
  congr 3
  omega

/-- C100: what is returned for a file of at least eight bytes, an array or an error or a panic, is returned for every longer file too,
unless it is `UnexpectedEof`. -/
theorem C100_more {bytes : Bytes} (h8 : 8 ≤ bytes.length) (h : readFile M py disk t ⟨bytes, 0⟩ ≠ .err .unexpectedEof) (more : Bytes) :
    readFile M py disk t ⟨bytes ++ more, 0⟩ = readFile M py disk t ⟨bytes, 0⟩ := by
  unfold readFile at h ⊢
  cases hn : (NpyFile.new M py disk ⟨bytes, 0⟩).1 with
  | ok f =>
    obtain ⟨h1, h2, h3⟩ := new_more hn more
    rw [hn] at h
    rw [h1]
    simp only [NpyFile.intoVec] at h ⊢
    cases hd : f.data M t with
    | ok r =>
      obtain ⟨hp, p, hr, rfl⟩ := data_ok_iff.mp hd
      have hd' : NpyFile.data M t (⟨f.header, ⟨bytes ++ more, f.src.pos⟩⟩ : NpyFile Src) = .ok (⟨f.header, p, ⟨bytes ++ more, f.src.pos⟩, 0⟩ : NpyReader t.Val Src) :=
        data_ok_iff.mpr ⟨hp, p, hr, rfl⟩
      rw [hd] at h
      rw [hd']
      have h5 := collectLoop_more (f.header.nRecords - 0 + 1) (r := ⟨f.header, p, f.src, 0⟩) (reader_honest t hr) (by rw [h2]; exact h3) h more
      have e : extended ⟨f.header, p, f.src, 0⟩ more = ⟨f.header, p, ⟨bytes ++ more, f.src.pos⟩, 0⟩ := by
        unfold extended
        rw [h2]
      rw [e] at h5
      exact h5
    | err e =>
      have hd' : NpyFile.data M t (⟨f.header, ⟨bytes ++ more, f.src.pos⟩⟩ : NpyFile Src) = .err e := by
        unfold NpyFile.data NpyFile.dataWith at hd ⊢
        simp only at hd ⊢
        cases h6 : f.header.forbidPickle with
        | ok u =>
          rw [h6] at hd
          cases h7 : t.reader M f.header.dtype with
          | ok p => rw [h7] at hd; cases hd
          | err e' => rw [h7] at hd; cases hd; rfl
          | panic => rw [h7] at hd; cases hd
        | err e' => rw [h6] at hd; cases hd; rfl
        | panic => rw [h6] at hd; cases hd
      rw [hd']
    | panic =>
      have hd' : NpyFile.data M t (⟨f.header, ⟨bytes ++ more, f.src.pos⟩⟩ : NpyFile Src) = .panic := by
        unfold NpyFile.data NpyFile.dataWith at hd ⊢
        simp only at hd ⊢
        cases h6 : f.header.forbidPickle with
        | ok u =>
          rw [h6] at hd
          cases h7 : t.reader M f.header.dtype with
          | ok p => rw [h7] at hd; cases hd
          | err e' => rw [h7] at hd; cases hd
          | panic => rw [h7] at hd; rfl
        | err e' => rw [h6] at hd; cases hd
        | panic => rw [h6] at hd; rfl
      rw [hd']
  | err e =>
    rw [hn] at h
    rcases C100_open_kinds hn with rfl | ⟨w, rfl⟩
    · exact absurd rfl h
    · rw [C100_open_damaged hn h8 more]
  | panic =>
    have hx : ((NpyHeader.fromReader M py).run bytes).1 = .panic := by
      rw [new_run] at hn
      have e1 : (⟨bytes, 0⟩ : Src).rest = bytes := rfl
      rw [e1] at hn
      cases hx : ((NpyHeader.fromReader M py).run bytes).1 with
      | ok a => rw [hx] at hn; cases hn
      | panic => rfl
      | err e => rw [hx] at hn; cases hn
    have e2 : (⟨bytes ++ more, 0⟩ : Src).rest = bytes ++ more := rfl
    rw [new_run, e2, run_more h8 (by rw [hx]; simp), hx]
    rfl

/-- C100: so a file that lacks its end, but not its first eight bytes, is refused with `UnexpectedEof`, or read like the whole file (when
what is missing is behind the array). -/
theorem C100_prefix {bytes more : Bytes} {vs : List t.Val} (h8 : 8 ≤ bytes.length) (h : readFile M py disk t ⟨bytes ++ more, 0⟩ = .ok vs) :
    readFile M py disk t ⟨bytes, 0⟩ = .err .unexpectedEof ∨ readFile M py disk t ⟨bytes, 0⟩ = .ok vs := by
  by_cases hx : readFile M py disk t ⟨bytes, 0⟩ = .err .unexpectedEof
  · exact .inl hx
  · exact .inr ((C100_more h8 hx more).symm.trans h)

/-- C100: a file that is refused with `UnexpectedEof` is shorter than its header announces. -/
theorem C100_eof {bytes : Bytes} (h : readFile M py disk t ⟨bytes, 0⟩ = .err .unexpectedEof) :
    (GoodPreamble bytes ∧ bytes.length < headerEnd bytes) ∨
    (∃ f size, (NpyFile.new M py disk ⟨bytes, 0⟩).1 = .ok f ∧ f.header.itemSize = some size ∧
      (size ≤ M.isizeMax → bytes.length < headerEnd bytes + f.header.nRecords * size)) := by
  unfold readFile at h
  cases hn : (NpyFile.new M py disk ⟨bytes, 0⟩).1 with
  | panic => rw [hn] at h; cases h
  | err e =>
    rw [hn] at h
    cases h
    exact .inl (C100_open_truncated.1 hn)
  | ok f =>
    right
    rw [hn] at h
    simp only [NpyFile.intoVec] at h
    obtain ⟨ho, -, h2, h3, h4⟩ := new_disk (s := (NpyFile.new M py disk ⟨bytes, 0⟩).2) (Prod.ext hn rfl)
    obtain ⟨hg, hl, hd'⟩ := C10_consumes_header _ _ _ _ _ h4
    have hend : f.src.pos = headerEnd bytes := by
      have := congrArg List.length hd'
      simp only [List.length_drop] at this
      omega
    cases hd : f.data M t with
    | panic => rw [hd] at h; cases h
    | err e => rw [hd] at h; cases h
    | ok r =>
      rw [hd] at h
      obtain ⟨n, -, hs, hr⟩ := opened_reads ho hd
      refine ⟨f, n, rfl, hs, fun hm => ?_⟩
      have h5 := collectLoop_eof _ (hr hm) h
      obtain ⟨-, p, -, rfl⟩ := data_ok_iff.mp hd
      simp only [Src.rest, List.length_drop, h2, Nat.sub_zero] at h5
      omega

/-- C100: fewer than eight bytes are not recognised as the beginning of a file. -/
theorem C100_tiny {bytes : Bytes} (h : bytes.length < 8) : ∃ w, readFile M py disk t ⟨bytes, 0⟩ = .err (.invalidData w) := by
  obtain ⟨w, hw⟩ := C11_not_npy M py bytes (.inl h)
  have hn : (NpyFile.new M py disk ⟨bytes, 0⟩).1 = .err (.invalidData w) := by
    have e1 : (⟨bytes, 0⟩ : Src).rest = bytes := rfl
    rw [new_run, e1, hw]
    rfl
  exact ⟨w, by unfold readFile; rw [hn]⟩

/-- The error, if it is one. -/
def errOf {α : Type} : Res α → Option Err
  | .err e => some e
  | _ => none

theorem errOf_eq {α : Type} {r : Res α} {e : Err} (h : errOf r = some e) : r = .err e := by
  cases r with
  | ok a => cases h
  | panic => cases h
  | err e' => cases h; rfl

-- two doubles: cut in the header, cut in the data, and of an unknown version

theorem not_err {α : Type} {r : Res α} {e : Err} (h : errOf r = none) : r ≠ .err e := by
  rintro rfl
  cases h

/-- C100_open_kinds, C100_kinds, C100_open_damaged: a file of an unknown version, whatever follows it. -/
example (more : Bytes) : (NpyFile.new ⟨false, 64, true⟩ Py.parse disk ⟨twoFloats.set 7 1 ++ more, 0⟩).1 = .err (.invalidData "unsupported version") :=
  C100_open_damaged (errOf_eq (by decide +kernel)) (by decide +kernel) more

example : ∃ e, (NpyFile.new ⟨false, 64, true⟩ Py.parse disk ⟨twoFloats.set 7 1, 0⟩).1 = .err e ∧ (e = .unexpectedEof ∨ ∃ w, e = .invalidData w) :=
  have h : (NpyFile.new ⟨false, 64, true⟩ Py.parse disk ⟨twoFloats.set 7 1, 0⟩).1 = .err (.invalidData "unsupported version") := errOf_eq (by decide +kernel)
  ⟨_, h, C100_open_kinds h⟩

example : ∃ e, readFile ⟨false, 64, true⟩ Py.parse disk f64 ⟨twoFloats.take 70, 0⟩ = .err e ∧ (e = .unexpectedEof ∨ ∃ w, e = .invalidData w) :=
  have h : readFile ⟨false, 64, true⟩ Py.parse disk f64 ⟨twoFloats.take 70, 0⟩ = .err .unexpectedEof := errOf_eq (by decide +kernel)
  ⟨_, h, C100_kinds h⟩

/-- C100_more: two doubles and whatever follows them. -/
example (more : Bytes) : readFile ⟨false, 64, true⟩ Py.parse disk f64 ⟨twoFloats ++ more, 0⟩ =
    readFile ⟨false, 64, true⟩ Py.parse disk f64 ⟨twoFloats, 0⟩ :=
  C100_more (by decide +kernel) (not_err (by decide +kernel)) more

/-- C100_prefix: the file without its last twelve bytes. -/
example : ∃ vs, readFile ⟨false, 64, true⟩ Py.parse disk f64 ⟨twoFloats.take 70 ++ twoFloats.drop 70, 0⟩ = .ok vs ∧
    (readFile ⟨false, 64, true⟩ Py.parse disk f64 ⟨twoFloats.take 70, 0⟩ = .err .unexpectedEof ∨
     readFile ⟨false, 64, true⟩ Py.parse disk f64 ⟨twoFloats.take 70, 0⟩ = .ok vs) := by
  have h : (match readFile ⟨false, 64, true⟩ Py.parse disk f64 ⟨twoFloats.take 70 ++ twoFloats.drop 70, 0⟩ with
    | .ok _ => true
    | _ => false) = true := by decide +kernel
  cases hx : readFile ⟨false, 64, true⟩ Py.parse disk f64 ⟨twoFloats.take 70 ++ twoFloats.drop 70, 0⟩ with
  | ok vs => exact ⟨vs, rfl, C100_prefix (by decide +kernel) hx⟩
  | err e => rw [hx] at h; cases h
  | panic => rw [hx] at h; cases h

/-- C100_eof: a file cut in its header. -/
example : (GoodPreamble (twoFloats.take 30) ∧ (twoFloats.take 30).length < headerEnd (twoFloats.take 30)) ∨
    (∃ f size, (NpyFile.new ⟨false, 64, true⟩ Py.parse disk ⟨twoFloats.take 30, 0⟩).1 = .ok f ∧ f.header.itemSize = some size ∧
      (size ≤ (⟨false, 64, true⟩ : Machine).isizeMax → (twoFloats.take 30).length < headerEnd (twoFloats.take 30) + f.header.nRecords * size)) :=
  C100_eof (t := f64) (errOf_eq (by decide +kernel))

/-- C100_next: the first element of a file cut in it. -/
example : ∃ (f : NpyFile Src) (r : NpyReader f64.Val Src), f.data ⟨false, 64, true⟩ f64 = .ok r ∧ (r.next disk).1 = some (.err .unexpectedEof) ∧
    r.src.rest.length < 8 := by
  obtain ⟨f, r, h0, h1, hd, hp, h2, h3⟩ := openAnd_ok (M := ⟨false, 64, true⟩) (t := f64) (bytes := twoFloats.take 70)
    (P := fun r => decide (((r.next disk).1.map errOf) = some (some .unexpectedEof)) && decide (r.header.itemSize = some 8)) (by decide +kernel)
  simp only [Bool.and_eq_true, decide_eq_true_eq] at h3
  have hs : f.header.itemSize = some 8 := by
    obtain ⟨-, p, hp, rfl⟩ := data_ok_iff.mp h2
    exact h3.2
  have he : (r.next disk).1 = some (.err .unexpectedEof) := by
    obtain ⟨x, hx, h4⟩ := Option.map_eq_some_iff.mp h3.1
    rw [hx, errOf_eq h4]
  refine ⟨f, r, h2, he, ?_⟩
  rcases C100_next h1 hs (by decide +kernel) h2 [] he with h | ⟨w, h, -⟩
  · exact h.2
  · cases h

example : readFile ⟨false, 64, true⟩ Py.parse disk f64 ⟨twoFloats.take 30, 0⟩ = .err .unexpectedEof ∧
    readFile ⟨false, 64, true⟩ Py.parse disk f64 ⟨twoFloats.take 70, 0⟩ = .err .unexpectedEof ∧
    readFile ⟨false, 64, true⟩ Py.parse disk f64 ⟨twoFloats.set 7 1, 0⟩ = .err (.invalidData "unsupported version") :=
  ⟨errOf_eq (by decide +kernel), errOf_eq (by decide +kernel), errOf_eq (by decide +kernel)⟩

end Npyz.Props
