import Verif.Props.Message
import Verif.Spec.Recover
/-!
C116: reading on after the source has failed.

`Resumes` and `stiff` are in `Verif/Spec/Recover.lean`.
-/
namespace Npyz.Props
set_option autoImplicit false
open Npyz Spec Py

variable {M : Machine} {V : Type} {t : Ty} {size : Nat}

/-! ### Failing seeks -/

/-- Without its schedule. -/
def calm (r : NpyReader V StiffSrc) : NpyReader V Src := ⟨r.header, r.prog, r.src.src, r.cur⟩

theorem stiff_next (r : NpyReader V StiffSrc) : (r.next stiff).1 = ((calm r).next disk).1 ∧ calm (r.next stiff).2 = ((calm r).next disk).2 := by
  by_cases h : r.cur < r.header.nRecords
  · rw [next_some h, next_some (r := calm r) h]
    exact ⟨rfl, rfl⟩
  · rw [next_none h, next_none (r := calm r) h]
    exact ⟨rfl, rfl⟩

theorem stiff_seekBy (r : NpyReader V StiffSrc) (delta : Int) (i : Nat) :
    ((r.seekBy M stiff delta i).1 = ((calm r).seekBy M disk delta i).1 ∧ calm (r.seekBy M stiff delta i).2 = ((calm r).seekBy M disk delta i).2) ∨
    (∃ c, (r.seekBy M stiff delta i).1 = .err (.source c) ∧ calm (r.seekBy M stiff delta i).2 = calm r) := by
  rcases r with ⟨⟨d, sh, st, o, nr, sz, up⟩, p, s, cur⟩
  cases sz with
  | none => exact .inl ⟨rfl, rfl⟩
  | some n =>
    simp only [NpyReader.seekBy, calm]
    cases M.i64 (delta * wrapI64 n) with
    | err e => exact .inl ⟨rfl, rfl⟩
    | panic => exact .inl ⟨rfl, rfl⟩
    | ok off =>
      have key : (∃ c rest, stiff.seek off s = (.err (.source c), ⟨s.src, rest⟩)) ∨
          ∃ rest, stiff.seek off s = ((disk.seek off s.src).1, ⟨(disk.seek off s.src).2, rest⟩) := by
        simp only [stiff, StiffSrc.seek]
        split
        · exact .inl ⟨_, _, rfl⟩
        · exact .inr ⟨_, rfl⟩
      rcases key with ⟨c, rest, h⟩ | ⟨rest, h⟩
      · right
        simp only [h]
        exact ⟨c, rfl, trivial⟩
      · left
        simp only [h]
        rcases disk.seek off s.src with ⟨(⟨⟩ | e | _), s'⟩ <;> exact ⟨rfl, rfl⟩

theorem stiff_seekTo (r : NpyReader V StiffSrc) (i : Nat) :
    ((r.seekTo M stiff i).1 = ((calm r).seekTo M disk i).1 ∧ calm (r.seekTo M stiff i).2 = ((calm r).seekTo M disk i).2) ∨
    (∃ c, (r.seekTo M stiff i).1 = .err (.source c) ∧ calm (r.seekTo M stiff i).2 = calm r) := by
  unfold NpyReader.seekTo NpyReader.totalLen
  by_cases hi : i ≤ r.header.nRecords
  · rw [if_pos hi, if_pos (show i ≤ (calm r).header.nRecords from hi)]
    simp only [show (calm r).cur = r.cur from rfl]
    cases M.i64 (wrapI64 i - wrapI64 r.cur) with
    | err e => exact .inl ⟨rfl, rfl⟩
    | panic => exact .inl ⟨rfl, rfl⟩
    | ok d =>
      simp only
      by_cases h0 : d ≠ 0
      · rw [if_pos h0, if_pos h0]; exact stiff_seekBy r d i
      · rw [if_neg h0, if_neg h0]; exact .inl ⟨rfl, rfl⟩
  · rw [if_neg hi, if_neg (show ¬ i ≤ (calm r).header.nRecords from hi)]
    exact .inl ⟨rfl, rfl⟩

/-- One call: as on a sound source, or a failure that leaves the reader where it was. -/
theorem stiff_step (r : NpyReader V StiffSrc) (op : ROp) :
    ((r.step M stiff op).1 = ((calm r).step M disk op).1 ∧ calm (r.step M stiff op).2 = ((calm r).step M disk op).2) ∨
    (op ≠ .next ∧ seen (r.step M stiff op).1 = some .failed ∧ calm (r.step M stiff op).2 = calm r) := by
  cases op with
  | next =>
    left
    obtain ⟨h1, h2⟩ := stiff_next r
    exact ⟨by simp only [NpyReader.step, h1], by simp only [NpyReader.step, h2]⟩
  | seekTo i =>
    rcases stiff_seekTo (M := M) r i with ⟨h1, h2⟩ | ⟨c, h1, h2⟩
    · exact .inl ⟨by simp only [NpyReader.step, h1], by simp only [NpyReader.step, h2]⟩
    · exact .inr ⟨nofun, by simp only [NpyReader.step, h1, seen], by simp only [NpyReader.step, h2]⟩
  | readAt i =>
    simp only [NpyReader.step]
    unfold NpyReader.readAt NpyReader.totalLen
    by_cases hi : i < r.header.nRecords
    · rw [if_pos hi, if_pos (show i < (calm r).header.nRecords from hi)]
      rcases stiff_seekTo (M := M) r i with ⟨h1, h2⟩ | ⟨c, h1, h2⟩
      · left
        rcases hx : r.seekTo M stiff i with ⟨x, r1⟩
        rcases hy : (calm r).seekTo M disk i with ⟨y, r2⟩
        rw [hx, hy] at h1 h2
        simp only at h1 h2
        subst h1 h2
        obtain ⟨k1, k2⟩ := stiff_next r1
        rcases x with ⟨⟩ | e | _
        · simp only [NpyReader.nextUnwrap]
          rcases ha : r1.next stiff with ⟨a, ra⟩
          rcases hb : (calm r1).next disk with ⟨b, rb⟩
          rw [ha, hb] at k1 k2
          simp only at k1 k2
          subst k1 k2
          cases a <;> exact ⟨rfl, rfl⟩
        · exact ⟨rfl, rfl⟩
        · exact ⟨rfl, rfl⟩
      · right
        rcases hx : r.seekTo M stiff i with ⟨x, r1⟩
        rw [hx] at h1 h2
        simp only at h1 h2
        subst h1
        exact ⟨nofun, rfl, h2⟩
    · rw [if_neg hi, if_neg (show ¬ i < (calm r).header.nRecords from hi)]
      exact .inl ⟨rfl, rfl⟩

theorem expected_callAt (elem : Nat → Option V) (n i : Nat) (op : ROp) (ops : List ROp) :
    expected elem n (op :: ops) i = (callAt elem n i op).1 :: expected elem n ops (callAt elem n i op).2 := by
  cases op with
  | next => simp only [expected, callAt]; split <;> rfl
  | seekTo j => rfl
  | readAt j => rfl

theorem look_ne {elem : Nat → Option V} {i : Nat} (h : elem i ≠ none) : look elem i ≠ .failed := by
  unfold look
  cases hx : elem i with
  | none => exact absurd hx h
  | some v => simp

theorem callAt_ne {elem : Nat → Option V} {n i : Nat} {op : ROp} (hok : ∀ i, i < n → elem i ≠ none) (hop : InRange n [op]) :
    (callAt elem n i op).1 ≠ .failed := by
  cases op with
  | next =>
    simp only [callAt]
    split
    · exact look_ne (hok _ (by assumption))
    · simp
  | seekTo j => simp [callAt]
  | readAt j => exact look_ne (hok _ ((hop _ (List.mem_singleton.mpr rfl)).2 j rfl))

theorem cur_callAt {base n : Nat} {r : NpyReader V Src} {elem : Nat → Option V} (hf : Fits base n r.header) (ha : AtItem base n r) (op : ROp)
    (hop : InRange r.header.nRecords [op]) : (r.step M disk op).2.cur = (callAt elem r.header.nRecords r.cur op).2 := by
  cases op with
  | next =>
    simp only [NpyReader.step, callAt]
    by_cases h : r.cur < r.header.nRecords
    · rw [next_some h, if_pos h]
    · rw [next_none h, if_neg h]
  | seekTo j =>
    have hj := (hop _ (List.mem_singleton.mpr rfl)).1 j rfl
    simp only [NpyReader.step, seekTo_disk hf.size hf.count hf.bytes hf.last ha.cur_le ha.pos hj, callAt]
  | readAt j =>
    have hj := (hop _ (List.mem_singleton.mpr rfl)).2 j rfl
    have hs := seekTo_disk (M := M) hf.size hf.count hf.bytes hf.last ha.cur_le ha.pos (Nat.le_of_lt hj)
    simp only [NpyReader.step, readAt_eq hj hs rfl rfl, callAt]

theorem expected_ne {elem : Nat → Option V} {n : Nat} (hok : ∀ i, i < n → elem i ≠ none) (ops : List ROp) (hop : InRange n ops) (i : Nat) :
    Seen.failed ∉ expected elem n ops i := by
  induction ops generalizing i with
  | nil => simp [expected]
  | cons op ops ih =>
    rw [expected_callAt, List.mem_cons, not_or]
    exact ⟨fun h => callAt_ne hok (fun o ho => hop o (by rw [List.mem_singleton.mp ho]; exact List.mem_cons_self)) h.symm,
      ih (fun o ho => hop o (List.mem_cons_of_mem _ ho)) _⟩

theorem stiff_steps {f : Bytes → Option V} {base n : Nat} (ops : List ROp) (r : NpyReader V StiffSrc) (hr : Decodes r.prog n f)
    (hf : Fits base n r.header) (ha : AtItem base n (calm r)) (hb : base ≤ r.src.src.data.length) (hop : InRange r.header.nRecords ops)
    (hok : ∀ i, i < r.header.nRecords → itemAt f r.src.src.data base n i ≠ none) :
    ∃ out, (r.steps M stiff ops).1.map seen = out.map some ∧ Resumes (itemAt f r.src.src.data base n) r.header.nRecords ops r.cur out := by
  induction ops generalizing r with
  | nil => exact ⟨[], rfl, .nil⟩
  | cons op ops ih =>
    have hop1 : InRange r.header.nRecords [op] := fun o ho => hop o (by rw [List.mem_singleton.mp ho]; exact List.mem_cons_self)
    have hop2 : InRange r.header.nRecords ops := fun o ho => hop o (List.mem_cons_of_mem _ ho)
    obtain ⟨k1, k2, -⟩ := step_inv (M := M) (S := stiff) r op
    rw [steps_cons]
    rcases stiff_step (M := M) r op with ⟨h1, h2⟩ | ⟨h1, h2, h3⟩
    · obtain ⟨x, i, a0, -, a1, a2, a3, a4, a5, a6⟩ := step_disk (M := M) (r := calm r) hr hf ha hb op hop1
      rw [expected_callAt] at a0
      have hx : (callAt (itemAt f r.src.src.data base n) r.header.nRecords r.cur op).1 = x := (List.cons.inj a0).1
      have e5 : (r.step M stiff op).2.cur = (callAt (itemAt f r.src.src.data base n) r.header.nRecords r.cur op).2 := by
        have := congrArg (fun q => q.cur) h2
        exact this.trans (cur_callAt hf ha op hop1)
      have hne : x ≠ .failed := hx ▸ callAt_ne hok hop1
      have hd : (r.step M stiff op).2.src.src.data = r.src.src.data := by
        have := congrArg (fun q => q.src.data) h2
        exact this.trans a4
      obtain ⟨out, o1, o2⟩ := ih (r.step M stiff op).2 (by rw [k2]; exact hr) (by rw [k1]; exact hf) (by rw [h2]; exact a6 hne) (by rw [hd]; exact hb)
        (by rw [k1]; exact hop2) (by rw [k1, hd]; exact hok)
      refine ⟨x :: out, ?_, ?_⟩
      · simp only [List.map_cons, o1, h1, a1]
      · rw [k1, hd, e5] at o2
        rw [← hx]
        exact .right o2
    · have hd : (r.step M stiff op).2.src.src.data = r.src.src.data := congrArg (fun q => q.src.data) h3
      have hc : (r.step M stiff op).2.cur = r.cur := congrArg (fun q => q.cur) h3
      obtain ⟨out, o1, o2⟩ := ih (r.step M stiff op).2 (by rw [k2]; exact hr) (by rw [k1]; exact hf) (by rw [h3]; exact ha) (by rw [hd]; exact hb)
        (by rw [k1]; exact hop2) (by rw [k1, hd]; exact hok)
      refine ⟨.failed :: out, ?_, ?_⟩
      · simp only [List.map_cons, o1, h2]
      · rw [k1, hd, hc] at o2
        exact .refused h1 o2

/-- C116, the part that holds: if only seeking fails, a failed call of `seek_to` or `read_at` is as if it had not been made; all other
calls return what they should.  Missing: errors of the source while it is read, see `C116_shifted`. -/
theorem C116_seeks_partial {f : NpyFile Src} {r : NpyReader t.Val Src} (ho : Opened M f.header) (h : f.data M t = .ok r)
    (hf : Fits f.src.pos size f.header) (hm : size ≤ M.isizeMax) (hb : f.src.pos ≤ f.src.data.length)
    (hok : ∀ i, i < f.header.nRecords → elementAt t f.header.dtype f.src.data f.src.pos size i ≠ none) (fails : List (Option Nat)) (ops : List ROp)
    (hop : InRange f.header.nRecords ops) :
    ∃ r' out, (⟨f.header, ⟨f.src, fails⟩⟩ : NpyFile StiffSrc).data M t = .ok r' ∧ (r'.steps M stiff ops).1.map seen = out.map some ∧
      Resumes (elementAt t f.header.dtype f.src.data f.src.pos size) f.header.nRecords ops 0 out := by
  obtain ⟨n, he, hn, hr⟩ := opened_reads ho h
  have : n = size := by have := hf.size; rw [hn] at this; cases this; rfl
  subst this
  obtain ⟨hp, p, hrd, rfl⟩ := data_ok_iff.mp h
  obtain ⟨out, h1, h2⟩ := stiff_steps (M := M) (base := f.src.pos) ops ⟨f.header, p, ⟨f.src, fails⟩, 0⟩ (hr hm).decodes hf ⟨Nat.zero_le _, by simp [calm]⟩ hb hop hok
  exact ⟨_, out, data_ok_iff.mpr ⟨hp, p, hrd, rfl⟩, h1, h2⟩

/-! ### Failing reads -/

/-- A program that needs a byte fails with the first read, having read nothing. -/
theorem fails_first {α : Type} {p : RProg α} {bs rest : Bytes} {v : α} (c : Nat) (evs : List RProg.Ev) (h : p.run bs = (.ok v, rest))
    (hl : rest.length < bs.length) : p.runSched bs (.fail c :: evs) = (.err (.source c), bs, evs) := by
  induction p with
  | ret r => cases h; omega
  | read m eof k ih =>
    by_cases hm : m = 0
    · subst hm
      simp only [RProg.run, Nat.zero_le, if_true, List.take_zero, List.drop_zero] at h
      simp only [RProg.runSched, RProg.readLoop, if_true]
      exact ih _ h
    · simp only [RProg.runSched, RProg.readLoop, if_neg hm]

/-- The reader one element further, on an array with one element less in front. -/
def oneOn (r : NpyReader V Src) : NpyReader V Src := ⟨{ r.header with nRecords := r.header.nRecords + 1 }, r.prog, r.src, r.cur + 1⟩

def onOne : ROp → ROp
  | .next => .next
  | .seekTo i => .seekTo (i + 1)
  | .readAt i => .readAt (i + 1)

theorem oneOn_next (r : NpyReader V Src) : (oneOn r).next disk = ((r.next disk).1, oneOn (r.next disk).2) := by
  by_cases h : r.cur < r.header.nRecords
  · rw [next_some h, next_some (r := oneOn r) (Nat.succ_lt_succ h)]
    rfl
  · rw [next_none h, next_none (r := oneOn r) (fun h' => h (Nat.lt_of_succ_lt_succ h'))]

theorem oneOn_seekTo (r : NpyReader V Src) (hn : r.header.nRecords + 1 < 2 ^ 63) (hc : r.cur ≤ r.header.nRecords) (i : Nat) :
    (oneOn r).seekTo M disk (i + 1) = ((r.seekTo M disk i).1, oneOn (r.seekTo M disk i).2) := by
  unfold NpyReader.seekTo NpyReader.totalLen
  by_cases hi : i ≤ r.header.nRecords
  · rw [if_pos hi, if_pos (show i + 1 ≤ (oneOn r).header.nRecords from Nat.succ_le_succ hi)]
    have e : wrapI64 ((i + 1 : Nat) : Int) - wrapI64 ((oneOn r).cur : Int) = wrapI64 i - wrapI64 r.cur := by
      show wrapI64 ((i + 1 : Nat) : Int) - wrapI64 ((r.cur + 1 : Nat) : Int) = _
      rw [wrapI64_small (by omega), wrapI64_small (by omega), wrapI64_small (by omega), wrapI64_small (by omega)]
      omega
    rw [e]
    cases M.i64 (wrapI64 i - wrapI64 r.cur) with
    | err e => rfl
    | panic => rfl
    | ok d =>
      simp only
      by_cases h0 : d ≠ 0
      · rw [if_pos h0, if_pos h0]
        rcases r with ⟨⟨dt, sh, st, o, nr, sz, up⟩, p, s, cur⟩
        cases sz with
        | none => rfl
        | some n =>
          simp only [NpyReader.seekBy, oneOn]
          cases M.i64 (d * wrapI64 n) with
          | err e => rfl
          | panic => rfl
          | ok off =>
            simp only
            rcases disk.seek off s with ⟨(⟨⟩ | e | _), s'⟩ <;> rfl
      · rw [if_neg h0, if_neg h0]
  · rw [if_neg hi, if_neg (show ¬ i + 1 ≤ (oneOn r).header.nRecords from fun h => hi (Nat.le_of_succ_le_succ h))]

theorem oneOn_step (r : NpyReader V Src) (hn : r.header.nRecords + 1 < 2 ^ 63) (hc : r.cur ≤ r.header.nRecords) (op : ROp) :
    (oneOn r).step M disk (onOne op) = ((r.step M disk op).1, oneOn (r.step M disk op).2) := by
  cases op with
  | next => simp only [onOne, NpyReader.step, oneOn_next]
  | seekTo i => simp only [onOne, NpyReader.step, oneOn_seekTo r hn hc]
  | readAt i =>
    simp only [onOne, NpyReader.step]
    unfold NpyReader.readAt NpyReader.totalLen
    by_cases hi : i < r.header.nRecords
    · rw [if_pos hi, if_pos (show i + 1 < (oneOn r).header.nRecords from Nat.succ_lt_succ hi), oneOn_seekTo r hn hc]
      rcases hx : r.seekTo M disk i with ⟨(⟨⟩ | e | _), r1⟩
      · simp only [NpyReader.nextUnwrap, oneOn_next]
        rcases r1.next disk with ⟨_ | x, r2⟩ <;> rfl
      · rfl
      · rfl
    · rw [if_neg hi, if_neg (show ¬ i + 1 < (oneOn r).header.nRecords from fun h => hi (Nat.lt_of_succ_lt_succ h))]

theorem oneOn_steps (ops : List ROp) (r : NpyReader V Src) (hn : r.header.nRecords + 1 < 2 ^ 63) (hc : r.cur ≤ r.header.nRecords) :
    ((oneOn r).steps M disk (ops.map onOne)).1 = (r.steps M disk ops).1 := by
  induction ops generalizing r with
  | nil => rfl
  | cons op ops ih =>
    obtain ⟨k1, -, k3⟩ := step_inv (M := M) (S := disk) r op
    rw [List.map_cons, steps_cons, steps_cons, oneOn_step r hn hc]
    simp only
    rw [ih _ (by rw [k1]; exact hn) (by rw [k1]; exact k3 hc)]

theorem expected_onOne (elem : Nat → Option V) (n : Nat) (ops : List ROp) (i : Nat) :
    expected elem n ops i = expected (fun j => elem (j - 1)) (n + 1) (ops.map onOne) (i + 1) := by
  induction ops generalizing i with
  | nil => rfl
  | cons op ops ih =>
    cases op with
    | next =>
      simp only [List.map_cons, onOne, expected]
      by_cases h : i < n
      · rw [if_pos h, if_pos (Nat.succ_lt_succ h), ih]; rfl
      · rw [if_neg h, if_neg (fun h' => h (Nat.lt_of_succ_lt_succ h')), ih]
    | seekTo j => simp only [List.map_cons, onOne, expected, ih]
    | readAt j => simp only [List.map_cons, onOne, expected, ih]; rfl

/-- C116 is violated for every type: whatever the file, if the source fails when the first element is to be read, and never again, then the
call reports the error, but every later call returns the element before the one it should. -/
theorem C116_shifted {f : NpyFile Src} {r : NpyReader t.Val Src} (ho : Opened M f.header) (h : f.data M t = .ok r)
    (hf : Fits f.src.pos size f.header) (hm : size ≤ M.isizeMax) (hpos : 0 < size) (hb : f.src.pos ≤ f.src.data.length) (hn : 0 < f.header.nRecords)
    (hok : ∀ i, i < f.header.nRecords → elementAt t f.header.dtype f.src.data f.src.pos size i ≠ none) (c : Nat) (ops : List ROp)
    (hop : InRange f.header.nRecords ops) (hop0 : ∀ op ∈ ops, op ≠ .seekTo 0 ∧ op ≠ .readAt 0) :
    ∃ r', (⟨f.header, ⟨f.src, [.fail c]⟩⟩ : NpyFile FlakySrc).data M t = .ok r' ∧ (r'.next flaky).1 = some (.err (.source c)) ∧
      ((r'.next flaky).2.steps M flaky ops).1.map seen =
        (expected (fun i => elementAt t f.header.dtype f.src.data f.src.pos size (i - 1)) f.header.nRecords ops 1).map some := by
  obtain ⟨n, he, hnn, hr⟩ := opened_reads ho h
  have : n = size := by have := hf.size; rw [hnn] at this; cases this; rfl
  subst this
  obtain ⟨hp, p, hrd, rfl⟩ := data_ok_iff.mp h
  have hdec := (hr hm).decodes
  obtain ⟨N, hN⟩ : ∃ N, f.header.nRecords = N + 1 := ⟨f.header.nRecords - 1, by omega⟩
  obtain ⟨v, hv⟩ := Option.ne_none_iff_exists'.mp (hok 0 hn)
  obtain ⟨hl, hv⟩ := (itemAt_iff (s := f.src) (base := f.src.pos) (n := n) (i := 0) hb (by simp) v).mp hv
  have hrun := hdec.ok _ (f.src.rest.drop n) v (by rw [List.length_take]; omega) hv
  rw [List.take_append_drop] at hrun
  have hfirst := fails_first c [] hrun (by rw [List.length_drop]; omega)
  have hx : flaky.exec p ⟨f.src, [.fail c]⟩ = (.err (.source c), ⟨f.src, []⟩) := by
    simp only [flaky, hfirst]
    simp [Src.leave]
  have hnext : (⟨f.header, p, ⟨f.src, [.fail c]⟩, 0⟩ : NpyReader t.Val FlakySrc).next flaky =
      (some (.err (.source c)), ⟨f.header, p, ⟨f.src, []⟩, 1⟩) := by
    rw [next_some hn, hx]
  refine ⟨_, data_ok_iff.mpr ⟨hp, p, hrd, rfl⟩, by rw [hnext], ?_⟩
  rw [hnext, flaky_steps_nofail _ _ (by simp [NoFail])]
  obtain ⟨ops', rfl⟩ : ∃ ops' : List ROp, ops = ops'.map onOne := by
    clear hop
    induction ops with
    | nil => exact ⟨[], rfl⟩
    | cons op ops ih =>
      obtain ⟨ops', rfl⟩ := ih (fun o ho => hop0 o (List.mem_cons_of_mem _ ho))
      obtain ⟨h1, h2⟩ := hop0 op List.mem_cons_self
      rcases op with _ | i | i
      · exact ⟨.next :: ops', rfl⟩
      · cases i with
        | zero => exact absurd rfl h1
        | succ i => exact ⟨.seekTo i :: ops', rfl⟩
      · cases i with
        | zero => exact absurd rfl h2
        | succ i => exact ⟨.readAt i :: ops', rfl⟩
  have hop' : InRange N ops' := by
    intro op ho
    have := hop (onOne op) (List.mem_map.mpr ⟨op, ho, rfl⟩)
    rw [hN] at this
    refine ⟨fun j hj => ?_, fun j hj => ?_⟩ <;> subst hj
    · have := this.1 (j + 1) rfl; omega
    · have := this.2 (j + 1) rfl; omega
  have hcount := hf.count
  have hlt : N * n ≤ f.header.nRecords * n := Nat.mul_le_mul_right _ (by omega)
  have hf' : Fits f.src.pos n { f.header with nRecords := N } := ⟨hf.size, by show N < _; omega, by have := hf.bytes; show N * n < _; omega,
    by have := hf.last; show f.src.pos + N * n < _; omega⟩
  have e : NpyReader.plain (⟨f.header, p, ⟨f.src, []⟩, 1⟩ : NpyReader t.Val FlakySrc) = oneOn ⟨{ f.header with nRecords := N }, p, f.src, 0⟩ := by
    unfold oneOn NpyReader.plain
    simp only [← hN]
  rw [e, oneOn_steps _ _ (by show N + 1 < _; omega) (Nat.zero_le _), hN, ← expected_onOne]
  refine steps_disk (M := M) (base := f.src.pos) (r := ⟨{ f.header with nRecords := N }, p, f.src, 0⟩) hdec hf' ⟨Nat.zero_le _, by simp⟩ hb ops' hop' fun hm => ?_
  exact expected_ne (fun i hi => hok i (Nat.lt_of_lt_of_eq (Nat.lt_succ_of_lt hi) hN.symm)) ops' hop' _ (List.dropLast_subset _ hm)

/-- C116 is violated: the source fails once, with code 5, when element 0 of two floats is to be read.  That call reports the failure.  The next
call, `read_at(1)`, succeeds and returns element 0, although on a sound source it returns element 1. -/
theorem C116_violated : ∃ (f : NpyFile Src) (r : NpyReader f64.Val FlakySrc) (r' : NpyReader f64.Val Src),
    NpyFile.new ⟨false, 64, true⟩ Py.parse disk ⟨twoFloats, 0⟩ = (.ok f, f.src) ∧
    (⟨f.header, ⟨f.src, [.fail 5]⟩⟩ : NpyFile FlakySrc).data ⟨false, 64, true⟩ f64 = .ok r ∧ f.data ⟨false, 64, true⟩ f64 = .ok r' ∧
    ((r.readAt ⟨false, 64, true⟩ flaky 0).1 matches .err (.source 5)) = true ∧
    (r.steps ⟨false, 64, true⟩ flaky [.readAt 0, .readAt 1]).1.map seenNat = [none, some (some 258)] ∧
    (r'.steps ⟨false, 64, true⟩ disk [.readAt 0, .readAt 1]).1.map seenNat = [some (some 258), some (some 772)] := by
  obtain ⟨f, r, h0, h1, hd, hp, h2, h3⟩ := openAnd_ok (M := ⟨false, 64, true⟩) (t := f64) (bytes := twoFloats)
    (P := fun r => (((⟨r.header, r.prog, ⟨r.src, [.fail 5]⟩, 0⟩ : NpyReader f64.Val FlakySrc).readAt ⟨false, 64, true⟩ flaky 0).1 matches .err (.source 5)) &&
      ((⟨r.header, r.prog, ⟨r.src, [.fail 5]⟩, 0⟩ : NpyReader f64.Val FlakySrc).steps ⟨false, 64, true⟩ flaky [.readAt 0, .readAt 1]).1.map seenNat == [none, some (some 258)] &&
      (r.steps ⟨false, 64, true⟩ disk [.readAt 0, .readAt 1]).1.map seenNat == [some (some 258), some (some 772)]) (by decide +kernel)
  simp only [Bool.and_eq_true, beq_iff_eq] at h3
  obtain ⟨hp, p, hrd, rfl⟩ := data_ok_iff.mp h2
  exact ⟨f, _, _, h0, data_ok_iff.mpr ⟨hp, p, hrd, rfl⟩, h2, h3.1.1, h3.1.2, h3.2⟩

/-- C116_seeks_partial, C116_shifted: the file of `C116_violated`. -/
example : ∃ (f : NpyFile Src) (r : NpyReader f64.Val StiffSrc) (out : List (Seen f64.Val)),
    NpyFile.new ⟨false, 64, true⟩ Py.parse disk ⟨twoFloats, 0⟩ = (.ok f, f.src) ∧
    (r.steps ⟨false, 64, true⟩ stiff [.seekTo 1, .next, .readAt 1]).1.map seen = out.map some ∧
    Resumes (elementAt f64 f.header.dtype f.src.data f.src.pos 8) 2 [.seekTo 1, .next, .readAt 1] 0 out := by
  obtain ⟨f, r, h1, h0, h2, h3, h4, h5, h6⟩ := twoFloats_reader
  obtain ⟨r', out, -, k1, k2⟩ := C116_seeks_partial h1 h2 h3 (by decide) (by omega) (twoFloats_elements h4 h5 h6) [some 5]
    [.seekTo 1, .next, .readAt 1] (by rw [h4]; intro op ho; simp at ho; rcases ho with rfl | rfl | rfl <;> simp)
  exact ⟨f, r', out, h0, k1, h4 ▸ k2⟩
example : ∃ (f : NpyFile Src) (r : NpyReader f64.Val FlakySrc),
    NpyFile.new ⟨false, 64, true⟩ Py.parse disk ⟨twoFloats, 0⟩ = (.ok f, f.src) ∧
    ((r.next flaky).2.steps ⟨false, 64, true⟩ flaky [.readAt 1, .next]).1.map seen =
      (expected (fun i => elementAt f64 f.header.dtype f.src.data f.src.pos 8 (i - 1)) 2 [.readAt 1, .next] 1).map some := by
  obtain ⟨f, r, h1, h0, h2, h3, h4, h5, h6⟩ := twoFloats_reader
  obtain ⟨r', -, -, k2⟩ := C116_shifted h1 h2 h3 (by decide) (by decide) (by omega) (by omega) (twoFloats_elements h4 h5 h6) 5
    [.readAt 1, .next] (by rw [h4]; intro op ho; simp at ho; rcases ho with rfl | rfl <;> simp)
    (by intro op ho; simp at ho; rcases ho with rfl | rfl <;> simp)
  exact ⟨f, r', h0, h4 ▸ k2⟩

end Npyz.Props
