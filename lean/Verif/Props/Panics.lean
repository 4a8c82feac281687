import Verif.Proofs.Straight
import Verif.Proofs.SparsePanic
import Verif.Props.Buffer
import Verif.Props.WriteHeader
/-!
C78-C80: panics while reading elements, streams without `Seek`, panics while writing.
-/
namespace Npyz.Props
open Npyz Spec Py RProg

/-! ### C78 -/

theorem run_np {α : Type} {p : RProg α} {n : Nat} {f : Bytes → Option α} (h : Reads p n f) (bs : Bytes) : (p.run bs).1 ≠ .panic := by
  by_cases hl : bs.length < n
  · obtain ⟨e, r, h1, -⟩ := h.short bs hl
    rw [h1]; simp
  · have e : bs = bs.take n ++ bs.drop n := (List.take_append_drop n bs).symm
    have hn : (bs.take n).length = n := by simp; omega
    cases hf : f (bs.take n) with
    | some v => rw [e, h.ok _ _ v hn hf]; simp
    | none =>
      obtain ⟨why, k, -, h1⟩ := h.bad _ (bs.drop n) hn hf
      rw [e, h1]; simp

/-- C78, the part that holds: if the items are not larger than `isize::MAX`, then for every type asking for the elements, and every `next`
in any history of calls, over a source with any errors, is no panic.  Missing: larger items, which panic
(`C78_violated`). -/
theorem C78_next_partial {M : Machine} {t : Ty} {f : NpyFile FlakySrc} (ho : Opened M f.header)
    (hs : ∀ size, f.header.itemSize = some size → size ≤ M.isizeMax) :
    f.data M t ≠ .panic ∧ f.tryData M t ≠ .panic ∧
    ∀ r, f.data M t = .ok r → ∀ ops, ((r.steps M flaky ops).2.next flaky).1 ≠ some .panic := by
  have hnp := reader_np M t f.header.dtype
  refine ⟨?_, ?_, ?_⟩
  · unfold NpyFile.data NpyFile.dataWith NpyHeader.forbidPickle
    cases f.header.usesPickled with
    | true => simp
    | false =>
      rcases hr : t.reader M f.header.dtype with p | e | _
      · simp
      · simp
      · exact absurd hr hnp
  · unfold NpyFile.tryData
    cases f.header.usesPickled with
    | true => simp
    | false =>
      rcases hr : t.reader M f.header.dtype with p | e | _
      · simp
      · simp
      · exact absurd hr hnp
  · intro r h ops
    obtain ⟨n, -, hn, hr⟩ := opened_reads ho h
    have hr := hr (hs n hn)
    obtain ⟨-, p, -, rfl⟩ := data_ok_iff.mp h
    obtain ⟨h1, h2, -⟩ := steps_inv (M := M) (S := flaky) ops ⟨f.header, p, f.src, 0⟩ (Nat.zero_le _)
    generalize ((⟨f.header, p, f.src, 0⟩ : NpyReader t.Val FlakySrc).steps M flaky ops).2 = r' at *
    unfold NpyReader.next
    by_cases hc : r'.cur < r'.header.nRecords
    · rw [if_pos hc, h2]
      simp only [ne_eq, Option.some.injEq]
      rcases flaky_exec p r'.src with ⟨_, -, h3⟩ | ⟨c, -, h3⟩
      · rw [h3]; exact run_np hr _
      · rw [h3]; simp
    · rw [if_neg hc]; simp

example : ∃ f : NpyFile FlakySrc, ∀ r, f.data ⟨false, 64, true⟩ f64 = .ok r → ∀ ops, ((r.steps ⟨false, 64, true⟩ flaky ops).2.next flaky).1 ≠ some .panic := by
  obtain ⟨f, r, h0, -, h2, h3, -⟩ := twoFloats_reader
  exact ⟨⟨f.header, ⟨f.src, [.short 3, .interrupted, .fail 7]⟩⟩, (C78_next_partial (f := ⟨f.header, ⟨f.src, [.short 3, .interrupted, .fail 7]⟩⟩) h0
    (fun size hs => by cases hs.symm.trans h3.size; decide)).2.2⟩

/-- C78, the part that holds: without overflow checks, on a 64-bit machine, reading a whole file of arbitrary bytes as any type does not panic, unless
its header can be read and declares items larger than `isize::MAX`.  (With overflow checks and on 32-bit machines there are also
the panics of C14.) -/
theorem C78_read_file_partial {M : Machine} (h64 : M.usizeBits = 64) (hrel : M.overflowChecks = false) (py : PyParser) (t : Ty) (bytes : Bytes)
    (evs : List Ev) (h : readFile M py flaky t ⟨⟨bytes, 0⟩, evs⟩ = .panic) :
    ∃ f size, (NpyFile.new M py disk ⟨bytes, 0⟩).1 = .ok f ∧ f.header.itemSize = some size ∧ M.isizeMax < size := by
  rcases C23_read_file (M := M) py t ⟨bytes, 0⟩ evs with h1 | ⟨c, -, h1⟩
  · rw [h1] at h
    unfold readFile at h
    rcases hn : NpyFile.new M py disk ⟨bytes, 0⟩ with ⟨(f | e | _), s⟩
    · rw [hn] at h
      simp only at h ⊢
      obtain ⟨k1, -, k2, k3, -⟩ := new_disk hn
      by_cases hx : ∀ n, f.header.itemSize = some n → n ≤ M.isizeMax
      · exact absurd h (intoVec_np ⟨k1, by rw [k2]; exact k3, hx⟩)
      · simp only [Classical.not_forall, Nat.not_le] at hx
        obtain ⟨n, hn, hlt⟩ := hx
        exact ⟨f, n, rfl, hn, hlt⟩
    · rw [hn] at h; cases h
    · exfalso
      unfold NpyFile.new disk at hn
      have := C14_never_panics_partial M h64 hrel py bytes
      simp only at hn
      rcases hr : ((NpyHeader.fromReader M py).run (⟨bytes, 0⟩ : Src).rest).1 with x | x | _ <;> rw [hr] at hn
      · cases hn
      · cases hn
      · exact this hr
  · rw [h1] at h; cases h

/-- C78 on every machine: reading a whole file of arbitrary bytes as any type panics only for an item size above `isize::MAX`, a header
length above `isize::MAX`, or a declared shape whose product overflows (the last two are the causes of C14). -/
theorem C78_causes_partial {M : Machine} (py : PyParser) (t : Ty) (bytes : Bytes) (evs : List Ev)
    (h : readFile M py flaky t ⟨⟨bytes, 0⟩, evs⟩ = .panic) :
    (∃ f size, (NpyFile.new M py disk ⟨bytes, 0⟩).1 = .ok f ∧ f.header.itemSize = some size ∧ M.isizeMax < size) ∨
    M.isizeMax < headerEnd bytes ∨
    ∃ text kvs vs dims, encodeUtf8 text <:+: bytes ∧ py text = some (.dict kvs) ∧ LastEntry "shape" vs kvs ∧
      convertShape vs = .ok dims ∧ 2 ^ 64 ≤ nonzeroProd dims := by
  rcases C23_read_file (M := M) py t ⟨bytes, 0⟩ evs with h1 | ⟨c, -, h1⟩
  · rw [h1] at h
    unfold readFile at h
    rcases hn : NpyFile.new M py disk ⟨bytes, 0⟩ with ⟨(f | e | _), s⟩
    · rw [hn] at h
      simp only at h ⊢
      obtain ⟨k1, -, k2, k3, -⟩ := new_disk hn
      by_cases hx : ∀ n, f.header.itemSize = some n → n ≤ M.isizeMax
      · exact absurd h (intoVec_np ⟨k1, by rw [k2]; exact k3, hx⟩)
      · simp only [Classical.not_forall, Nat.not_le] at hx
        obtain ⟨n, hn, hlt⟩ := hx
        exact .inl ⟨f, n, rfl, hn, hlt⟩
    · rw [hn] at h; cases h
    · refine .inr (C14_panic_causes_partial M py bytes ?_)
      unfold NpyFile.new disk at hn
      simp only at hn
      rcases hr : ((NpyHeader.fromReader M py).run (⟨bytes, 0⟩ : Src).rest).1 with x | x | _ <;> rw [hr] at hn
      · cases hn
      · cases hn
      · exact hr
  · rw [h1] at h; cases h

/-- A header of one byte string of `2^63` bytes. -/
def hugeItem : Bytes :=
  magicBytes ++ [1, 0, 79, 0] ++ encodeUtf8 "{'descr': '|S9223372036854775808', 'fortran_order': False, 'shape': (1, )}     ".toList

def panics {ε α : Type} : Out ε α → Bool
  | .panic => true
  | _ => false

theorem panics_eq {ε α : Type} {r : Out ε α} (h : panics r = true) : r = .panic := by
  rcases r with _ | _ | _
  · cases h
  · cases h
  · rfl

/-- The hypothesis of `C78_causes_partial`: a shape whose product overflows. -/
example : readFile ⟨false, 64, true⟩ Py.parse flaky f64 ⟨⟨overflowFile, 0⟩, [.short 3, .interrupted]⟩ = .panic :=
  panics_eq (by decide +kernel)

/-- C78 is violated: a file of 89 bytes that declares one byte string of `2^63` bytes can be opened and asked for its elements, but then
reading the first one panics (the buffer for it exceeds `isize::MAX`). -/
theorem C78_violated : hugeItem.length = 89 ∧ (∃ f r, (NpyFile.new ⟨false, 64, false⟩ Py.parse disk ⟨hugeItem, 0⟩).1 = .ok f ∧
    f.data ⟨false, 64, false⟩ .vecU8 = .ok r ∧ (r.next disk).1 = some .panic) ∧
    readFile ⟨false, 64, false⟩ Py.parse disk .vecU8 ⟨hugeItem, 0⟩ = .panic := by
  refine ⟨by decide +kernel, ?_, panics_eq (by decide +kernel)⟩
  obtain ⟨f, r, h0, -, -, -, h1, h2⟩ := openAnd_ok (M := ⟨false, 64, false⟩) (t := .vecU8) (bytes := hugeItem)
    (P := fun r => match (r.next disk).1 with | some .panic => true | _ => false) (by decide +kernel)
  refine ⟨f, r, by rw [h0], h1, ?_⟩
  rcases hx : (r.next disk).1 with _ | (v | e | _) <;> rw [hx] at h2
  · cases h2
  · cases h2
  · cases h2

/-- C78_read_file_partial: the file of `C78_violated` is one of those. -/
example : ∃ f size, (NpyFile.new ⟨false, 64, false⟩ Py.parse disk ⟨hugeItem, 0⟩).1 = .ok f ∧ f.header.itemSize = some size ∧
    (⟨false, 64, false⟩ : Machine).isizeMax < size :=
  C78_read_file_partial (t := .vecU8) rfl rfl Py.parse hugeItem [] (panics_eq (by decide +kernel))

/-! ### C79 -/

/-- C79: a session with known shape does the same on a stream that can seek and on one that cannot, whatever errors there are: the same
result and the same bytes, appended at the position of the stream. -/
theorem C79_appends {M : Machine} {t : Ty} (d : DType) (o : Order) (dims : List Nat) (vs : List t.Val) (s : Sink) (evs : List Ev) :
    ∃ r bytes evs', ∀ seekable, NpyWriter.save M shaky t d o (.nd dims) vs ({ s with seekable }, evs) =
      (r, ({ s.put bytes with seekable }, evs')) :=
  NpyWriter.save_appends M d o dims vs s evs

/-- C79 for a header on its own (`write_header_only`). -/
theorem C79_header {M : Machine} (d : DType) (o : Order) (dims : List Nat) (s : Sink) (evs : List Ev) :
    ∃ r bytes evs', ∀ seekable, shaky.exec (writeHeader M d o (.nd dims)) ({ s with seekable }, evs) =
      (r, ({ s.put bytes with seekable }, evs')) :=
  (writeHeader_straight M d o (.nd dims)).plain.appends s evs

/-- The outcome of a session of two numbers with shape `[2]` on a stream that cannot seek: without errors, the length of the file. -/
def piped (evs : List Ev) : Option Nat :=
  match NpyWriter.save ⟨false, 64, true⟩ shaky f64 (.plain ⟨.little, .float, 8, none⟩) .c (.nd [2]) [1#64, 2#64] (⟨[1, 2, 3], 3, false⟩, evs) with
  | (.ok (), (s, _)) => some s.data.length
  | _ => none

example : piped [] = some 147 := by decide +kernel
example : piped [.short 3, .interrupted, .short 40] = some 147 := by decide +kernel
example : piped [.short 3, .fail 7] = none := by decide +kernel

/-! ### C80 -/

theorem extend_np {M : Machine} {t : Ty} {d : DType} {n : Nat} (hd : d.Wf) (hn : exactBytes d = some n) (hm : n ≤ M.isizeMax)
    (vs : List t.Val) (w : NpyWriter t.Val) (hw : t.writer M d = .ok w.prog) (hc : w.numItems + vs.length < 2 ^ 64) (s : Sink) :
    ∃ r k bs, w.extend M solid vs s = (r, { w with numItems := k }, s.put bs) ∧ r ≠ .panic ∧ k < 2 ^ 64 := by
  induction vs generalizing w s with
  | nil => exact ⟨.ok (), w.numItems, [], by rw [Sink.put_nil]; rfl, by simp, by omega⟩
  | cons v vs ih =>
    have hc' : w.numItems + (vs.length + 1) < 2 ^ 64 := hc
    obtain ⟨b, r, hp, hr⟩ := push_solid hw hd hn hm (by omega) v s
    unfold NpyWriter.extend
    rw [hp]
    rcases hr with ⟨-, rfl, -⟩ | ⟨-, why, rfl⟩
    · obtain ⟨r, k, bs, h1, h2, h3⟩ := ih { w with numItems := w.numItems + 1 } hw (by simp only; omega) (s.put b)
      exact ⟨r, k, b ++ bs, by simp only; rw [h1, Sink.put_put], h2, h3⟩
    · exact ⟨_, w.numItems + 1, b, rfl, by simp, by omega⟩

/-- C80, the part that holds: a session returns, whatever values are given and whatever errors the stream has, under conditions that are explained by
`C80_violated`. -/
theorem C80_returns_partial {M : Machine} {t : Ty} {d : DType} {size : Nat} (hd : d.Wf) (hn : exactBytes d = some size) (hm : size ≤ M.isizeMax)
    (ha : d.NotArray) {o : Order} {hint : ShapeHint} (hz : hint ≠ .twoD 0) (hh : hint.Fits)
    (hlen : dictBytes d o hint ≤ 65525 ∨ ((NonAscii d ∨ 0xfffffc00 ≤ dictBytes d o hint) ∧ dictBytes d o hint ≤ 2 ^ 32 - 13))
    {s : Sink} (hk : hint.seeks = true → s.seekable = true) (hpos : hint.seeks = true → s.pos + dictBytes d o hint + 76 ≤ 2 ^ 64)
    {vs : List t.Val} (hc : vs.length < 2 ^ 64) (evs : List Ev) (cap : Nat) :
    (NpyWriter.save M solid t d o hint vs s).1 ≠ .panic ∧ (NpyWriter.save M shaky t d o hint vs (s, evs)).1 ≠ .panic ∧
    (NpyWriter.save M (buffered cap) t d o hint vs (fresh s evs)).1 ≠ .panic := by
  have main : (NpyWriter.save M solid t d o hint vs s).1 ≠ .panic := by
    unfold NpyWriter.save NpyWriter.saveWith
    rcases hb : solid.exec (NpyWriter.begin M t d o hint) s with ⟨(w | e | _), s1⟩
    · obtain ⟨hst, h0, hsk, hs1⟩ := begin_ok hb
      obtain ⟨r, k, bs, hx, hr, hk'⟩ := extend_np hd hn hm vs w hst.prog (by omega) s1
      simp only
      rw [hx]
      have hst' := hst.count k
      have hsk' : hint.seeks = true → (s1.put bs).seekable = true := by
        intro h; rw [Sink.put_seekable, hs1, Sink.put_seekable]; exact hk h
      have hfin := NpyWriter.finish_np (M := M) hst'.toBegun hk' hz hpos hsk'
      rcases r with ⟨⟩ | e | _
      · simp only
        rw [(finish_eq _ hk' _).1]
        exact hfin
      · simp only
        unfold NpyWriter.drop
        have hfin : (solid.exec (NpyWriter.finish_ M { w with numItems := k }) (s1.put bs)).1 ≠ .panic := hfin
        rcases hy : solid.exec (NpyWriter.finish_ M { w with numItems := k }) (s1.put bs) with ⟨(⟨⟩ | e' | _), s3⟩
        · simp
        · simp
        · rw [hy] at hfin; exact absurd rfl hfin
      · exact absurd rfl hr
    · simp
    · exfalso
      have hb : (NpyWriter.begin M t d o hint).exec s = (.panic, s1) := hb
      unfold NpyWriter.begin NpyWriter.beginWith at hb
      obtain ⟨st, hst⟩ : ∃ st, (startPosition hint).exec s = (.ok st, s) := by
        rw [exec_startPosition]
        by_cases h : hint.seeks = true
        · rw [if_pos h, if_pos (hk h)]; exact ⟨_, rfl⟩
        · rw [if_neg h]; exact ⟨_, rfl⟩
      obtain ⟨r, hdr, hw⟩ := C09_success_partial M d ha o hint hh hlen s
      rw [WProg.exec_bind_of_ok hst, WProg.exec_bind_of_ok hw, WProg.exec_bind, WProg.exec_lift] at hb
      have hnp := writer_np M t d
      rcases hwr : t.writer M d with p | e | _
      · rw [hwr] at hb; cases hb
      · rw [hwr] at hb; cases hb
      · exact hnp hwr
  refine ⟨main, ?_, ?_⟩
  · rcases C64_reported (M := M) (d := d) (o := o) (vs := vs) hz hpos evs with h | ⟨c, -, h⟩
    · rw [h]; exact main
    · rw [h]; simp
  · rcases C76_reported (M := M) (cap := cap) (d := d) (o := o) (vs := vs) hz hpos evs with h | ⟨c, -, h⟩
    · rw [h]; exact main
    · rw [h]; simp

/-- C80 is violated, besides the cases of C09 (long headers) and C44 (record length 0): the session panics if the dtype is an array at top level,
with overflow checks if the dimensions multiply to `2^64` or more, and, once an item is written, if items are larger than `isize::MAX`. -/
theorem C80_violated :
    (∀ (M : Machine) (t : Ty) (n : Nat) (d : DType) (o : Order) (hint : ShapeHint) (vs : List t.Val) (s : Sink), s.seekable = true →
      (NpyWriter.save M solid t (.array n d) o hint vs s).1 = .panic) ∧
    (NpyWriter.save ⟨false, 64, true⟩ solid f64 (.plain ⟨.little, .float, 8, none⟩) .c (.nd [2 ^ 32, 2 ^ 32]) [] ⟨[], 0, false⟩).1 = .panic ∧
    (NpyWriter.save ⟨false, 64, false⟩ solid .vecU8 (.plain ⟨.irrelevant, .byteStr, 2 ^ 63, none⟩) .c .oneD [] ⟨[], 0, true⟩).1 = .ok () ∧
    (NpyWriter.save ⟨false, 64, false⟩ solid .vecU8 (.plain ⟨.irrelevant, .byteStr, 2 ^ 63, none⟩) .c .oneD [[]] ⟨[], 0, true⟩).1 = .panic := by
  refine ⟨fun M t n d o hint vs s hs => ?_, panics_eq (by decide +kernel), by decide +kernel, panics_eq (by decide +kernel)⟩
  have hw : ∀ s, (writeHeader M (.array n d) o hint).exec s = (.panic, s) := fun _ => rfl
  obtain ⟨st, hst⟩ : ∃ st, (startPosition hint).exec s = (.ok st, s) := by
    rw [exec_startPosition]
    by_cases h : hint.seeks = true
    · rw [if_pos h, if_pos hs]; exact ⟨_, rfl⟩
    · rw [if_neg h]; exact ⟨_, rfl⟩
  have hb : solid.exec (NpyWriter.begin M t (.array n d) o hint) s = (.panic, s) := by
    show (NpyWriter.begin M t (.array n d) o hint).exec s = _
    unfold NpyWriter.begin NpyWriter.beginWith
    rw [WProg.exec_bind_of_ok hst, WProg.exec_bind, hw]; rfl
  unfold NpyWriter.save NpyWriter.saveWith
  rw [hb]

-- the hypotheses of `C80_returns_partial` can be met
example : (NpyWriter.save ⟨false, 64, true⟩ solid .vecU8 (.plain ⟨.irrelevant, .byteStr, 3, none⟩) .c (.twoD 2) [[1], [1, 2, 3, 4]] ⟨[], 0, true⟩).1 ≠ .panic :=
  (C80_returns_partial (hint := .twoD 2) (d := .plain ⟨.irrelevant, .byteStr, 3, none⟩) (size := 3) (wf_of_parse (s := "|S3".toList) (by decide)) (by decide) (by decide) trivial (by decide) trivial (.inl (by decide +kernel))
    (fun _ => rfl) (fun _ => by decide +kernel) (by decide) [] 0).1

end Npyz.Props
