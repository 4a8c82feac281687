import Verif.Proofs.ReadData
import Verif.Proofs.Late
import Verif.Props.Header
import Verif.Props.Codec
/-!
Properties C17-C25, C58: reading elements.

`f.data M t = .ok r` says that `r` is the reader that `NpyFile::data::<t>()` returns for the file `f`.
A `Source` is any implementation of `Read` and `Seek`; `disk` is a well-behaved one and `flaky` one
whose calls follow a schedule of short reads, interruptions and failures.  `Opened M h` says that `h`
was read from some file.
-/
namespace Npyz.Props
open Spec

/-! ### C17 -/

/-- C17: at any point of any history, over any source, `len` is the number of items still to come and
`size_hint` agrees with it; neither panics. -/
theorem C17_len {M : Machine} {t : Ty} {σ : Type} (S : Source σ) {f : NpyFile σ} {r : NpyReader t.Val σ}
    (h : f.data M t = .ok r) (ops : List ROp) :
    ∃ k, k ≤ f.header.nRecords ∧ (r.steps M S ops).2.len M = .ok k ∧
      (r.steps M S ops).2.sizeHint M = .ok (if k < M.usizeLim then (k, some k) else (M.usizeLim - 1, none)) ∧
      ∀ j, ((r.steps M S ops).2.steps M S (List.replicate (k + j) .next)).1.map yields =
        List.replicate k true ++ List.replicate j false := by
  obtain ⟨-, p, -, rfl⟩ := data_ok_iff.mp h
  obtain ⟨h1, -, h3⟩ := steps_inv (M := M) (S := S) ops ⟨f.header, p, f.src, 0⟩ (Nat.zero_le _)
  simp only at h1 h3
  have hlen : ((⟨f.header, p, f.src, 0⟩ : NpyReader t.Val σ).steps M S ops).2.len M =
      .ok (f.header.nRecords - ((⟨f.header, p, f.src, 0⟩ : NpyReader t.Val σ).steps M S ops).2.cur) := by
    unfold NpyReader.len Machine.subUint
    rw [h1, if_pos h3]
  refine ⟨_, Nat.sub_le _ _, hlen, ?_, ?_⟩
  · unfold NpyReader.sizeHint
    rw [hlen]
    simp only [Out.bind_ok]
    have : 0 < M.usizeLim := Nat.two_pow_pos _
    by_cases hk : f.header.nRecords - ((⟨f.header, p, f.src, 0⟩ : NpyReader t.Val σ).steps M S ops).2.cur < M.usizeLim
    · rw [if_neg (by omega), if_pos hk]
    · rw [if_pos (by omega), if_neg hk]
  · intro j
    exact steps_next j _ _ (by rw [h1]; omega)

/-- C17: a fresh reader promises `n` items; every item yielded takes one off, the end takes none. -/
theorem C17_next {M : Machine} {t : Ty} {σ : Type} (S : Source σ) {f : NpyFile σ} {r : NpyReader t.Val σ}
    (h : f.data M t = .ok r) (ops : List ROp) :
    r.len M = .ok f.header.nRecords ∧
    ∃ k, (r.steps M S ops).2.len M = .ok k ∧
      (((r.steps M S ops).2.next S).1.isSome = true ∧ 0 < k ∧ ((r.steps M S ops).2.next S).2.len M = .ok (k - 1) ∨
       ((r.steps M S ops).2.next S).1.isSome = false ∧ k = 0 ∧ ((r.steps M S ops).2.next S).2.len M = .ok 0) := by
  obtain ⟨-, p, -, rfl⟩ := data_ok_iff.mp h
  obtain ⟨h1, -, h3⟩ := steps_inv (M := M) (S := S) ops ⟨f.header, p, f.src, 0⟩ (Nat.zero_le _)
  simp only at h1 h3
  refine ⟨by unfold NpyReader.len Machine.subUint; rw [if_pos (Nat.zero_le _)]; rfl, ?_⟩
  generalize ((⟨f.header, p, f.src, 0⟩ : NpyReader t.Val σ).steps M S ops).2 = r' at *
  have hN : r'.header.nRecords = f.header.nRecords := by rw [h1]
  refine ⟨r'.header.nRecords - r'.cur, by unfold NpyReader.len Machine.subUint; rw [if_pos (by omega)], ?_⟩
  by_cases hc : r'.cur < r'.header.nRecords
  · left
    rw [next_some hc]
    refine ⟨rfl, by omega, ?_⟩
    simp only [NpyReader.len, Machine.subUint]
    rw [if_pos (by omega)]
    congr 1
  · right
    rw [next_none hc]
    refine ⟨rfl, by omega, ?_⟩
    simp only [NpyReader.len, Machine.subUint]
    rw [if_pos (by omega)]
    congr 1
    omega

/-- C17: after a successful `seek_to(i)` there are `n - i` items to come, after a successful
`read_at(i)` one fewer. -/
theorem C17_seek {M : Machine} {t : Ty} {σ : Type} (S : Source σ) {f : NpyFile σ} {r : NpyReader t.Val σ} (ho : Opened M f.header)
    (h : f.data M t = .ok r) (ops : List ROp) (i : Nat) :
    (((r.steps M S ops).2.seekTo M S i).1 = .ok () →
      i ≤ f.header.nRecords ∧ ((r.steps M S ops).2.seekTo M S i).2.len M = .ok (f.header.nRecords - i)) ∧
    (∀ v, ((r.steps M S ops).2.readAt M S i).1 = .ok v →
      i < f.header.nRecords ∧ ((r.steps M S ops).2.readAt M S i).2.len M = .ok (f.header.nRecords - i - 1)) := by
  obtain ⟨-, p, -, rfl⟩ := data_ok_iff.mp h
  obtain ⟨h1, -, h3⟩ := steps_inv (M := M) (S := S) ops ⟨f.header, p, f.src, 0⟩ (Nat.zero_le _)
  simp only at h1 h3
  have hn := (opened ho).2.1
  generalize ((⟨f.header, p, f.src, 0⟩ : NpyReader t.Val σ).steps M S ops).2 = r' at *
  have hN : r'.header.nRecords = f.header.nRecords := by rw [h1]
  constructor
  · intro hs
    obtain ⟨k1, -, k3⟩ := seekTo_inv (M := M) (S := S) r' i
    rcases k3 with ⟨-, k3, k4⟩ | ⟨k3, -⟩
    · have hcur : (r'.seekTo M S i).2.cur = i := by
        rcases k4 with k4 | ⟨k4, k5⟩
        · exact k4
        · rw [k4, wrapI64_inj (by omega) (by omega) k5]
      rw [h1] at k3
      refine ⟨k3, ?_⟩
      unfold NpyReader.len Machine.subUint
      rw [hcur, k1, h1, if_pos k3]
    · exact absurd hs k3
  · intro v hv
    obtain ⟨k1, -, -, k4⟩ := readAt_inv (M := M) (S := S) r' i
    obtain ⟨k5, k6⟩ := k4 v hv (by omega) (by omega)
    rw [h1] at k6
    refine ⟨k6, ?_⟩
    unfold NpyReader.len Machine.subUint
    rw [k5, k1, h1, if_pos (by omega)]
    congr 1

/-- Extract the reader from a check made by evaluation. -/
theorem openAnd_ok {M : Machine} {t : Ty} {bytes : Bytes} {P : NpyReader t.Val Src → Bool} (h : openAnd M t bytes P = true) :
    ∃ f r, NpyFile.new M Py.parse disk ⟨bytes, 0⟩ = (.ok f, f.src) ∧ Opened M f.header ∧ f.src.data = bytes ∧
      f.src.pos ≤ bytes.length ∧ f.data M t = .ok r ∧ P r = true := by
  unfold openAnd at h
  rcases hx : NpyFile.new M Py.parse disk ⟨bytes, 0⟩ with ⟨x, s⟩
  rw [hx] at h
  rcases x with f | e | _
  · obtain ⟨h1, h2, h3, h4, -⟩ := new_disk hx
    simp only at h
    cases hd : f.data M t with
    | ok r => rw [hd] at h; exact ⟨f, r, by rw [h2], h1, h3, h4, hd, h⟩
    | err e => rw [hd] at h; cases h
    | panic => rw [hd] at h; cases h
  · cases h
  · cases h

/-- Two 64-bit floats: 258 and 772 as integers. -/
def twoFloats : Bytes :=
  magicBytes ++ [1, 0, 56, 0] ++ encodeUtf8 "{'descr': '<f8', 'fortran_order': False, 'shape': (2, )}".toList ++
    [2, 1, 0, 0, 0, 0, 0, 0, 4, 3, 0, 0, 0, 0, 0, 0]

def f64 : Ty := .num .f64

example : ∃ (f : NpyFile Src) (r : NpyReader f64.Val Src), Opened ⟨false, 64, true⟩ f.header ∧ f.data ⟨false, 64, true⟩ f64 = .ok r ∧
    f.header.nRecords = 2 ∧ (r.steps ⟨false, 64, true⟩ disk [.seekTo 2, .readAt 0, .next, .next]).1.map yields = [false, false, true, false] := by
  obtain ⟨f, r, -, h1, -, -, h2, h3⟩ := openAnd_ok (M := ⟨false, 64, true⟩) (t := f64) (bytes := twoFloats)
    (P := fun r => r.header.nRecords == 2 &&
      (r.steps ⟨false, 64, true⟩ disk [.seekTo 2, .readAt 0, .next, .next]).1.map yields == [false, false, true, false]) (by decide +kernel)
  simp only [Bool.and_eq_true, beq_iff_eq] at h3
  obtain ⟨-, p, -, rfl⟩ := data_ok_iff.mp h2
  exact ⟨f, _, h1, h2, h3.1, h3.2⟩

/-! ### C18 -/

/-- A header that declares `2^61 + 1` floats, followed by two floats. -/
def hugeFloats : Bytes :=
  magicBytes ++ [1, 0, 74, 0] ++ encodeUtf8 "{'descr': '<f8', 'fortran_order': False, 'shape': (2305843009213693953, )}".toList ++
    [2, 1, 0, 0, 0, 0, 0, 0, 4, 3, 0, 0, 0, 0, 0, 0]

/-- What the caller sees, with values as numbers. -/
def seenNat : ROut f64.Val → Option (Option Nat)
  | .item (some (.ok v)) => some (some (BitVec.toNat (w := 64) v))
  | .value (.ok v) => some (some (BitVec.toNat (w := 64) v))
  | .moved (.ok ()) => some none
  | _ => none

/-- C18 is violated: without overflow checks, with a file that declares `2^61 + 1` floats but has two,
`read_at(2^61)` returns element 0, although there is no element `2^61`. -/
theorem C18_violated : ∃ (f : NpyFile Src) (r : NpyReader f64.Val Src),
    NpyFile.new ⟨false, 64, false⟩ Py.parse disk ⟨hugeFloats, 0⟩ = (.ok f, f.src) ∧ f.data ⟨false, 64, false⟩ f64 = .ok r ∧
    InRange f.header.nRecords [.readAt (2 ^ 61)] ∧
    (r.steps ⟨false, 64, false⟩ disk [.readAt (2 ^ 61)]).1.map seenNat = [some (some 258)] ∧
    elementAt f64 f.header.dtype f.src.data f.src.pos 8 (2 ^ 61) = none := by
  obtain ⟨f, r, h0, h1, hd, hp, h2, h3⟩ := openAnd_ok (M := ⟨false, 64, false⟩) (t := f64) (bytes := hugeFloats)
    (P := fun r => r.header.nRecords == 2 ^ 61 + 1 &&
      (r.steps ⟨false, 64, false⟩ disk [.readAt (2 ^ 61)]).1.map seenNat == [some (some 258)]) (by decide +kernel)
  simp only [Bool.and_eq_true, beq_iff_eq] at h3
  obtain ⟨-, p, -, hr⟩ := data_ok_iff.mp h2
  have hh : r.header = f.header := by rw [hr]
  rw [hh] at h3
  refine ⟨f, r, h0, h2, ?_, h3.2, ?_⟩
  · intro op hop
    rw [List.mem_singleton] at hop
    subst hop
    exact ⟨by simp, fun j hj => by cases hj; rw [h3.1]; decide⟩
  · unfold elementAt itemAt
    rw [if_neg]
    rw [hd]
    have : hugeFloats.length = 100 := by decide +kernel
    omega

/-- C18, the part that holds: for arrays whose element count, byte size and last offset are within
`i64`/`u64`, every call of every history of in-range calls returns what it should: `next` the element
at the current position, `read_at(i)` element `i`, `seek_to(i)` moves to element `i`.  (Up to and
including the first call that fails to decode; after that see C19.)  Missing: histories on arrays
beyond these limits, see `C18_violated`. -/
theorem C18_random_access_partial {M : Machine} {t : Ty} {f : NpyFile Src} {r : NpyReader t.Val Src} {size : Nat}
    (ho : Opened M f.header) (h : f.data M t = .ok r) (hf : Fits f.src.pos size f.header) (hm : size ≤ M.isizeMax)
    (hb : f.src.pos ≤ f.src.data.length) (ops : List ROp) (hop : InRange f.header.nRecords ops)
    (hok : Seen.failed ∉
      (expected (elementAt t f.header.dtype f.src.data f.src.pos size) f.header.nRecords ops 0).dropLast) :
    (r.steps M disk ops).1.map seen =
      (expected (elementAt t f.header.dtype f.src.data f.src.pos size) f.header.nRecords ops 0).map some := by
  obtain ⟨n, -, hn, hr⟩ := opened_reads ho h
  have : n = size := by have := hf.size; rw [hn] at this; cases this; rfl
  subst this
  obtain ⟨-, p, -, rfl⟩ := data_ok_iff.mp h
  exact steps_disk (hr hm).decodes hf ⟨Nat.zero_le _, by simp⟩ hb ops hop hok

/-- C18, in particular: after any history, `read_at(i)` gives what the `i`-th call of a fresh
sequential pass gives. -/
theorem C18_agrees_partial {M : Machine} {t : Ty} {f : NpyFile Src} {r : NpyReader t.Val Src} {size : Nat}
    (ho : Opened M f.header) (h : f.data M t = .ok r) (hf : Fits f.src.pos size f.header) (hm : size ≤ M.isizeMax)
    (hb : f.src.pos ≤ f.src.data.length) (ops : List ROp) (hop : InRange f.header.nRecords ops)
    (hok : ∀ i, i < f.header.nRecords → elementAt t f.header.dtype f.src.data f.src.pos size i ≠ none)
    (i : Nat) (hi : i < f.header.nRecords) :
    ∃ v, (r.steps M disk (ops ++ [.readAt i])).1.getLast?.map seen = some (some (.value v)) ∧
      (r.steps M disk (List.replicate (i + 1) .next)).1.getLast?.map seen = some (some (.value v)) ∧
      (r.steps M disk (ops ++ [.seekTo i, .next])).1.getLast?.map seen = some (some (.value v)) := by
  have key : ∀ ops', InRange f.header.nRecords ops' → (r.steps M disk ops').1.getLast?.map seen =
      (expected (elementAt t f.header.dtype f.src.data f.src.pos size) f.header.nRecords ops' 0).getLast?.map some := by
    intro ops' hop'
    rw [← List.getLast?_map, ← List.getLast?_map, C18_random_access_partial ho h hf hm hb ops' hop' ?_]
    intro hmem
    have aux : ∀ (ops : List ROp) (j : Nat), InRange f.header.nRecords ops →
        Seen.failed ∉ expected (elementAt t f.header.dtype f.src.data f.src.pos size) f.header.nRecords ops j := by
      intro ops
      induction ops with
      | nil => intro j _ h; cases h
      | cons op ops ih =>
        intro j hin
        have hin' : InRange f.header.nRecords ops := fun o ho => hin o (List.mem_cons_of_mem _ ho)
        have hlook : ∀ k, k < f.header.nRecords → look (elementAt t f.header.dtype f.src.data f.src.pos size) k ≠ Seen.failed := by
          intro k hk
          unfold look
          cases he : elementAt t f.header.dtype f.src.data f.src.pos size k with
          | none => exact absurd he (hok k hk)
          | some v => simp
        cases op with
        | next =>
          simp only [expected]
          by_cases hj : j < f.header.nRecords
          · rw [if_pos hj]
            intro hmem
            rcases List.mem_cons.mp hmem with hmem | hmem
            · exact hlook j hj hmem.symm
            · exact ih _ hin' hmem
          · rw [if_neg hj]
            intro hmem
            rcases List.mem_cons.mp hmem with hmem | hmem
            · cases hmem
            · exact ih _ hin' hmem
        | seekTo k =>
          simp only [expected]
          intro hmem
          rcases List.mem_cons.mp hmem with hmem | hmem
          · cases hmem
          · exact ih _ hin' hmem
        | readAt k =>
          simp only [expected]
          have hk := (hin _ List.mem_cons_self).2 k rfl
          intro hmem
          rcases List.mem_cons.mp hmem with hmem | hmem
          · exact hlook k hk hmem.symm
          · exact ih _ hin' hmem
    exact aux _ _ hop' (List.dropLast_subset _ hmem)
  have ext : ∀ (ops : List ROp) (tail : List ROp) (j : Nat), ∃ j',
      expected (elementAt t f.header.dtype f.src.data f.src.pos size) f.header.nRecords (ops ++ tail) j =
      expected (elementAt t f.header.dtype f.src.data f.src.pos size) f.header.nRecords ops j ++
      expected (elementAt t f.header.dtype f.src.data f.src.pos size) f.header.nRecords tail j' := by
    intro ops tail
    induction ops with
    | nil => intro j; exact ⟨j, rfl⟩
    | cons op ops ih =>
      intro j
      cases op with
      | next =>
        simp only [List.cons_append, expected]
        by_cases hj : j < f.header.nRecords
        · rw [if_pos hj, if_pos hj]
          obtain ⟨j', h⟩ := ih (j + 1)
          exact ⟨j', by rw [h]; rfl⟩
        · rw [if_neg hj, if_neg hj]
          obtain ⟨j', h⟩ := ih j
          exact ⟨j', by rw [h]; rfl⟩
      | seekTo k =>
        simp only [List.cons_append, expected]
        obtain ⟨j', h⟩ := ih k
        exact ⟨j', by rw [h]⟩
      | readAt k =>
        simp only [List.cons_append, expected]
        obtain ⟨j', h⟩ := ih (k + 1)
        exact ⟨j', by rw [h]⟩
  have seq : ∀ (k j : Nat), j + k < f.header.nRecords →
      (expected (elementAt t f.header.dtype f.src.data f.src.pos size) f.header.nRecords (List.replicate (k + 1) .next) j).getLast? =
        some (look (elementAt t f.header.dtype f.src.data f.src.pos size) (j + k)) := by
    intro k
    induction k with
    | zero => intro j hj; simp only [List.replicate, expected]; rw [if_pos (by omega)]; rfl
    | succ k ih =>
      intro j hj
      rw [List.replicate_succ]
      simp only [expected]
      rw [if_pos (by omega), List.getLast?_cons, ih (j + 1) (by omega)]
      rw [show j + 1 + k = j + (k + 1) by omega]
      rfl
  cases hv : elementAt t f.header.dtype f.src.data f.src.pos size i with
  | none => exact absurd hv (hok i hi)
  | some v =>
    have hl : look (elementAt t f.header.dtype f.src.data f.src.pos size) i = .value v := by unfold look; rw [hv]
    refine ⟨v, ?_, ?_, ?_⟩
    · rw [key]
      · obtain ⟨j', e⟩ := ext ops [.readAt i] 0
        rw [e]
        simp only [expected, List.getLast?_concat, hl, Option.map_some]
      · intro op ho
        rcases List.mem_append.mp ho with ho | ho
        · exact hop op ho
        · rw [List.mem_singleton] at ho; subst ho
          exact ⟨by simp, fun j hj => by cases hj; exact hi⟩
    · rw [key, seq i 0 (by omega), Nat.zero_add, hl]
      · rfl
      · intro op ho
        rw [(List.mem_replicate.mp ho).2]
        exact ⟨by simp, by simp⟩
    · rw [key]
      · obtain ⟨j', e⟩ := ext ops [.seekTo i, .next] 0
        rw [e]
        simp only [expected, if_pos hi, hl]
        rw [List.getLast?_append]
        rfl
      · intro op ho
        rcases List.mem_append.mp ho with ho | ho
        · exact hop op ho
        · rcases List.mem_cons.mp ho with ho | ho
          · subst ho; exact ⟨fun j hj => by cases hj; omega, by simp⟩
          · rw [List.mem_singleton] at ho; subst ho; exact ⟨by simp, by simp⟩

/-- Files of less than `2^63` bytes with all their data and fewer than `2^63` elements are within the
limits. -/
theorem fits_of_complete {f : NpyFile Src} {size : Nat} (hs : f.header.itemSize = some size)
    (hn : f.header.nRecords < 2 ^ 63) (hd : f.src.pos + f.header.nRecords * size ≤ f.src.data.length)
    (hl : f.src.data.length < 2 ^ 63) : Fits f.src.pos size f.header :=
  ⟨hs, hn, by omega, by omega⟩

/-- The plain dtype of a tree. -/
def plainOf : DType → Option TypeStr
  | .plain s => some s
  | _ => none

theorem plainOf_eq {d : DType} {s : TypeStr} (h : plainOf d = some s) : d = .plain s := by
  cases d <;> simp [plainOf] at h
  rw [h]

theorem twoFloats_reader : ∃ (f : NpyFile Src) (r : NpyReader f64.Val Src), Opened ⟨false, 64, true⟩ f.header ∧
    NpyFile.new ⟨false, 64, true⟩ Py.parse disk ⟨twoFloats, 0⟩ = (.ok f, f.src) ∧
    f.data ⟨false, 64, true⟩ f64 = .ok r ∧ Fits f.src.pos 8 f.header ∧ f.header.nRecords = 2 ∧ f.src.pos + 16 = f.src.data.length ∧
    f.header.dtype = .plain ⟨.little, .float, 8, none⟩ := by
  obtain ⟨f, r, h0, h1, hd, hp, h2, h3⟩ := openAnd_ok (M := ⟨false, 64, true⟩) (t := f64) (bytes := twoFloats)
    (P := fun r => r.header.nRecords == 2 && r.src.pos == 66 && decide (plainOf r.header.dtype = some ⟨.little, .float, 8, none⟩) &&
      decide (r.header.itemSize = some 8)) (by decide +kernel)
  simp only [Bool.and_eq_true, beq_iff_eq, decide_eq_true_eq] at h3
  obtain ⟨-, p, -, hr⟩ := data_ok_iff.mp h2
  have hh : r.header = f.header := by rw [hr]
  have hs : r.src = f.src := by rw [hr]
  rw [hh, hs] at h3
  obtain ⟨⟨⟨h3, h4⟩, h5⟩, h6⟩ := h3
  have hl : twoFloats.length = 82 := by decide +kernel
  refine ⟨f, r, h1, h0, h2, fits_of_complete h6 (by omega) ?_ ?_, h3, ?_, plainOf_eq h5⟩
  all_goals rw [hd]; omega

theorem twoFloats_elements {f : NpyFile Src} (hn : f.header.nRecords = 2) (hl : f.src.pos + 16 = f.src.data.length)
    (hd : f.header.dtype = .plain ⟨.little, .float, 8, none⟩) (i : Nat) (hi : i < f.header.nRecords) :
    elementAt f64 f.header.dtype f.src.data f.src.pos 8 i ≠ none := by
  unfold elementAt itemAt
  rw [hd, if_pos (by omega)]
  simp [decode, onPlain, f64]

/-- C17_len, C17_next, C17_seek: the reader of `twoFloats` after some calls. -/
example : ∃ (f : NpyFile Src) (r : NpyReader f64.Val Src), f.data ⟨false, 64, true⟩ f64 = .ok r ∧
    (∃ k, k ≤ 2 ∧ (r.steps ⟨false, 64, true⟩ disk [.next, .seekTo 1]).2.len ⟨false, 64, true⟩ = .ok k) ∧
    r.len ⟨false, 64, true⟩ = .ok 2 ∧
    ∀ v, ((r.steps ⟨false, 64, true⟩ disk [.next]).2.readAt ⟨false, 64, true⟩ disk 1).1 = .ok v →
      ((r.steps ⟨false, 64, true⟩ disk [.next]).2.readAt ⟨false, 64, true⟩ disk 1).2.len ⟨false, 64, true⟩ = .ok 0 := by
  obtain ⟨f, r, h1, -, h2, h3, h4, h5, h6⟩ := twoFloats_reader
  obtain ⟨k, hk, hl, -⟩ := C17_len disk h2 [.next, .seekTo 1]
  have hn := (C17_next disk h2 []).1
  have hs := fun v hv => ((C17_seek disk h1 h2 [.next] 1).2 v hv).2
  rw [h4] at hk hn hs
  exact ⟨f, r, h2, ⟨k, hk, hl⟩, hn, hs⟩

/-- C18_random_access_partial, C18_agrees_partial: the second of the two floats. -/
example : ∃ (f : NpyFile Src) (r : NpyReader f64.Val Src), f.data ⟨false, 64, true⟩ f64 = .ok r ∧
    (r.steps ⟨false, 64, true⟩ disk [.readAt 1]).1.map seen =
      (expected (elementAt f64 f.header.dtype f.src.data f.src.pos 8) 2 [.readAt 1] 0).map some ∧
    ∃ v, (r.steps ⟨false, 64, true⟩ disk [.seekTo 2, .readAt 1]).1.getLast?.map seen = some (some (.value v)) ∧
      (r.steps ⟨false, 64, true⟩ disk [.next, .next]).1.getLast?.map seen = some (some (.value v)) := by
  obtain ⟨f, r, h1, -, h2, h3, h4, h5, h6⟩ := twoFloats_reader
  have hr1 : InRange f.header.nRecords [.readAt 1] := by
    rw [h4]; intro op ho; cases List.mem_singleton.mp ho; exact ⟨by simp, by simp⟩
  have hr2 : InRange f.header.nRecords [.seekTo 2] := by
    rw [h4]; intro op ho; cases List.mem_singleton.mp ho; exact ⟨by simp, by simp⟩
  have ha := C18_random_access_partial h1 h2 h3 (by decide) (by omega) [.readAt 1] hr1 (by simp [expected])
  obtain ⟨v, hv1, hv2, -⟩ := C18_agrees_partial h1 h2 h3 (by decide) (by omega) [.seekTo 2] hr2 (twoFloats_elements h4 h5 h6) 1 (by omega)
  rw [h4] at ha
  exact ⟨f, r, h2, ha, v, hv1, hv2⟩

example : ∃ (f : NpyFile Src) (r : NpyReader f64.Val Src), Opened ⟨false, 64, true⟩ f.header ∧
    f.data ⟨false, 64, true⟩ f64 = .ok r ∧ Fits f.src.pos 8 f.header ∧ 8 ≤ (⟨false, 64, true⟩ : Machine).isizeMax ∧
    f.src.pos ≤ f.src.data.length ∧ InRange f.header.nRecords [.seekTo 2, .readAt 1, .readAt 0, .next, .next] ∧
    (∀ i, i < f.header.nRecords → elementAt f64 f.header.dtype f.src.data f.src.pos 8 i ≠ none) := by
  obtain ⟨f, r, h1, -, h2, h3, h4, h5, h6⟩ := twoFloats_reader
  refine ⟨f, r, h1, h2, h3, by decide, by omega, ?_, ?_⟩
  · rw [h4]
    intro op ho
    simp only [List.mem_cons, List.not_mem_nil, or_false] at ho
    rcases ho with rfl | rfl | rfl | rfl | rfl <;> exact ⟨by simp, by simp⟩
  · intro i hi
    unfold elementAt itemAt
    rw [h6, if_pos (by omega)]
    simp [decode, onPlain, f64]

/-! ### C19 -/

/-- Two strings of two characters, the first of them malformed. -/
def badStrings : Bytes :=
  magicBytes ++ [1, 0, 56, 0] ++ encodeUtf8 "{'descr': '<U2', 'fortran_order': False, 'shape': (2, )}".toList ++
    [255, 255, 255, 255, 97, 0, 0, 0, 98, 0, 0, 0, 99, 0, 0, 0]

/-- The text a `read_at` call returned. -/
def textOf : ROut Ty.string.Val → Option Text
  | .value (.ok v) => some v
  | _ => none

/-- C19 is violated: after `read_at(0)` has failed on a malformed string, `read_at(1)` returns "ab",
which is not element 1 ("bc", as a fresh reader finds): the failed call stopped in the middle of its
element but counted it as read. -/
theorem C19_violated : ∃ (f : NpyFile Src) (r : NpyReader Ty.string.Val Src),
    NpyFile.new ⟨false, 64, true⟩ Py.parse disk ⟨badStrings, 0⟩ = (.ok f, f.src) ∧ f.data ⟨false, 64, true⟩ .string = .ok r ∧
    f.header.nRecords = 2 ∧
    (r.steps ⟨false, 64, true⟩ disk [.readAt 0, .readAt 1]).1.map textOf = [none, some ['a', 'b']] ∧
    (r.steps ⟨false, 64, true⟩ disk [.readAt 1]).1.map textOf = [some ['b', 'c']] := by
  obtain ⟨f, r, h0, h1, hd, hp, h2, h3⟩ := openAnd_ok (M := ⟨false, 64, true⟩) (t := .string) (bytes := badStrings)
    (P := fun r => r.header.nRecords == 2 &&
      decide ((r.steps ⟨false, 64, true⟩ disk [.readAt 0, .readAt 1]).1.map textOf = [none, some ['a', 'b']]) &&
      decide ((r.steps ⟨false, 64, true⟩ disk [.readAt 1]).1.map textOf = [some ['b', 'c']])) (by decide +kernel)
  simp only [Bool.and_eq_true, beq_iff_eq, decide_eq_true_eq] at h3
  obtain ⟨-, p, -, hr⟩ := data_ok_iff.mp h2
  have hh : r.header = f.header := by rw [hr]
  rw [hh] at h3
  exact ⟨f, r, h0, h2, h3.1.1, h3.1.2, h3.2⟩

/-- C19, the part that holds: if the data is complete and malformed elements of the type are noticed at their end (see
`FailsLate`: every scalar type but `U` strings of two or more characters, arrays of one element, structs in which only the
last field can fail, and everything that cannot fail), every call of every history, whether elements fail to
decode or not, returns what it should.  Missing: the other types, see `C19_violated` and `C19_lost_place`. -/
theorem C19_after_errors_partial {M : Machine} {t : Ty} {f : NpyFile Src} {r : NpyReader t.Val Src} {size : Nat}
    (ho : Opened M f.header) (h : f.data M t = .ok r) (hf : Fits f.src.pos size f.header) (hm : size ≤ M.isizeMax)
    (h1 : FailsLate t f.header.dtype) (hb : f.src.pos + f.header.nRecords * size ≤ f.src.data.length)
    (ops : List ROp) (hop : InRange f.header.nRecords ops) :
    (r.steps M disk ops).1.map seen =
      (expected (elementAt t f.header.dtype f.src.data f.src.pos size) f.header.nRecords ops 0).map some := by
  obtain ⟨n, he, hn, hr⟩ := opened_reads ho h
  have : n = size := by have := hf.size; rw [hn] at this; cases this; rfl
  subst this
  obtain ⟨-, p, hp, rfl⟩ := data_ok_iff.mp h
  exact steps_disk_whole (hr hm).decodes (whole_failsLate t hp (opened ho).1 he hm h1) hf ⟨Nat.zero_le _, by simp⟩ hb ops hop

/-- C19 fails for all other types: whatever the header of a file, if the element type is not one that notices malformed
elements at their end, there is data of the declared length in which the first `next()` reports an error and counts the
element as read, but leaves the stream before the end of the element, so that later calls start in the middle of it. -/
theorem C19_lost_place {M : Machine} {t : Ty} {f : NpyFile Src} {r : NpyReader t.Val Src} {size : Nat}
    (ho : Opened M f.header) (h : f.data M t = .ok r) (hs : f.header.itemSize = some size) (hm : size ≤ M.isizeMax)
    (hl : ¬ FailsLate t f.header.dtype) (hp : f.src.pos ≤ f.src.data.length) (hn : 0 < f.header.nRecords) :
    ∃ (data : Bytes) (r' : NpyReader t.Val Src),
      data.length = f.src.pos + f.header.nRecords * size ∧ data.take f.src.pos = f.src.data.take f.src.pos ∧
      (⟨f.header, ⟨data, f.src.pos⟩⟩ : NpyFile Src).data M t = .ok r' ∧
      (∃ e, (r'.next disk).1 = some (.err e)) ∧ (r'.next disk).2.cur = 1 ∧ (r'.next disk).2.src.pos < f.src.pos + 1 * size := by
  obtain ⟨n, he, hn', hr⟩ := opened_reads ho h
  have : n = size := by rw [hn'] at hs; cases hs; rfl
  subst this
  obtain ⟨hpk, p, hrd, rfl⟩ := data_ok_iff.mp h
  obtain ⟨j, hj, bs, hb, hrun⟩ := early_of_not_failsLate t hrd (opened ho).1 he hm hl
  obtain ⟨N, hN⟩ : ∃ N, f.header.nRecords = N + 1 := ⟨f.header.nRecords - 1, by omega⟩
  have htl : (f.src.data.take f.src.pos).length = f.src.pos := by simp; omega
  obtain ⟨e, k, hk, hrun⟩ := hrun (List.replicate (N * n) 0)
  refine ⟨f.src.data.take f.src.pos ++ (bs ++ List.replicate (N * n) 0), ⟨f.header, p, ⟨_, f.src.pos⟩, 0⟩, ?_, ?_,
    data_ok_iff.mpr ⟨hpk, p, hrd, rfl⟩, ?_⟩
  · rw [List.length_append, htl, hN, Nat.succ_mul]
    simp only [List.length_append, List.length_replicate, hb]
    omega
  · rw [List.take_left' htl]
  · rw [next_some (by exact hn)]
    have hrest : (⟨f.src.data.take f.src.pos ++ (bs ++ List.replicate (N * n) 0), f.src.pos⟩ : Src).rest =
        bs ++ List.replicate (N * n) 0 := by
      unfold Src.rest; exact List.drop_left' htl
    have hx : disk.exec p (⟨f.src.data.take f.src.pos ++ (bs ++ List.replicate (N * n) 0), f.src.pos⟩ : Src) =
        (.err e, ⟨f.src.data.take f.src.pos ++ (bs ++ List.replicate (N * n) 0), f.src.pos + k⟩) := by
      show ((p.run (Src.rest _)).1, Src.leave _ (p.run (Src.rest _)).2) = _
      rw [hrest, hrun]
      have := Src.leave_rest (⟨f.src.data.take f.src.pos ++ (bs ++ List.replicate (N * n) 0), f.src.pos⟩ : Src) k
        (by rw [hrest, List.length_append]; omega)
      rw [hrest] at this
      rw [this]
    refine ⟨⟨e, by rw [hx]⟩, rfl, ?_⟩
    rw [hx]
    show f.src.pos + k < _
    omega

/-- Two structs of a number and a boolean; the boolean of the first is malformed. -/
def badRecords : Bytes :=
  magicBytes ++ [1, 0, 79, 0] ++
    encodeUtf8 "{'descr': [('a', '<u2'), ('b', '|b1')], 'fortran_order': False, 'shape': (2, )}".toList ++ [7, 0, 2, 8, 0, 1]

/-- The struct type. -/
def recordTy : Ty := .record (.cons ['a'] (.num .u16) (.cons ['b'] .bool .nil))

/-- The type strings of a record of two scalars. -/
def twoPlain : DType → Option (TypeStr × TypeStr)
  | .record (.cons _ (.plain s) (.cons _ (.plain s') .nil)) => some (s, s')
  | _ => none

theorem twoPlain_eq {d : DType} {s s' : TypeStr} (h : twoPlain d = some (s, s')) :
    ∃ a b, d = .record (.cons a (.plain s) (.cons b (.plain s') .nil)) := by
  unfold twoPlain at h
  split at h
  · cases h; exact ⟨_, _, rfl⟩
  · cases h

/-- C19_after_errors_partial. -/
example : ∃ (f : NpyFile Src) (r : NpyReader recordTy.Val Src), Opened ⟨false, 64, true⟩ f.header ∧
    f.data ⟨false, 64, true⟩ recordTy = .ok r ∧
    Fits f.src.pos 3 f.header ∧ FailsLate recordTy f.header.dtype ∧ f.src.pos + f.header.nRecords * 3 ≤ f.src.data.length ∧
    f.header.nRecords = 2 := by
  obtain ⟨f, r, h0, h1, hd, hp, h2, h3⟩ := openAnd_ok (M := ⟨false, 64, true⟩) (t := recordTy) (bytes := badRecords)
    (P := fun r => r.header.nRecords == 2 && r.src.pos == 89 &&
      decide (twoPlain r.header.dtype = some (⟨.little, .uint, 2, none⟩, ⟨.irrelevant, .bool, 1, none⟩)) &&
      decide (r.header.itemSize = some 3)) (by decide +kernel)
  simp only [Bool.and_eq_true, beq_iff_eq, decide_eq_true_eq] at h3
  obtain ⟨-, p, -, hr⟩ := data_ok_iff.mp h2
  have hh : r.header = f.header := by rw [hr]
  have hs : r.src = f.src := by rw [hr]
  rw [hh, hs] at h3
  obtain ⟨⟨⟨h3, h4⟩, h5⟩, h6⟩ := h3
  have hl : badRecords.length = 95 := by decide +kernel
  obtain ⟨a, b, h5⟩ := twoPlain_eq h5
  refine ⟨f, r, h1, h2, fits_of_complete h6 (by omega) ?_ ?_, ?_, ?_, h3⟩
  · rw [hd]; omega
  · rw [hd]; omega
  · rw [h5]
    refine ⟨.inl (by simp), ⟨.inl (by simp), trivial, .inr rfl⟩, .inl fun bs _ => ?_⟩
    simp [decode, onPlain]
  · rw [hd]; omega

example : ∃ (f : NpyFile Src) (r : NpyReader Ty.string.Val Src), Opened ⟨false, 64, true⟩ f.header ∧
    f.data ⟨false, 64, true⟩ .string = .ok r ∧ f.header.itemSize = some 8 ∧ ¬ FailsLate .string f.header.dtype ∧
    f.src.pos ≤ f.src.data.length ∧ 0 < f.header.nRecords := by
  obtain ⟨f, r, h0, h1, hd, hp, h2, h3⟩ := openAnd_ok (M := ⟨false, 64, true⟩) (t := .string) (bytes := badStrings)
    (P := fun r => r.header.nRecords == 2 && r.src.pos == 66 &&
      decide (plainOf r.header.dtype = some ⟨.little, .unicodeStr, 2, none⟩) &&
      decide (r.header.itemSize = some 8)) (by decide +kernel)
  simp only [Bool.and_eq_true, beq_iff_eq, decide_eq_true_eq] at h3
  obtain ⟨-, p, -, hr⟩ := data_ok_iff.mp h2
  have hh : r.header = f.header := by rw [hr]
  have hs : r.src = f.src := by rw [hr]
  rw [hh, hs] at h3
  obtain ⟨⟨⟨h3, h4⟩, h5⟩, h6⟩ := h3
  have hl : badStrings.length = 82 := by decide +kernel
  refine ⟨f, r, h1, h2, h6, ?_, ?_, by omega⟩
  · rw [plainOf_eq h5]
    simp [FailsLate]
  · rw [hd, h4, hl]; omega

/-! ### C20 -/

/-- C20: in every state, over any source, `seek_to(i)` with `i > total_len` and `read_at(i)` with
`i ≥ total_len` panic and change nothing. -/
theorem C20_out_of_range {M : Machine} {t : Ty} {σ : Type} (S : Source σ) {f : NpyFile σ} {r : NpyReader t.Val σ}
    (h : f.data M t = .ok r) (ops : List ROp) (i : Nat) :
    (f.header.nRecords < i → (r.steps M S ops).2.seekTo M S i = (.panic, (r.steps M S ops).2)) ∧
    (f.header.nRecords ≤ i → (r.steps M S ops).2.readAt M S i = (.panic, (r.steps M S ops).2)) := by
  obtain ⟨-, p, -, rfl⟩ := data_ok_iff.mp h
  obtain ⟨h1, -, h3⟩ := steps_inv (M := M) (S := S) ops ⟨f.header, p, f.src, 0⟩ (Nat.zero_le _)
  simp only at h1 h3
  generalize ((⟨f.header, p, f.src, 0⟩ : NpyReader t.Val σ).steps M S ops).2 = r' at *
  have hN : r'.header.nRecords = f.header.nRecords := by rw [h1]
  constructor
  · intro hi
    unfold NpyReader.seekTo NpyReader.totalLen
    rw [if_neg (by omega)]
  · intro hi
    unfold NpyReader.readAt NpyReader.totalLen
    rw [if_neg (by omega)]

/-- C20 is violated in the other direction: with overflow checks, `seek_to(2^61)` on an array that
declares `2^61 + 1` floats panics. -/
theorem C20_violated : ∃ (f : NpyFile Src) (r : NpyReader f64.Val Src),
    NpyFile.new ⟨false, 64, true⟩ Py.parse disk ⟨hugeFloats, 0⟩ = (.ok f, f.src) ∧ f.data ⟨false, 64, true⟩ f64 = .ok r ∧
    2 ^ 61 < f.header.nRecords ∧ (r.seekTo ⟨false, 64, true⟩ disk (2 ^ 61)).1 = .panic := by
  obtain ⟨f, r, h0, h1, hd, hp, h2, h3⟩ := openAnd_ok (M := ⟨false, 64, true⟩) (t := f64) (bytes := hugeFloats)
    (P := fun r => decide (2 ^ 61 < r.header.nRecords) &&
      decide ((r.seekTo ⟨false, 64, true⟩ disk (2 ^ 61)).1 = .panic)) (by decide +kernel)
  simp only [Bool.and_eq_true, decide_eq_true_eq] at h3
  obtain ⟨-, p, -, hr⟩ := data_ok_iff.mp h2
  have hh : r.header = f.header := by rw [hr]
  rw [hh] at h3
  exact ⟨f, r, h0, h2, h3.1, h3.2⟩

/-- C20, the converse where it holds: without overflow checks, or if the byte size of the array is
within `i64`, in-range calls never panic, whatever happened before and however the source behaves. -/
theorem C20_in_range_partial {M : Machine} {t : Ty} {f : NpyFile FlakySrc} {r : NpyReader t.Val FlakySrc} {size : Nat}
    (ho : Opened M f.header) (h : f.data M t = .ok r) (hs : f.header.itemSize = some size) (hm : size ≤ M.isizeMax)
    (hf : M.overflowChecks = false ∨ (f.header.nRecords < 2 ^ 63 ∧ size < 2 ^ 63 ∧ f.header.nRecords * size < 2 ^ 63))
    (ops : List ROp) (i : Nat) :
    (i ≤ f.header.nRecords → ((r.steps M flaky ops).2.seekTo M flaky i).1 ≠ .panic) ∧
    (i < f.header.nRecords → ((r.steps M flaky ops).2.readAt M flaky i).1 ≠ .panic) := by
  obtain ⟨n, he, hn, hr⟩ := opened_reads ho h
  have : n = size := by rw [hs] at hn; cases hn; rfl
  subst this
  obtain ⟨-, p, hp, rfl⟩ := data_ok_iff.mp h
  obtain ⟨h1, h2, h3⟩ := steps_inv (M := M) (S := flaky) ops ⟨f.header, p, f.src, 0⟩ (Nat.zero_le _)
  simp only at h1 h2 h3
  generalize ((⟨f.header, p, f.src, 0⟩ : NpyReader t.Val FlakySrc).steps M flaky ops).2 = r' at *
  have hN : r'.header.nRecords = f.header.nRecords := by rw [h1]
  have hseek : i ≤ f.header.nRecords → (r'.seekTo M flaky i).1 ≠ .panic := by
    intro hi
    unfold NpyReader.seekTo NpyReader.totalLen
    rw [if_pos (by omega)]
    have hfs : ∀ off, (flaky.seek off r'.src).1 ≠ .panic := by
      intro off
      rcases flaky_seek off r'.src with ⟨evs, -, hx⟩ | ⟨c, -, hx⟩
      · rw [hx]
        show (Src.seek off r'.src.src).1 ≠ _
        unfold Src.seek
        by_cases hz : 0 ≤ (r'.src.src.pos : Int) + off ∧ (r'.src.src.pos : Int) + off < u64Lim
        · rw [if_pos hz]; simp
        · rw [if_neg hz]; simp
      · rw [hx]; simp
    have hi1 : M.i64 (wrapI64 i - wrapI64 r'.cur) ≠ .panic := by
      rcases hf with hf | ⟨f1, f2, f3⟩
      · unfold Machine.i64
        rw [hf]
        by_cases hz : -2 ^ 63 ≤ wrapI64 i - wrapI64 r'.cur ∧ wrapI64 i - wrapI64 r'.cur < 2 ^ 63
        · rw [if_pos hz]; simp
        · rw [if_neg hz]; simp
      · rw [wrapI64_small (by omega), wrapI64_small (by omega), i64_small (by omega) (by omega)]; simp
    cases hd : M.i64 (wrapI64 i - wrapI64 r'.cur) with
    | err e => simp
    | panic => exact absurd hd hi1
    | ok delta =>
      simp only
      by_cases hz : delta ≠ 0
      · rw [if_pos hz]
        unfold NpyReader.seekBy
        rw [h1, hs]
        simp only
        have hi2 : M.i64 (delta * wrapI64 n) ≠ .panic := by
          rcases hf with hf | ⟨f1, f2, f3⟩
          · unfold Machine.i64
            rw [hf]
            by_cases hz : -2 ^ 63 ≤ delta * wrapI64 n ∧ delta * wrapI64 n < 2 ^ 63
            · rw [if_pos hz]; simp
            · rw [if_neg hz]; simp
          · rw [wrapI64_small (by omega), wrapI64_small (by omega), i64_small (by omega) (by omega)] at hd
            have hdel := Out.ok.inj hd
            rw [wrapI64_small f2]
            have b1 : i * n ≤ f.header.nRecords * n := Nat.mul_le_mul_right _ (by omega)
            have b2 : r'.cur * n ≤ f.header.nRecords * n := Nat.mul_le_mul_right _ (by omega)
            have e : delta * (n : Int) = ((i * n : Nat) : Int) - ((r'.cur * n : Nat) : Int) := by
              rw [← hdel, Int.sub_mul]; simp
            rw [e, i64_small (by omega) (by omega)]; simp
        cases ho : M.i64 (delta * wrapI64 n) with
        | ok off =>
          simp only
          have := hfs off
          rcases hx : flaky.seek off r'.src with ⟨(_ | _ | _), s⟩
          · simp
          · simp
          · rw [hx] at this; exact absurd rfl this
        | err e => simp
        | panic => exact absurd ho hi2
      · rw [if_neg hz]; simp
  refine ⟨hseek, fun hi => ?_⟩
  unfold NpyReader.readAt NpyReader.totalLen
  rw [if_pos (by omega)]
  have hnp := hseek (by omega)
  obtain ⟨k1, k2, k3⟩ := seekTo_inv (M := M) (S := flaky) r' i
  rcases hx : r'.seekTo M flaky i with ⟨x, r''⟩
  rw [hx] at hnp k1 k2 k3
  simp only at hnp k1 k2 k3
  cases x with
  | ok u =>
    simp only
    have hlt := (opened ho).2.1
    have hcur : r''.cur = i := by
      rcases k3 with ⟨-, -, k4 | ⟨k4, k5⟩⟩ | ⟨k3, -⟩
      · exact k4
      · rw [k4, wrapI64_inj (by omega) (by omega) k5]
      · exact absurd rfl k3
    unfold NpyReader.nextUnwrap
    rw [next_some (by rw [hcur, k1, hN]; exact hi)]
    simp only
    rcases flaky_exec r''.prog r''.src with ⟨evs, -, hy⟩ | ⟨c, -, hy⟩
    · rw [hy]
      have := disk_exec_total (s := r''.src.src) (p := r''.prog) (by rw [k2, h2]; exact (hr hm).decodes)
      rcases this with ⟨v, hv⟩ | ⟨e, hv⟩ <;> rw [hv] <;> simp
    · rw [hy]; simp
  | err e => simp
  | panic => exact absurd rfl hnp

/-- C20_out_of_range, C20_in_range_partial: a source that is interrupted, fails and delivers short reads. -/
example : ∃ (f : NpyFile FlakySrc) (r : NpyReader f64.Val FlakySrc), f.src.evs = [.interrupted, .fail 5, .short 3] ∧
    f.data ⟨false, 64, true⟩ f64 = .ok r ∧
    (r.steps ⟨false, 64, true⟩ flaky [.next]).2.readAt ⟨false, 64, true⟩ flaky 2 = (.panic, (r.steps ⟨false, 64, true⟩ flaky [.next]).2) ∧
    ((r.steps ⟨false, 64, true⟩ flaky [.next]).2.seekTo ⟨false, 64, true⟩ flaky 2).1 ≠ .panic := by
  obtain ⟨f, r, h1, -, h2, h3, h4, -⟩ := twoFloats_reader
  obtain ⟨h5, p, h6, -⟩ := data_ok_iff.mp h2
  have hd : NpyFile.data ⟨false, 64, true⟩ f64 ⟨f.header, (⟨f.src, [.interrupted, .fail 5, .short 3]⟩ : FlakySrc)⟩ = .ok _ :=
    data_ok_iff.mpr ⟨h5, p, h6, rfl⟩
  refine ⟨_, _, rfl, hd, (C20_out_of_range flaky hd [.next] 2).2 (by rw [h4]; decide), ?_⟩
  exact (C20_in_range_partial h1 hd h3.size (by decide) (.inr ⟨by rw [h4]; decide, by decide, by rw [h4]; decide⟩) [.next] 2).1 (by rw [h4]; decide)

example : ∃ (f : NpyFile FlakySrc) (r : NpyReader f64.Val FlakySrc), Opened ⟨false, 64, true⟩ f.header ∧ f.data ⟨false, 64, true⟩ f64 = .ok r ∧
    f.header.itemSize = some 8 ∧ f.header.nRecords = 2 ∧ f.src.evs = [.interrupted, .fail 5, .short 3] := by
  obtain ⟨f, r, h1, -, h2, h3, h4, -⟩ := twoFloats_reader
  obtain ⟨h5, p, h6, -⟩ := data_ok_iff.mp h2
  exact ⟨⟨f.header, ⟨f.src, [.interrupted, .fail 5, .short 3]⟩⟩, _, h1, data_ok_iff.mpr ⟨h5, p, h6, rfl⟩, h3.size, h4, rfl⟩

/-! ### C21 -/

/-- C21: `into_vec` returns `Ok` with exactly `len` elements, each decoded from its place in the first
`len * item_size` bytes after the header, having read nothing else; or it returns an error, because
the type does not fit the dtype or because some element is incomplete or malformed. -/
theorem C21_into_vec {M : Machine} {t : Ty} {f : NpyFile Src} {size : Nat} (ho : Opened M f.header)
    (hs : f.header.itemSize = some size) (hm : size ≤ M.isizeMax) (hb : f.src.pos ≤ f.src.data.length) :
    (∃ vs, f.intoVec M disk t = (.ok vs, { f.src with pos := f.src.pos + f.header.nRecords * size }) ∧
      vs.length = f.header.nRecords ∧ f.src.pos + f.header.nRecords * size ≤ f.src.data.length ∧
      ∀ i (h : i < vs.length), elementAt t f.header.dtype f.src.data f.src.pos size i = some vs[i]) ∨
    (∃ e, (f.intoVec M disk t).1 = .err e ∧ ((∃ why, f.data M t = .err why) ∨
      ∃ i, i < f.header.nRecords ∧ elementAt t f.header.dtype f.src.data f.src.pos size i = none)) := by
  unfold NpyFile.intoVec
  cases hd : f.data M t with
  | ok r =>
    obtain ⟨n, he, hn, hr⟩ := opened_reads ho hd
    have : n = size := by rw [hs] at hn; cases hn; rfl
    subst this
    obtain ⟨-, p, hp, rfl⟩ := data_ok_iff.mp hd
    have := collectLoop_disk (f.header.nRecords - 0 + 1) (r := ⟨f.header, p, f.src, 0⟩) (hr hm).decodes
      (base := f.src.pos) ⟨Nat.zero_le _, by simp⟩ hb rfl
    simp only [NpyReader.collect]
    rcases this with ⟨e, r', h1, i, h2, h3, h4⟩ | ⟨vs, r', h1, h2, h3, h4⟩
    · right
      exact ⟨e, by rw [h1], .inr ⟨i, h3, h4⟩⟩
    · left
      simp only [Nat.sub_zero, Nat.zero_add] at h1 h2 h3 h4
      refine ⟨vs, by rw [Nat.sub_zero, h1]; simp only [h4], h2, ?_, h3⟩
      by_cases hz : f.header.nRecords = 0
      · rw [hz]; omega
      · have := h3 (f.header.nRecords - 1) (by omega)
        unfold elementAt itemAt at this
        rw [show f.header.nRecords - 1 + 1 = f.header.nRecords by omega] at this
        by_cases hle : f.src.pos + f.header.nRecords * n ≤ f.src.data.length
        · exact hle
        · rw [if_neg hle] at this; cases this
  | err e => exact .inr ⟨_, rfl, .inl ⟨e, rfl⟩⟩
  | panic =>
    exfalso
    unfold NpyFile.data NpyFile.dataWith NpyHeader.forbidPickle at hd
    cases hp : f.header.usesPickled with
    | true => rw [hp] at hd; simp at hd
    | false =>
      rw [hp] at hd
      simp only [Bool.false_eq_true, if_false, Out.bind_ok] at hd
      cases hr : t.reader M f.header.dtype with
      | ok p => rw [hr] at hd; cases hd
      | err e => rw [hr] at hd; cases hd
      | panic => exact absurd hr (reader_np M t _)

/-- C21: if fewer than `len * item_size` bytes are present, the result is an error. -/
theorem C21_truncated {M : Machine} {t : Ty} {f : NpyFile Src} {size : Nat} (ho : Opened M f.header)
    (hs : f.header.itemSize = some size) (hm : size ≤ M.isizeMax) (hb : f.src.pos ≤ f.src.data.length)
    (hlt : f.src.data.length < f.src.pos + f.header.nRecords * size) : ∃ e, (f.intoVec M disk t).1 = .err e := by
  rcases C21_into_vec (t := t) ho hs hm hb with ⟨vs, -, -, h, -⟩ | ⟨e, h, -⟩
  · omega
  · exact ⟨e, h⟩

/-- C21: trailing bytes do not matter: the result depends on the first `len * item_size` bytes only. -/
theorem C21_trailing {M : Machine} {t : Ty} {f : NpyFile Src} {size : Nat} (ho : Opened M f.header)
    (hs : f.header.itemSize = some size) (hm : size ≤ M.isizeMax) (hb : f.src.pos ≤ f.src.data.length)
    (hc : f.src.pos + f.header.nRecords * size ≤ f.src.data.length) (extra : Bytes) (vs : List t.Val) :
    (f.intoVec M disk t).1 = .ok vs ↔
      (NpyFile.intoVec M disk t ⟨f.header, { f.src with data := f.src.data ++ extra }⟩).1 = .ok vs := by
  have same : ∀ i, i < f.header.nRecords → elementAt t f.header.dtype (f.src.data ++ extra) f.src.pos size i =
      elementAt t f.header.dtype f.src.data f.src.pos size i := by
    intro i hi
    have hle : (i + 1) * size ≤ f.header.nRecords * size := Nat.mul_le_mul_right _ (by omega)
    have e : (i + 1) * size = i * size + size := by rw [Nat.add_mul, Nat.one_mul]
    unfold elementAt itemAt
    rw [if_pos (by simp; omega), if_pos (by omega), List.drop_append_of_le_length (by omega),
      List.take_append_of_le_length (by simp; omega)]
  have hdata : ∀ (f g : NpyFile Src), f.header = g.header → (∃ why, f.data M t = .err why) → ∀ r, g.data M t ≠ .ok r := by
    intro f g hfg ⟨why, hw⟩ r hr
    obtain ⟨h1, p, h2, -⟩ := data_ok_iff.mp hr
    rw [← hfg] at h1 h2
    rw [data_ok_iff.mpr ⟨h1, p, h2, rfl⟩] at hw
    cases hw
  have ok_data : ∀ (f : NpyFile Src) vs, (f.intoVec M disk t).1 = .ok vs → ∃ r, f.data M t = .ok r := by
    intro f vs h
    unfold NpyFile.intoVec at h
    cases hd : f.data M t with
    | ok r => exact ⟨r, rfl⟩
    | err e => rw [hd] at h; cases h
    | panic => rw [hd] at h; cases h
  have ext : ∀ ws ws' : List t.Val, ws.length = f.header.nRecords → ws'.length = f.header.nRecords →
      (∀ i (h : i < ws.length), elementAt t f.header.dtype f.src.data f.src.pos size i = some ws[i]) →
      (∀ i (h : i < ws'.length), elementAt t f.header.dtype (f.src.data ++ extra) f.src.pos size i = some ws'[i]) → ws = ws' := by
    intro ws ws' h1 h2 h3 h4
    apply List.ext_getElem (by omega)
    intro i hi hi'
    have := h3 i hi
    rw [← same i (by omega), h4 i hi'] at this
    exact (Option.some.inj this).symm
  have A := C21_into_vec (t := t) ho hs hm hb
  have B := C21_into_vec (t := t) (f := ⟨f.header, { f.src with data := f.src.data ++ extra }⟩) ho hs hm (by simp; omega)
  rcases A with ⟨ws, a1, a2, -, a4⟩ | ⟨e, a1, a2⟩
  · rcases B with ⟨ws', b1, b2, -, b4⟩ | ⟨e, b1, b2⟩
    · rw [a1, b1, ext ws ws' a2 b2 a4 b4]
    · exfalso
      obtain ⟨r, hr⟩ := ok_data f ws (by rw [a1])
      rcases b2 with b2 | ⟨i, b2, b3⟩
      · exact hdata ⟨f.header, { f.src with data := f.src.data ++ extra }⟩ f rfl b2 r hr
      · simp only at b2 b3
        rw [same i b2, a4 i (by omega)] at b3; cases b3
  · rcases B with ⟨ws', b1, b2, -, b4⟩ | ⟨e', b1, b2⟩
    · exfalso
      obtain ⟨r, hr⟩ := ok_data _ ws' (by rw [b1])
      rcases a2 with a2 | ⟨i, a2, a3⟩
      · exact hdata f ⟨f.header, { f.src with data := f.src.data ++ extra }⟩ rfl a2 r hr
      · rw [← same i a2] at a3
        simp only at b2 b4
        rw [b4 i (by omega)] at a3; cases a3
    · rw [a1, b1]; simp

/-- C21_into_vec, C21_truncated, C21_trailing: `twoFloats`, the same cut by one byte, the same with a
byte appended. -/
example : ∃ f : NpyFile Src, Opened ⟨false, 64, true⟩ f.header ∧
    ((∃ vs, (f.intoVec ⟨false, 64, true⟩ disk f64).1 = .ok vs ∧ vs.length = 2 ∧
      (NpyFile.intoVec ⟨false, 64, true⟩ disk f64 ⟨f.header, { f.src with data := f.src.data ++ [9] }⟩).1 = .ok vs) ∨
      ∃ e, (f.intoVec ⟨false, 64, true⟩ disk f64).1 = .err e) ∧
    ∃ e, (NpyFile.intoVec ⟨false, 64, true⟩ disk f64 ⟨f.header, { f.src with data := f.src.data.dropLast }⟩).1 = .err e := by
  obtain ⟨f, r, h1, -, h2, h3, h4, h5, h6⟩ := twoFloats_reader
  refine ⟨f, h1, ?_, ?_⟩
  · rcases C21_into_vec (M := ⟨false, 64, true⟩) (t := f64) h1 h3.size (by decide) (by omega) with ⟨vs, hv, hl, -⟩ | ⟨e, he, -⟩
    · refine .inl ⟨vs, by rw [hv], by rw [hl, h4], ?_⟩
      exact (C21_trailing h1 h3.size (by decide) (by omega) (by omega) [9] vs).mp (by rw [hv])
    · exact .inr ⟨e, he⟩
  · refine C21_truncated (f := ⟨f.header, { f.src with data := f.src.data.dropLast }⟩) h1 h3.size (by decide) ?_ ?_ <;>
      simp only [List.length_dropLast, h4] <;> omega

example : ∃ f : NpyFile Src, Opened ⟨false, 64, true⟩ f.header ∧ f.header.itemSize = some 8 ∧ f.src.pos ≤ f.src.data.length ∧
    f.src.pos + f.header.nRecords * 8 ≤ f.src.data.length ∧ f.header.nRecords = 2 := by
  obtain ⟨f, r, h1, -, h2, h3, h4, h5, -⟩ := twoFloats_reader
  exact ⟨f, h1, h3.size, by omega, by omega, h4⟩

/-! ### C22 -/

/-- C22: opening a file gives the same header and leaves the source at the same place, however it
delivers its bytes. -/
theorem C22_open {M : Machine} (py : PyParser) (src : Src) (evs : List RProg.Ev) (h : NoFail evs) :
    (NpyFile.new M py flaky ⟨src, evs⟩).1.map (fun f => (f.header, f.src.src)) =
      (NpyFile.new M py disk src).1.map (fun f => (f.header, f.src)) := by
  rcases flaky_new (M := M) py ⟨src, evs⟩ with ⟨evs', h1, h2, h3⟩ | ⟨c, h1, -⟩
  · rw [h3]
    simp only
    cases (NpyFile.new M py disk src).1 <;> rfl
  · exact absurd h1 (h c)

/-- C22: every history of calls on a reader returns the same results. -/
theorem C22_history {M : Machine} {t : Ty} {f : NpyFile FlakySrc} {r : NpyReader t.Val FlakySrc} (h : f.data M t = .ok r)
    (hn : NoFail f.src.evs) (ops : List ROp) :
    ∃ r', NpyFile.data M t ⟨f.header, f.src.src⟩ = .ok r' ∧ (r.steps M flaky ops).1 = (r'.steps M disk ops).1 := by
  obtain ⟨h1, p, h2, rfl⟩ := data_ok_iff.mp h
  exact ⟨_, data_ok_iff.mpr ⟨h1, p, h2, rfl⟩, flaky_steps_nofail ops _ hn⟩

/-- C22: so does reading a whole file. -/
theorem C22_read_file {M : Machine} (py : PyParser) (t : Ty) (src : Src) (evs : List RProg.Ev) (h : NoFail evs) :
    readFile M py flaky t ⟨src, evs⟩ = readFile M py disk t src := by
  unfold readFile
  rcases flaky_new (M := M) py ⟨src, evs⟩ with ⟨evs', h1, h2, h3⟩ | ⟨c, h1, -⟩
  · rw [h3]
    simp only
    cases hx : (NpyFile.new M py disk src).1 with
    | ok f =>
      simp only [Out.map]
      rcases flaky_intoVec (M := M) (t := t) ⟨f.header, ⟨f.src, evs'⟩⟩ with ⟨h4, -⟩ | ⟨c, h4, -⟩
      · exact h4
      · exact absurd (h1 _ h4) (h c)
    | err e => rfl
    | panic => rfl
  · exact absurd h1 (h c)

/-- C22_open, C22_history, C22_read_file: `twoFloats` delivered in pieces. -/
example : ∃ (f : NpyFile FlakySrc) (r : NpyReader f64.Val FlakySrc) (r' : NpyReader f64.Val Src),
    f.src.evs = [.interrupted, .short 1, .short 3] ∧ f.data ⟨false, 64, true⟩ f64 = .ok r ∧
    (r.steps ⟨false, 64, true⟩ flaky [.next, .readAt 0]).1 = (r'.steps ⟨false, 64, true⟩ disk [.next, .readAt 0]).1 ∧
    readFile ⟨false, 64, true⟩ Py.parse flaky f64 ⟨⟨twoFloats, 0⟩, f.src.evs⟩ = readFile ⟨false, 64, true⟩ Py.parse disk f64 ⟨twoFloats, 0⟩ ∧
    (NpyFile.new ⟨false, 64, true⟩ Py.parse flaky ⟨⟨twoFloats, 0⟩, f.src.evs⟩).1.map (fun f => (f.header, f.src.src)) =
      (NpyFile.new ⟨false, 64, true⟩ Py.parse disk ⟨twoFloats, 0⟩).1.map (fun f => (f.header, f.src)) := by
  obtain ⟨f, r, h1, -, h2, h3, h4, -⟩ := twoFloats_reader
  obtain ⟨h5, p, h6, -⟩ := data_ok_iff.mp h2
  have hn : NoFail [.interrupted, .short 1, .short 3] := by simp [NoFail]
  have hd : NpyFile.data ⟨false, 64, true⟩ f64 ⟨f.header, (⟨f.src, [.interrupted, .short 1, .short 3]⟩ : FlakySrc)⟩ = .ok _ :=
    data_ok_iff.mpr ⟨h5, p, h6, rfl⟩
  obtain ⟨r', -, h7⟩ := C22_history hd hn [.next, .readAt 0]
  exact ⟨_, _, r', rfl, hd, h7, C22_read_file _ _ _ _ hn, C22_open _ _ _ hn⟩

example : NoFail [.interrupted, .short 1, .short 3, .interrupted] := by simp [NoFail]

/-! ### C23 -/

/-- C23: if the source fails before the last byte of the header, opening the file reports that error;
if it fails later, the header is the same as without the failure. -/
theorem C23_header_fault {M : Machine} (py : PyParser) (used rest : Bytes) (h : NpyHeader) (code : Nat)
    (hr : (NpyHeader.fromReader M py).run used = (.ok h, [])) :
    (∀ cut, cut <+: used → cut.length < used.length → ((NpyHeader.fromReader M py).runFail code cut).1 = .err (.source code)) ∧
    (NpyHeader.fromReader M py).runFail code (used ++ rest) = (.ok h, rest) := by
  refine ⟨fun cut h1 h2 => by rw [RProg.runFail_short hr h1 h2], ?_⟩
  obtain ⟨u, hu, hx⟩ := RProg.run_ok_local hr
  rw [List.append_nil] at hu
  subst hu
  exact RProg.runFail_of_ok (hx rest)

/-- C23: the same for a single element. -/
theorem C23_element_fault {M : Machine} {t : Ty} {d : DType} {p : RProg t.Val} (hp : t.reader M d = .ok p)
    (used rest : Bytes) (v : t.Val) (code : Nat) (hr : p.run used = (.ok v, [])) :
    (∀ cut, cut <+: used → cut.length < used.length → (p.runFail code cut).1 = .err (.source code)) ∧
    p.runFail code (used ++ rest) = (.ok v, rest) := by
  have _ := hp
  refine ⟨fun cut h1 h2 => by rw [RProg.runFail_short hr h1 h2], ?_⟩
  obtain ⟨u, hu, hx⟩ := RProg.run_ok_local hr
  rw [List.append_nil] at hu
  subst hu
  exact RProg.runFail_of_ok (hx rest)

/-- C23: for a source that fails at arbitrary calls: either every call of a history returns what it
returns on a sound source, or one call reports the error and all calls before it do. -/
theorem C23_history {M : Machine} {t : Ty} {f : NpyFile FlakySrc} {r : NpyReader t.Val FlakySrc} (h : f.data M t = .ok r)
    (ops : List ROp) : ∃ r', NpyFile.data M t ⟨f.header, f.src.src⟩ = .ok r' ∧
      ((r.steps M flaky ops).1 = (r'.steps M disk ops).1 ∨
       ∃ k c o, k < ops.length ∧ (r.steps M flaky ops).1.take k = (r'.steps M disk ops).1.take k ∧
        .fail c ∈ f.src.evs ∧ (r.steps M flaky ops).1[k]? = some o ∧ FailsWith (.source c) o) := by
  obtain ⟨h1, p, h2, rfl⟩ := data_ok_iff.mp h
  refine ⟨_, data_ok_iff.mpr ⟨h1, p, h2, rfl⟩, ?_⟩
  rcases flaky_steps (M := M) ops ⟨f.header, p, f.src, 0⟩ with h | ⟨k, c, k1, k2, k3, o, k4, k5⟩
  · exact .inl h
  · exact .inr ⟨k, c, o, k1, k2, k3, k4, k5⟩

/-- C23: reading a whole file gives the true elements (or the true failure), or the source's error. -/
theorem C23_read_file {M : Machine} (py : PyParser) (t : Ty) (src : Src) (evs : List RProg.Ev) :
    readFile M py flaky t ⟨src, evs⟩ = readFile M py disk t src ∨
    ∃ c, .fail c ∈ evs ∧ readFile M py flaky t ⟨src, evs⟩ = .err (.source c) := by
  unfold readFile
  rcases flaky_new (M := M) py ⟨src, evs⟩ with ⟨evs', h1, h2, h3⟩ | ⟨c, h1, h2⟩
  · rw [h3]
    simp only
    cases hx : (NpyFile.new M py disk src).1 with
    | ok f =>
      simp only [Out.map]
      rcases flaky_intoVec (M := M) (t := t) ⟨f.header, ⟨f.src, evs'⟩⟩ with ⟨h4, -⟩ | ⟨c, h4, h5⟩
      · exact .inl h4
      · exact .inr ⟨c, h1 _ h4, h5⟩
    | err e => exact .inl rfl
    | panic => exact .inl rfl
  · exact .inr ⟨c, h1, by rw [h2]⟩

/-- C23_header_fault, C23_element_fault: the header of `exampleFile` and one float, cut short. -/
example : ((NpyHeader.fromReader ⟨false, 64, true⟩ Py.parse).runFail 5 ((exampleFile []).take 40)).1 = .err (.source 5) ∧
    ∃ p, f64.reader ⟨false, 64, true⟩ (.plain ⟨.little, .float, 8, none⟩) = .ok p ∧
      (p.runFail 5 [2, 1, 0]).1 = .err (.source 5) := by
  constructor
  · obtain ⟨h, hr, -⟩ := exampleFile_reads
    have h0 : (exampleFile [7, 8, 9]).take (headerEnd (exampleFile [7, 8, 9])) ++ [] = exampleFile [] := by decide +kernel
    have := C10_local _ _ _ _ h hr []
    rw [h0] at this
    have hl : ((exampleFile []).take 40).length < (exampleFile []).length := by decide +kernel
    exact (C23_header_fault _ _ [] h 5 this).1 _ (List.take_prefix _ _) hl
  · exact ⟨_, rfl, (C23_element_fault (M := ⟨false, 64, true⟩) (t := f64) (d := .plain ⟨.little, .float, 8, none⟩) rfl [2, 1, 0, 0, 0, 0, 0, 0] [] _ 5 rfl).1 [2, 1, 0] ⟨[0, 0, 0, 0, 0], rfl⟩ (by decide)⟩

/-- C23_history: a source that fails at its second request. -/
example : ∃ (f : NpyFile FlakySrc) (r : NpyReader f64.Val FlakySrc) (r' : NpyReader f64.Val Src), f.src.evs = [.short 8, .fail 5] ∧
    f.data ⟨false, 64, true⟩ f64 = .ok r ∧
    ((r.steps ⟨false, 64, true⟩ flaky [.next, .next]).1 = (r'.steps ⟨false, 64, true⟩ disk [.next, .next]).1 ∨
     ∃ k c o, k < 2 ∧ (r.steps ⟨false, 64, true⟩ flaky [.next, .next]).1.take k = (r'.steps ⟨false, 64, true⟩ disk [.next, .next]).1.take k ∧
      .fail c ∈ f.src.evs ∧ (r.steps ⟨false, 64, true⟩ flaky [.next, .next]).1[k]? = some o ∧ FailsWith (.source c) o) := by
  obtain ⟨f, r, h1, -, h2, h3, h4, -⟩ := twoFloats_reader
  obtain ⟨h5, p, h6, -⟩ := data_ok_iff.mp h2
  have hd : NpyFile.data ⟨false, 64, true⟩ f64 ⟨f.header, (⟨f.src, [.short 8, .fail 5]⟩ : FlakySrc)⟩ = .ok _ :=
    data_ok_iff.mpr ⟨h5, p, h6, rfl⟩
  obtain ⟨r', -, h7⟩ := C23_history hd [.next, .next]
  exact ⟨_, _, r', rfl, hd, h7⟩

example : ∃ p, f64.reader ⟨false, 64, true⟩ (.plain ⟨.little, .float, 8, none⟩) = .ok p ∧
    ∃ v, p.run [2, 1, 0, 0, 0, 0, 0, 0] = (.ok v, []) := ⟨_, rfl, _, rfl⟩

/-! ### C24 -/

/-- C24: a file whose dtype contains a Python object anywhere is refused by `data`, `try_data` and
`into_vec`, for every element type. -/
theorem C24_refused {M : Machine} {σ : Type} (S : Source σ) {f : NpyFile σ} (ho : Opened M f.header)
    (hobj : HasObject f.header.dtype) (t : Ty) :
    f.data M t = .err .requiresPickle ∧ f.tryData M t = .err f ∧ ∃ e, (f.intoVec M S t).1 = .err e := by
  have hu : f.header.usesPickled = true := by
    rw [(opened ho).2.2.1]
    exact (usesPickled_iff _).mpr hobj
  have hd : f.data M t = .err .requiresPickle := by
    unfold NpyFile.data NpyFile.dataWith NpyHeader.forbidPickle
    rw [if_pos hu]; rfl
  refine ⟨hd, ?_, ?_⟩
  · unfold NpyFile.tryData; rw [if_pos hu]
  · unfold NpyFile.intoVec; rw [hd]; exact ⟨_, rfl⟩

/-- C24: no element type can be read from or written to such a dtype in any other way either. -/
theorem C24_no_type {M : Machine} (hM : M.Wf) (t : Ty) (d : DType) (h : HasObject d) :
    (∃ e, t.reader M d = .err e) ∧ (∃ e, t.writer M d = .err e) := C37_no_objects hM t d h

/-- C24: other files are refused only if the element type does not fit. -/
theorem C24_others {M : Machine} {σ : Type} {f : NpyFile σ} (ho : Opened M f.header) (hobj : ¬ HasObject f.header.dtype) (t : Ty) :
    (∃ r, f.data M t = .ok r) ↔ ∃ p, t.reader M f.header.dtype = .ok p := by
  have hu : f.header.usesPickled = false := by
    rw [(opened ho).2.2.1, Bool.eq_false_iff]
    exact fun h => hobj ((usesPickled_iff _).mp h)
  constructor
  · rintro ⟨r, h⟩
    obtain ⟨-, p, h2, -⟩ := data_ok_iff.mp h
    exact ⟨p, h2⟩
  · rintro ⟨p, h⟩
    exact ⟨_, data_ok_iff.mpr ⟨hu, p, h, rfl⟩⟩

/-- A file of structs with an object in them. -/
def objectFile : Bytes :=
  magicBytes ++ [1, 0, 86, 0] ++
    encodeUtf8 "{'descr': [('a', '<f8'), ('b', [('c', '|O')])], 'fortran_order': False, 'shape': (2,)}".toList

/-- The header of a file in memory, if it can be read. -/
def headerOf (M : Machine) (bytes : Bytes) : Option NpyHeader :=
  match ((NpyHeader.fromReader M Py.parse).run bytes).1 with
  | .ok h => some h
  | _ => none

theorem headerOf_opened {M : Machine} {bytes : Bytes} {h : NpyHeader} (hh : headerOf M bytes = some h) : Opened M h := by
  unfold headerOf at hh
  rcases hx : (NpyHeader.fromReader M Py.parse).run bytes with ⟨(h' | e | _), rest⟩
  · rw [hx] at hh; cases hh; exact ⟨_, _, _, hx⟩
  · rw [hx] at hh; cases hh
  · rw [hx] at hh; cases hh

/-- C24_refused: a file of Python objects. -/
example : ∃ f : NpyFile Src, Opened ⟨false, 64, true⟩ f.header ∧ f.data ⟨false, 64, true⟩ .string = .err .requiresPickle := by
  have h : (headerOf ⟨false, 64, true⟩ objectFile).map (fun h => h.dtype.usesPickled) = some true := by decide +kernel
  obtain ⟨hd, h1, h2⟩ := Option.map_eq_some_iff.mp h
  exact ⟨⟨hd, ⟨[], 0⟩⟩, headerOf_opened h1, (C24_refused disk (headerOf_opened h1) ((usesPickled_iff _).mp h2) .string).1⟩

/-- C24_no_type, C24_others: no type reads objects; `twoFloats` is read as floats, not as strings. -/
example : (∃ e, Ty.string.reader ⟨false, 64, true⟩ (.plain ⟨.irrelevant, .object, 0, none⟩) = .err e) ∧
    ∃ f : NpyFile Src, (∃ r, f.data ⟨false, 64, true⟩ f64 = .ok r) ∧ ¬ ∃ r, f.data ⟨false, 64, true⟩ .string = .ok r := by
  refine ⟨(C24_no_type (M := ⟨false, 64, true⟩) (.inr rfl) _ _ (.plain rfl)).1, ?_⟩
  obtain ⟨f, r, h1, -, h2, -, -, -, h6⟩ := twoFloats_reader
  have hobj : ¬ HasObject f.header.dtype := by rw [h6]; rintro (h | _); cases h
  refine ⟨f, ⟨r, h2⟩, ?_⟩
  rw [C24_others h1 hobj, reader_ok_iff (.inr rfl), h6]
  rintro ⟨h | h, -⟩ <;> cases h

example : ∃ f : NpyFile Src, Opened ⟨false, 64, true⟩ f.header ∧ HasObject f.header.dtype := by
  have h : (headerOf ⟨false, 64, true⟩ objectFile).map (fun h => h.dtype.usesPickled) = some true := by decide +kernel
  obtain ⟨hd, h1, h2⟩ := Option.map_eq_some_iff.mp h
  exact ⟨⟨hd, ⟨[], 0⟩⟩, headerOf_opened h1, (usesPickled_iff _).mp h2⟩

/-! ### C25 -/

/-- C25: when `try_data` fails it gives back the same file; it never panics, and it succeeds with the
same reader as `data` exactly when `data` does. -/
theorem C25_try_data {M : Machine} {σ : Type} (f : NpyFile σ) (t : Ty) :
    (f.tryData M t = .err f ∧ (∃ e, f.data M t = .err e)) ∨ (∃ r, f.tryData M t = .ok r ∧ f.data M t = .ok r) := by
  unfold NpyFile.tryData NpyFile.data NpyFile.dataWith NpyHeader.forbidPickle
  cases hp : f.header.usesPickled with
  | true => exact .inl ⟨rfl, ⟨_, rfl⟩⟩
  | false =>
    simp only [Bool.false_eq_true, if_false, Out.bind_ok]
    cases hr : t.reader M f.header.dtype with
    | ok p => exact .inr ⟨_, rfl, rfl⟩
    | err e => exact .inl ⟨rfl, ⟨_, rfl⟩⟩
    | panic => exact absurd hr (reader_np M t _)

/-- C25: after any sequence of failed attempts the file is the one we began with. -/
theorem C25_attempts {M : Machine} {σ : Type} (f f' : NpyFile σ) (ts : List Ty) (h : attempts M ts f = some f') : f' = f := by
  induction ts with
  | nil => cases h; rfl
  | cons t ts ih =>
    unfold attempts at h
    rcases C25_try_data (M := M) f t with ⟨h1, -⟩ | ⟨r, h1, -⟩
    · rw [h1] at h; exact ih h
    · rw [h1] at h; cases h

example : ∃ f : NpyFile Src, attempts ⟨false, 64, true⟩ [.bool, .string, .num .i32] f = some f ∧
    ∃ r : NpyReader f64.Val Src, f.data ⟨false, 64, true⟩ f64 = .ok r := by
  obtain ⟨f, r, h1, -, h2, h3, h4, h5, h6⟩ := twoFloats_reader
  refine ⟨f, ?_, r, h2⟩
  obtain ⟨hp, -⟩ := data_ok_iff.mp h2
  have e1 : f.tryData ⟨false, 64, true⟩ .bool = .err f := by unfold NpyFile.tryData; rw [hp, h6]; rfl
  have e2 : f.tryData ⟨false, 64, true⟩ .string = .err f := by unfold NpyFile.tryData; rw [hp, h6]; rfl
  have e3 : f.tryData ⟨false, 64, true⟩ (.num .i32) = .err f := by unfold NpyFile.tryData; rw [hp, h6]; rfl
  simp only [attempts, e1, e2, e3]

/-! ### C58 -/

/-- An array without elements. -/
def noFloats : Bytes :=
  magicBytes ++ [1, 0, 56, 0] ++ encodeUtf8 "{'descr': '<f8', 'fortran_order': False, 'shape': (0, )}".toList

/-- The size hint after one call to `next` on the iterator of a legacy array. -/
def hintAfterNext (M : Machine) (bytes : Bytes) : Option (Res Nat) :=
  match NpyData.fromBytes M Py.parse f64 bytes with
  | .ok d => some (((⟨d, 0⟩ : IntoIter f64).next M).2.sizeHint M)
  | _ => none

/-- C58 is violated: once the iterator of a legacy array has returned `None`, `size_hint` (and `len`)
underflows: it panics with overflow checks and is `usize::MAX` without. -/
theorem C58_violated : hintAfterNext ⟨false, 64, true⟩ noFloats = some .panic ∧
    hintAfterNext ⟨false, 64, false⟩ noFloats = some (.ok (2 ^ 64 - 1)) := by decide +kernel

/-- C58, the part that holds.  If the byte size of the array does not exceed `u64` and the number of
elements `usize`, `from_bytes` succeeds only if the streaming reader opens the same file with the same
header and exactly the elements' bytes are left; then `get(i)` is `None` exactly from `len` on, and
below it is element `i` (a malformed element panics); `to_vec` returns what `into_vec` returns (and
panics when that fails).  Missing: arrays beyond these limits. -/
theorem C58_agrees_partial {M : Machine} {py : PyParser} {t : Ty} {bytes : Bytes} {d : NpyData t} {size : Nat}
    (h : NpyData.fromBytes M py t bytes = .ok d) (hs : d.header.itemSize = some size) (hm : size ≤ M.isizeMax)
    (hn : d.header.nRecords < M.usizeLim) (hb : bytes.length < M.usizeLim) (hw : size * d.header.nRecords < 2 ^ 64) :
    ∃ f : NpyFile Src, NpyFile.new M py disk ⟨bytes, 0⟩ = (.ok f, f.src) ∧ f.header = d.header ∧ f.src.data = bytes ∧
      f.src.pos + d.header.nRecords * size = bytes.length ∧ d.len M = d.header.nRecords ∧
      (∀ i, (d.header.nRecords ≤ i ∧ d.get M i = .ok none) ∨
        (i < d.header.nRecords ∧ ((∃ v, d.get M i = .ok (some v) ∧ elementAt t d.header.dtype bytes f.src.pos size i = some v) ∨
          (d.get M i = .panic ∧ elementAt t d.header.dtype bytes f.src.pos size i = none)))) ∧
      ((∃ vs, d.toVec M = .ok vs ∧ (f.intoVec M disk t).1 = .ok vs) ∨
        (d.toVec M = .panic ∧ ∃ e, (f.intoVec M disk t).1 = .err e)) := by
  obtain ⟨f, r, h1, h2, rfl, h4⟩ := fromBytes_ok h
  simp only at hs hn hw h4 ⊢
  obtain ⟨ho, -, hdat, hpos, -⟩ := new_disk h1
  obtain ⟨n, he, hn', hr⟩ := opened_reads ho h2
  have : n = size := by rw [hs] at hn'; cases hn'; rfl
  subst this
  have hlen := h4 n hs
  unfold Machine.mulU64 at hlen
  rw [if_pos (show n * f.header.nRecords < u64Lim from hw), Out.ok.injEq, Nat.mul_comm] at hlen
  have hrest : f.src.rest = bytes.drop f.src.pos := by unfold Src.rest; rw [hdat]
  have hrl : f.src.rest.length = bytes.length - f.src.pos := by rw [hrest, List.length_drop]
  refine ⟨f, h1, rfl, hdat, by omega, by unfold NpyData.len; rw [Nat.mod_eq_of_lt hn], ?_, ?_⟩
  · intro i
    have := npyData_get (M := M) (a := ⟨f.header, r.prog, f.src.rest⟩) (hr hm) hs hn hlen.symm (by simp only; omega) i
    simp only at this
    rw [elementAt_drop hpos, ← hrest]
    exact this
  · have hv := toVecLoop_ok (hr hm) f.header.nRecords f.src.rest
    have hi := C21_into_vec (t := t) ho hs hm (by rw [hdat]; exact hpos)
    rw [hdat] at hi
    have htv : NpyData.toVec M ⟨f.header, r.prog, f.src.rest⟩ = NpyData.toVecLoop r.prog f.header.nRecords f.src.rest := by
      unfold NpyData.toVec NpyData.len
      rw [Nat.mod_eq_of_lt hn]
    rw [htv]
    rcases hv with ⟨vs, v1, v2, v3⟩ | ⟨v1, i, v2, v3⟩
    · left
      refine ⟨vs, v1, ?_⟩
      rcases hi with ⟨ws, w1, w2, -, w4⟩ | ⟨e, -, ⟨why, hwhy⟩ | ⟨i, w2, w3⟩⟩
      · rw [w1]
        show Out.ok ws = Out.ok vs
        congr 1
        apply List.ext_getElem (by omega)
        intro i hi hi'
        have := v3 i hi'
        rw [hrest, ← elementAt_drop hpos, w4 i hi] at this
        exact Option.some.inj this
      · rw [h2] at hwhy; cases hwhy
      · rw [elementAt_drop hpos, ← hrest, v3 i (by omega)] at w3; cases w3
    · right
      refine ⟨v1, ?_⟩
      rcases hi with ⟨ws, w1, w2, -, w4⟩ | ⟨e, w1, -⟩
      · have := w4 i (by omega)
        rw [elementAt_drop hpos, ← hrest, v3] at this; cases this
      · exact ⟨e, w1⟩

/-- C58: iteration returns what `get` returns, and before the end the size hint is the number of
elements left.  After calls beyond the end the hint is wrong: with overflow checks asking for it panics,
without it is close to the largest `usize`. -/
theorem C58_iteration_partial {M : Machine} {t : Ty} (d : NpyData t) (k : Nat) :
    drain M k ⟨d, 0⟩ = (List.range k).map (d.get M) ∧
    (k ≤ d.len M → (drained M k ⟨d, 0⟩).sizeHint M = .ok (d.len M - k)) ∧
    (d.len M < k → (drained M k ⟨d, 0⟩).sizeHint M = if M.overflowChecks then .panic else .ok (M.usizeLim - (k - d.len M))) := by
  have key : ∀ k i, drain M k ⟨d, i⟩ = (List.range' i k).map (d.get M) ∧ drained M k ⟨d, i⟩ = ⟨d, i + k⟩ := by
    intro k
    induction k with
    | zero => intro i; exact ⟨rfl, rfl⟩
    | succ k ih =>
      intro i
      obtain ⟨h1, h2⟩ := ih (i + 1)
      constructor
      · show d.get M i :: drain M k ⟨d, i + 1⟩ = _
        rw [h1, List.range'_succ]
        rfl
      · show drained M k ⟨d, i + 1⟩ = _
        rw [h2]
        congr 1
        omega
  obtain ⟨h1, h2⟩ := key k 0
  refine ⟨by rw [h1, List.range_eq_range'], fun hk => ?_, fun hk => ?_⟩
  all_goals
    rw [h2, Nat.zero_add]
    unfold IntoIter.sizeHint Machine.subUint
  · rw [if_pos hk]
  · rw [if_neg (by simp only; omega)]
    cases M.overflowChecks with
    | true => rfl
    | false =>
      simp only [Bool.false_eq_true, if_false, Out.ok.injEq]
      show 2 ^ M.usizeBits + d.len M - k = 2 ^ M.usizeBits - (k - d.len M)
      omega

/-- What `to_vec` returns, as numbers. -/
def vecNat (M : Machine) (bytes : Bytes) : Option (List Nat) :=
  match NpyData.fromBytes M Py.parse f64 bytes with
  | .ok d =>
    match d.toVec M with
    | .ok vs => some (List.map (fun v : BitVec 64 => v.toNat) vs)
    | _ => none
  | _ => none

/-- C58_agrees_partial: `twoFloats`. -/
example : ∃ (d : NpyData f64) (f : NpyFile Src), NpyData.fromBytes ⟨false, 64, true⟩ Py.parse f64 twoFloats = .ok d ∧
    NpyFile.new ⟨false, 64, true⟩ Py.parse disk ⟨twoFloats, 0⟩ = (.ok f, f.src) ∧
    ((∃ vs, d.toVec ⟨false, 64, true⟩ = .ok vs ∧ (f.intoVec ⟨false, 64, true⟩ disk f64).1 = .ok vs) ∨
      (d.toVec ⟨false, 64, true⟩ = .panic ∧ ∃ e, (f.intoVec ⟨false, 64, true⟩ disk f64).1 = .err e)) := by
  have h : (match NpyData.fromBytes ⟨false, 64, true⟩ Py.parse f64 twoFloats with
    | .ok d => d.header.itemSize == some 8 && d.header.nRecords == 2 | _ => false) = true := by decide +kernel
  rcases hd : NpyData.fromBytes ⟨false, 64, true⟩ Py.parse f64 twoFloats with d | e | _
  · rw [hd] at h
    simp only [Bool.and_eq_true, beq_iff_eq] at h
    have hl : twoFloats.length < (⟨false, 64, true⟩ : Machine).usizeLim := by decide +kernel
    obtain ⟨f, h1, -, -, -, -, -, h2⟩ := C58_agrees_partial hd h.1 (by decide) (by rw [h.2]; decide) hl (by rw [h.2]; decide)
    exact ⟨d, f, rfl, h1, h2⟩
  · rw [hd] at h; cases h
  · rw [hd] at h; cases h

example : vecNat ⟨false, 64, true⟩ twoFloats = some [258, 772] ∧ twoFloats.length < (⟨false, 64, true⟩ : Machine).usizeLim := by
  decide +kernel

end Npyz.Props
