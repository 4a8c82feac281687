import Verif.Props.Recover
import Verif.Spec.Grow
/-!
C126: reading on after the end of a file that was still growing was met.

`refresh`, `growing` and `UntilFailure` are in `Verif/Spec/Grow.lean`.
-/
namespace Npyz.Props
set_option autoImplicit false
open Npyz Spec Py

variable {M : Machine} {V : Type} {t : Ty} {size : Nat}

theorem itemAt_take {f : Bytes → Option V} {full : Bytes} {base n i len : Nat} :
    itemAt f (full.take len) base n i = none ∨ itemAt f (full.take len) base n i = itemAt f full base n i := by
  unfold itemAt
  by_cases h : base + (i + 1) * n ≤ (full.take len).length
  · right
    have hl : (full.take len).length = min len full.length := List.length_take
    have e : (i + 1) * n = i * n + n := by rw [Nat.add_mul, Nat.one_mul]
    rw [if_pos h, if_pos (by omega), List.drop_take, List.take_take, Nat.min_eq_left (by omega)]
  · left; rw [if_neg h]

theorem callAt_take {f : Bytes → Option V} {full : Bytes} {base n len : Nat} (N i : Nat) (op : ROp) :
    (callAt (itemAt f (full.take len) base n) N i op).1 = .failed ∨
    callAt (itemAt f (full.take len) base n) N i op = callAt (itemAt f full base n) N i op := by
  cases op with
  | next =>
    simp only [callAt]
    by_cases h : i < N
    · rw [if_pos h, if_pos h]
      rcases itemAt_take (f := f) (full := full) (base := base) (n := n) (i := i) (len := len) with h | h
      · left; simp only [look, h]
      · right; simp only [look, h]
    · rw [if_neg h, if_neg h]; right; rfl
  | seekTo j => right; rfl
  | readAt j =>
    simp only [callAt]
    rcases itemAt_take (f := f) (full := full) (base := base) (n := n) (i := j) (len := len) with h | h
    · left; simp only [look, h]
    · right; simp only [look, h]

theorem growing_until {f : Bytes → Option V} {base n : Nat} {full : Bytes} (calls : List (ROp × Nat)) (r : NpyReader V Src) (hr : Decodes r.prog n f)
    (hf : Fits base n r.header) (ha : AtItem base n r) (hfull : base ≤ full.length) (hb : ∀ c ∈ calls, base ≤ c.2)
    (hop : InRange r.header.nRecords (calls.map Prod.fst)) :
    UntilFailure (itemAt f full base n) r.header.nRecords (calls.map Prod.fst) r.cur ((growing M full calls r).map seen) := by
  induction calls generalizing r with
  | nil => exact .nil
  | cons c calls ih =>
    obtain ⟨op, len⟩ := c
    have hop1 : InRange r.header.nRecords [op] := fun o ho => hop o (by rw [List.mem_singleton.mp ho]; exact List.mem_cons_self)
    have hop2 : InRange r.header.nRecords (calls.map Prod.fst) := fun o ho => hop o (List.mem_cons_of_mem _ ho)
    have hlen : base ≤ (full.take len).length := by
      have := hb _ List.mem_cons_self
      rw [List.length_take]
      simp only at this
      omega
    obtain ⟨x, i, a0, -, a1, a2, a3, a4, a5, a6⟩ := step_disk (M := M) (r := refresh r (full.take len)) hr hf ⟨ha.cur_le, ha.pos⟩ hlen op hop1
    have e5 := cur_callAt (M := M) (r := refresh r (full.take len)) (elem := itemAt f full base n) hf ⟨ha.cur_le, ha.pos⟩ op hop1
    rw [expected_callAt] at a0
    have hx : (callAt (itemAt f (full.take len) base n) r.header.nRecords r.cur op).1 = x := (List.cons.inj a0).1
    simp only [growing, List.map_cons, a1]
    by_cases hne : x = .failed
    · subst hne; exact .failed
    · rcases callAt_take (f := f) (full := full) (base := base) (n := n) (len := len) r.header.nRecords r.cur op with h | h
      · exact absurd (hx.symm.trans h) hne
      · rw [← hx, h]
        refine .right ?_
        have hrest := ih ((refresh r (full.take len)).step M disk op).2 (by rw [a3]; exact hr) (by rw [a2]; exact hf) (a6 hne)
          (fun c hc => hb c (List.mem_cons_of_mem _ hc)) (by rw [a2]; exact hop2)
        rw [a2, e5] at hrest
        exact hrest

/-- C126, the part that holds: while the file grows, in whatever steps, every call returns what it returns on the complete file, up to the
first call that fails.  Missing: the calls after that one, see `C126_shifted`. -/
theorem C126_until_partial {f : NpyFile Src} {r : NpyReader t.Val Src} (ho : Opened M f.header) (h : f.data M t = .ok r)
    (hf : Fits f.src.pos size f.header) (hm : size ≤ M.isizeMax) {full : Bytes} (hb : f.src.pos ≤ full.length) (calls : List (ROp × Nat))
    (hlen : ∀ c ∈ calls, f.src.pos ≤ c.2) (hop : InRange f.header.nRecords (calls.map Prod.fst)) :
    UntilFailure (elementAt t f.header.dtype full f.src.pos size) f.header.nRecords (calls.map Prod.fst) 0 ((growing M full calls r).map seen) := by
  obtain ⟨n, he, hn, hr⟩ := opened_reads ho h
  have : n = size := by have := hf.size; rw [hn] at this; cases this; rfl
  subst this
  obtain ⟨hp, p, hrd, rfl⟩ := data_ok_iff.mp h
  exact growing_until (M := M) (base := f.src.pos) calls ⟨f.header, p, f.src, 0⟩ (hr hm).decodes hf ⟨Nat.zero_le _, by simp⟩ hb hlen hop

/-! ### After the failure -/

/-- A program that needs more bytes than there are uses them up. -/
theorem eats_all {α : Type} {p : RProg α} {bs rest : Bytes} {v : α} {k : Nat} (h : p.run bs = (.ok v, rest)) (hk : k + rest.length < bs.length) :
    ∃ e, p.run (bs.take k) = (.err e, []) := by
  induction p generalizing bs k with
  | ret r => cases h; omega
  | read m eof c ih =>
    have hl : (bs.take k).length = min k bs.length := List.length_take
    by_cases hm : m ≤ k
    · rw [RProg.run, if_pos (by omega)] at h
      rw [RProg.run, if_pos (by omega), List.take_take, Nat.min_eq_left hm, List.drop_take]
      exact ih _ h (by rw [List.length_drop]; omega)
    · rw [RProg.run, if_neg (by omega)]
      exact ⟨eof, rfl⟩

theorem steps_atItem {f : Bytes → Option V} {base n : Nat} (ops : List ROp) (r : NpyReader V Src) (hr : Decodes r.prog n f) (hf : Fits base n r.header)
    (ha : AtItem base n r) (hb : base ≤ r.src.data.length) (hop : InRange r.header.nRecords ops)
    (hok : Seen.failed ∉ expected (itemAt f r.src.data base n) r.header.nRecords ops r.cur) :
    AtItem base n (r.steps M disk ops).2 ∧ (r.steps M disk ops).2.header = r.header ∧ (r.steps M disk ops).2.prog = r.prog ∧
      (r.steps M disk ops).2.src.data = r.src.data := by
  induction ops generalizing r with
  | nil => exact ⟨ha, rfl, rfl, rfl⟩
  | cons op ops ih =>
    obtain ⟨x, i, -, h1, -, h3, h4, h5, h6, h7⟩ := step_disk (M := M) hr hf ha hb op
      (fun o ho => hop o (by rw [List.mem_singleton.mp ho]; exact List.mem_cons_self))
    rw [h1, List.mem_cons, not_or] at hok
    obtain ⟨k1, k2, k3, k4⟩ := ih (r.step M disk op).2 (by rw [h4]; exact hr) (by rw [h3]; exact hf) (h7 (fun e => hok.1 e.symm)) (by rw [h5]; exact hb)
      (by rw [h3]; exact fun o ho => hop o (List.mem_cons_of_mem _ ho)) (by rw [h3, h5, h6]; exact hok.2)
    rw [steps_cons]
    exact ⟨k1, k2.trans h3, k3.trans h4, k4.trans h5⟩

theorem onOne_of (ops : List ROp) (hop0 : ∀ op ∈ ops, op ≠ .seekTo 0 ∧ op ≠ .readAt 0) : ∃ ops' : List ROp, ops = ops'.map onOne := by
  induction ops with
  | nil => exact ⟨[], rfl⟩
  | cons op ops ih =>
    obtain ⟨ops', rfl⟩ := ih (fun o ho => hop0 o (List.mem_cons_of_mem _ ho))
    obtain ⟨h1, h2⟩ := hop0 op List.mem_cons_self
    rcases op with _ | i | i
    · exact ⟨.next :: ops', rfl⟩
    · cases i with
      | zero => exact absurd rfl h1
      | succ i => exact ⟨.seekTo i :: ops', rfl⟩
    · cases i with
      | zero => exact absurd rfl h2
      | succ i => exact ⟨.readAt i :: ops', rfl⟩

/-- C126 is violated for every type: whatever the file and the calls before, if the file ends after `i` elements and `k` bytes when element `i` is to be read
next, that call reports an error.  When the file is complete, every later call takes its value from a place `size - k` bytes before the one it should; if the file
has ended between two elements, this is the element before. -/
theorem C126_shifted {f : NpyFile Src} {r : NpyReader t.Val Src} (ho : Opened M f.header) (h : f.data M t = .ok r)
    (hf : Fits f.src.pos size f.header) (hm : size ≤ M.isizeMax) {full : Bytes} {i k : Nat} (hi : i < f.header.nRecords) (hk : k < size)
    (hcut : f.src.data = full.take (f.src.pos + i * size + k))
    (hok : ∀ j, j < f.header.nRecords → elementAt t f.header.dtype full f.src.pos size j ≠ none)
    (hok' : ∀ j, j + 1 < f.header.nRecords → elementAt t f.header.dtype full (f.src.pos + k) size j ≠ none)
    (before : List ROp) (hbefore : InRange f.header.nRecords before)
    (hgood : Seen.failed ∉ expected (elementAt t f.header.dtype f.src.data f.src.pos size) f.header.nRecords before 0)
    (hcur : (r.steps M disk before).2.cur = i) (ops : List ROp) (hop : InRange f.header.nRecords ops)
    (hop0 : ∀ op ∈ ops, op ≠ .seekTo 0 ∧ op ≠ .readAt 0) :
    (∃ e, ((r.steps M disk before).2.next disk).1 = some (.err e)) ∧
      ((refresh ((r.steps M disk before).2.next disk).2 full).steps M disk ops).1.map seen =
        (expected (fun j => elementAt t f.header.dtype full (f.src.pos + k) size (j - 1)) f.header.nRecords ops (i + 1)).map some := by
  obtain ⟨n, he, hnn, hr⟩ := opened_reads ho h
  have : n = size := by have := hf.size; rw [hnn] at this; cases this; rfl
  subst this
  obtain ⟨hp, p, hrd, rfl⟩ := data_ok_iff.mp h
  have hdec := (hr hm).decodes
  obtain ⟨v, hv⟩ := Option.ne_none_iff_exists'.mp (hok i hi)
  have hfl : f.src.pos + (i + 1) * n ≤ full.length := by
    refine Decidable.byContradiction fun hc => ?_
    unfold elementAt itemAt at hv
    rw [if_neg hc] at hv
    cases hv
  have e1 : (i + 1) * n = i * n + n := by rw [Nat.add_mul, Nat.one_mul]
  have hsl : f.src.data.length = f.src.pos + i * n + k := by rw [hcut, List.length_take]; omega
  obtain ⟨ha, ah, ap, ad⟩ := steps_atItem (M := M) (base := f.src.pos) before ⟨f.header, p, f.src, 0⟩ hdec hf ⟨Nat.zero_le _, by simp⟩ (by show f.src.pos ≤ f.src.data.length; omega)
    hbefore hgood
  generalize hq : (NpyReader.steps M disk before ⟨f.header, p, f.src, 0⟩).2 = q at *
  rcases q with ⟨qh, qp, qs, qc⟩
  simp only at hcur ah ap ad
  subst hcur ah ap
  have hpos : qs.pos = f.src.pos + qc * n := ha.pos
  have hrun : qp.run (full.drop qs.pos) = (.ok v, (full.drop qs.pos).drop n) := by
    obtain ⟨hl, hv⟩ := (itemAt_iff (s := ⟨full, qs.pos⟩) (base := f.src.pos) (n := n) (i := qc) (by show f.src.pos ≤ full.length; omega) hpos v).mp hv
    have := hdec.ok _ ((Src.rest ⟨full, qs.pos⟩).drop n) v (by rw [List.length_take]; omega) hv
    rwa [List.take_append_drop] at this
  obtain ⟨e, heat⟩ := eats_all (k := k) hrun (by rw [List.length_drop, List.length_drop]; omega)
  have hrest : qs.rest = (full.drop qs.pos).take k := by
    unfold Src.rest
    rw [ad, hcut, List.drop_take, hpos]
    congr 1
    omega
  have hx : disk.exec qp qs = (.err e, ⟨qs.data, f.src.pos + k + qc * n⟩) := by
    simp only [disk, hrest, heat, Src.leave, List.length_take, List.length_drop, List.length_nil, Prod.mk.injEq, Src.mk.injEq, true_and]
    omega
  have hnext : (⟨f.header, qp, qs, qc⟩ : NpyReader t.Val Src).next disk = (some (.err e), ⟨f.header, qp, ⟨qs.data, f.src.pos + k + qc * n⟩, qc + 1⟩) := by
    rw [next_some hi, hx]
  rw [hnext]
  refine ⟨⟨e, rfl⟩, ?_⟩
  obtain ⟨N, hN⟩ : ∃ N, f.header.nRecords = N + 1 := ⟨f.header.nRecords - 1, by omega⟩
  obtain ⟨ops', rfl⟩ := onOne_of ops hop0
  have hop' : InRange N ops' := by
    intro op ho
    have := hop (onOne op) (List.mem_map.mpr ⟨op, ho, rfl⟩)
    rw [hN] at this
    refine ⟨fun j hj => ?_, fun j hj => ?_⟩ <;> subst hj
    · have := this.1 (j + 1) rfl; omega
    · have := this.2 (j + 1) rfl; omega
  have hcount := hf.count
  have e2 : f.header.nRecords * n = N * n + n := by rw [hN, Nat.add_mul, Nat.one_mul]
  have hf' : Fits (f.src.pos + k) n { f.header with nRecords := N } := ⟨hf.size, by show N < _; omega, by have := hf.bytes; show N * n < _; omega,
    by have := hf.last; show f.src.pos + k + N * n < _; omega⟩
  have e3 : refresh (⟨f.header, qp, ⟨qs.data, f.src.pos + k + qc * n⟩, qc + 1⟩ : NpyReader t.Val Src) full =
      oneOn ⟨{ f.header with nRecords := N }, qp, ⟨full, f.src.pos + k + qc * n⟩, qc⟩ := by
    unfold oneOn refresh
    simp only [← hN]
  rw [e3, oneOn_steps _ _ (by show N + 1 < _; omega) (by show qc ≤ N; omega), hN, ← expected_onOne]
  refine steps_disk (M := M) (base := f.src.pos + k) (r := ⟨{ f.header with nRecords := N }, qp, ⟨full, f.src.pos + k + qc * n⟩, qc⟩) hdec hf'
    ⟨by show qc ≤ N; omega, rfl⟩ (by show f.src.pos + k ≤ full.length; omega) ops' hop' fun hm => ?_
  exact expected_ne (fun j hj => hok' j (by rw [hN]; exact Nat.succ_lt_succ hj)) ops' hop' _ (List.dropLast_subset _ hm)

/-- C126 is violated: of a file with two floats the second has not arrived yet when it is to be read.  That call fails.  When the file is complete the call is
repeated, succeeds and returns the first element; on the complete file it returns the second. -/
theorem C126_violated : ∃ (f : NpyFile Src) (r : NpyReader f64.Val Src),
    NpyFile.new ⟨false, 64, true⟩ Py.parse disk ⟨twoFloats.take 74, 0⟩ = (.ok f, f.src) ∧ f.data ⟨false, 64, true⟩ f64 = .ok r ∧
    (growing ⟨false, 64, true⟩ twoFloats [(.readAt 0, 74), (.readAt 1, 74), (.readAt 1, 82)] r).map seenNat = [some (some 258), none, some (some 258)] ∧
    (growing ⟨false, 64, true⟩ twoFloats [(.readAt 0, 82), (.readAt 1, 82), (.readAt 1, 82)] r).map seenNat =
      [some (some 258), some (some 772), some (some 772)] := by
  obtain ⟨f, r, h0, h1, hd, hp, h2, h3⟩ := openAnd_ok (M := ⟨false, 64, true⟩) (t := f64) (bytes := twoFloats.take 74)
    (P := fun r => (growing ⟨false, 64, true⟩ twoFloats [(.readAt 0, 74), (.readAt 1, 74), (.readAt 1, 82)] r).map seenNat == [some (some 258), none, some (some 258)] &&
      (growing ⟨false, 64, true⟩ twoFloats [(.readAt 0, 82), (.readAt 1, 82), (.readAt 1, 82)] r).map seenNat ==
        [some (some 258), some (some 772), some (some 772)]) (by decide +kernel)
  simp only [Bool.and_eq_true, beq_iff_eq] at h3
  exact ⟨f, r, h0, h2, h3.1, h3.2⟩

/-- The file of `C126_violated` before it is complete. -/
theorem halfFloats_reader : ∃ (f : NpyFile Src) (r : NpyReader f64.Val Src), Opened ⟨false, 64, true⟩ f.header ∧
    NpyFile.new ⟨false, 64, true⟩ Py.parse disk ⟨twoFloats.take 74, 0⟩ = (.ok f, f.src) ∧
    f.data ⟨false, 64, true⟩ f64 = .ok r ∧ f.header.itemSize = some 8 ∧ f.header.nRecords = 2 ∧ f.src.pos = 66 ∧ f.src.data = twoFloats.take 74 ∧
    f.header.dtype = .plain ⟨.little, .float, 8, none⟩ ∧ (r.steps ⟨false, 64, true⟩ disk [.next]).2.cur = 1 := by
  obtain ⟨f, r, h0, h1, hd, hp, h2, h3⟩ := openAnd_ok (M := ⟨false, 64, true⟩) (t := f64) (bytes := twoFloats.take 74)
    (P := fun r => r.header.nRecords == 2 && r.src.pos == 66 && decide (plainOf r.header.dtype = some ⟨.little, .float, 8, none⟩) &&
      decide (r.header.itemSize = some 8) && (r.steps ⟨false, 64, true⟩ disk [.next]).2.cur == 1) (by decide +kernel)
  simp only [Bool.and_eq_true, beq_iff_eq, decide_eq_true_eq] at h3
  obtain ⟨-, p, -, hr⟩ := data_ok_iff.mp h2
  have hh : r.header = f.header := by rw [hr]
  have hs : r.src = f.src := by rw [hr]
  rw [hh, hs] at h3
  obtain ⟨⟨⟨⟨h3, h4⟩, h5⟩, h6⟩, h7⟩ := h3
  exact ⟨f, r, h1, h0, h2, h6, h3, h4, hd, plainOf_eq h5, h7⟩

/-- C126_until_partial, C126_shifted: this file. -/
example : ∃ (f : NpyFile Src) (r : NpyReader f64.Val Src), NpyFile.new ⟨false, 64, true⟩ Py.parse disk ⟨twoFloats.take 74, 0⟩ = (.ok f, f.src) ∧
    UntilFailure (elementAt f64 f.header.dtype twoFloats 66 8) 2 [.next, .readAt 1, .next] 0
      ((growing ⟨false, 64, true⟩ twoFloats [(.next, 74), (.readAt 1, 75), (.next, 82)] r).map seen) := by
  obtain ⟨f, r, h1, h0, h2, h3, h4, h5, h6, h7, h8⟩ := halfFloats_reader
  have hl : twoFloats.length = 82 := by decide +kernel
  have := C126_until_partial h1 h2 (size := 8) (full := twoFloats) ⟨h3, by rw [h4]; decide, by rw [h4]; decide, by rw [h4, h5]; decide⟩ (by decide) (by omega)
    [(.next, 74), (.readAt 1, 75), (.next, 82)] (by rw [h5]; decide) (by rw [h4]; intro op ho; simp at ho; rcases ho with rfl | rfl | rfl <;> simp)
  rw [h4, h5] at this
  exact ⟨f, r, h0, this⟩
example : ∃ (f : NpyFile Src) (r : NpyReader f64.Val Src), NpyFile.new ⟨false, 64, true⟩ Py.parse disk ⟨twoFloats.take 74, 0⟩ = (.ok f, f.src) ∧
    ((refresh ((r.steps ⟨false, 64, true⟩ disk [.next]).2.next disk).2 twoFloats).steps ⟨false, 64, true⟩ disk [.readAt 1, .next]).1.map seen =
      (expected (fun j => elementAt f64 f.header.dtype twoFloats 66 8 (j - 1)) 2 [.readAt 1, .next] 2).map some := by
  obtain ⟨f, r, h1, h0, h2, h3, h4, h5, h6, h7, h8⟩ := halfFloats_reader
  have hl : twoFloats.length = 82 := by decide +kernel
  have hok : ∀ j, j < 2 → elementAt f64 f.header.dtype twoFloats 66 8 j ≠ none := by
    intro j hj
    unfold elementAt itemAt
    rw [h7, if_pos (by omega)]
    simp [decode, onPlain, f64]
  have h0' : elementAt f64 f.header.dtype (twoFloats.take 74) 66 8 0 ≠ none := by
    unfold elementAt itemAt
    rw [h7, if_pos (by rw [List.length_take]; omega)]
    simp [decode, onPlain, f64]
  obtain ⟨-, k⟩ := C126_shifted h1 h2 (size := 8) (full := twoFloats) (i := 1) (k := 0) ⟨h3, by rw [h4]; decide, by rw [h4]; decide, by rw [h4, h5]; decide⟩ (by decide) (by omega)
    (by decide) (by rw [h5]; exact h6) (by rw [h4, h5]; exact hok) (by rw [h4, h5]; exact fun j hj => hok j (by omega)) [.next]
    (by rw [h4]; intro op ho; simp at ho; rcases ho with rfl; simp)
    (by rw [h4, h5, h6]; obtain ⟨v, hv⟩ := Option.ne_none_iff_exists'.mp h0'; simp [expected, look, hv]) h8
    [.readAt 1, .next] (by rw [h4]; intro op ho; simp at ho; rcases ho with rfl | rfl <;> simp) (by intro op ho; simp at ho; rcases ho with rfl | rfl <;> simp)
  rw [h4, h5] at k
  exact ⟨f, r, h0, k⟩

end Npyz.Props
