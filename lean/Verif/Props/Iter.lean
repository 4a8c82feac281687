import Verif.Props.Recover
import Verif.Model.Iter
/-!
C117: the methods a reader has from `Iterator`.
-/
namespace Npyz.Props
set_option autoImplicit false
open Npyz Spec Py

variable {M : Machine} {V : Type} {t : Ty} {size : Nat}

/-- The reader, at item `i`. -/
def atItem (base n : Nat) (r : NpyReader V Src) (i : Nat) : NpyReader V Src := { r with src := { r.src with pos := base + i * n }, cur := i }

/-- A reader all of whose items are sound. -/
structure AllSound (base n : Nat) (r : NpyReader V Src) (elem : Nat → V) : Prop where
  fits : Fits base n r.header
  item : ∀ i, i < r.header.nRecords → (disk.exec r.prog { r.src with pos := base + i * n }) = (.ok (elem i), { r.src with pos := base + (i + 1) * n })

section
variable {base n : Nat} {r : NpyReader V Src} {elem : Nat → V}

theorem next_at (h : AllSound base n r elem) {i : Nat} (hi : i < r.header.nRecords) :
    (atItem base n r i).next disk = (some (.ok (elem i)), atItem base n r (i + 1)) := by
  have := h.item i hi
  rw [next_some (show (atItem base n r i).cur < (atItem base n r i).header.nRecords from hi)]
  simp only [atItem, this]

theorem next_end {i : Nat} (hi : ¬ i < r.header.nRecords) : (atItem base n r i).next disk = (none, atItem base n r i) :=
  next_none hi

theorem seekTo_at (h : AllSound base n r elem) {i j : Nat} (hi : i ≤ r.header.nRecords) (hj : j ≤ r.header.nRecords) :
    (atItem base n r i).seekTo M disk j = (.ok (), atItem base n r j) :=
  seekTo_disk (r := atItem base n r i) (base := base) h.fits.size h.fits.count h.fits.bytes h.fits.last hi rfl hj

theorem readAt_at (h : AllSound base n r elem) {i j : Nat} (hi : i ≤ r.header.nRecords) (hj : j < r.header.nRecords) :
    (atItem base n r i).readAt M disk j = (.ok (elem j), atItem base n r (j + 1)) := by
  have hit := h.item j hj
  rw [readAt_eq (r := atItem base n r i) hj (seekTo_at h hi (Nat.le_of_lt hj)) rfl rfl]
  simp only [atItem, hit]

/-- After any history of calls in range, the reader is at some item. -/
theorem steps_at (h : AllSound base n r elem) (ops : List ROp) {i : Nat} (hi : i ≤ r.header.nRecords) (hop : InRange r.header.nRecords ops) :
    ∃ j, j ≤ r.header.nRecords ∧ ((atItem base n r i).steps M disk ops).2 = atItem base n r j := by
  induction ops generalizing i with
  | nil => exact ⟨i, hi, rfl⟩
  | cons op ops ih =>
    have hop' : InRange r.header.nRecords ops := fun o ho => hop o (List.mem_cons_of_mem _ ho)
    obtain ⟨h1, h2⟩ := hop op List.mem_cons_self
    rw [steps_cons]
    cases op with
    | next =>
      simp only [NpyReader.step]
      by_cases hlt : i < r.header.nRecords
      · rw [next_at h hlt]; exact ih hlt hop'
      · rw [next_end hlt]; exact ih hi hop'
    | seekTo j =>
      simp only [NpyReader.step, seekTo_at h hi (h1 j rfl)]
      exact ih (h1 j rfl) hop'
    | readAt j =>
      simp only [NpyReader.step, readAt_at h hi (h2 j rfl)]
      exact ih (h2 j rfl) hop'

theorem nth_at (h : AllSound base n r elem) (k : Nat) {i : Nat} (hi : i + k < r.header.nRecords) :
    (atItem base n r i).nth disk k = (some (.ok (elem (i + k))), atItem base n r (i + k + 1)) := by
  induction k generalizing i with
  | zero => exact next_at h hi
  | succ k ih =>
    unfold NpyReader.nth
    rw [next_at h (by omega)]
    simp only
    rw [ih (by omega), show i + 1 + k = i + (k + 1) by omega]

theorem nth_end (h : AllSound base n r elem) (k : Nat) {i : Nat} (hi : i ≤ r.header.nRecords) (hk : r.header.nRecords ≤ i + k) :
    (atItem base n r i).nth disk k = (none, atItem base n r r.header.nRecords) := by
  induction k generalizing i with
  | zero =>
    have : i = r.header.nRecords := by omega
    subst this
    exact next_end (by omega)
  | succ k ih =>
    unfold NpyReader.nth
    by_cases hlt : i < r.header.nRecords
    · rw [next_at h hlt]
      exact ih hlt (by omega)
    · have : i = r.header.nRecords := by omega
      subst this
      rw [next_end hlt]

theorem fold_at {B : Type} {g : B → Res V → Res B} {acc : Nat → B} {s0 : Nat} (h : AllSound base n r elem)
    (hg : ∀ i, s0 ≤ i → i < r.header.nRecords → g (acc i) (.ok (elem i)) = .ok (acc (i + 1))) (k : Nat) {i : Nat} (hs : s0 ≤ i) (hi : i ≤ r.header.nRecords)
    (hk : r.header.nRecords - i < k) :
    NpyReader.foldLoop disk g k (acc i) (atItem base n r i) = (.ok (acc r.header.nRecords), atItem base n r r.header.nRecords) := by
  induction k generalizing i with
  | zero => omega
  | succ k ih =>
    unfold NpyReader.foldLoop
    by_cases hlt : i < r.header.nRecords
    · rw [next_at h hlt]
      simp only [hg i hs hlt]
      exact ih (by omega) hlt (by omega)
    · have : i = r.header.nRecords := by omega
      subst this
      rw [next_end hlt]

theorem takeCollect_at (h : AllSound base n r elem) (k : Nat) {i : Nat} (hi : i ≤ r.header.nRecords) :
    (atItem base n r i).takeCollect disk k =
      (.ok ((List.range' i (min k (r.header.nRecords - i))).map elem), atItem base n r (min (i + k) r.header.nRecords)) := by
  induction k generalizing i with
  | zero => simp [NpyReader.takeCollect, Nat.min_eq_left hi]
  | succ k ih =>
    unfold NpyReader.takeCollect
    by_cases hlt : i < r.header.nRecords
    · rw [next_at h hlt]
      simp only [ih hlt]
      have e : min (k + 1) (r.header.nRecords - i) = min k (r.header.nRecords - (i + 1)) + 1 := by omega
      rw [e, List.range'_succ, List.map_cons, show i + 1 + k = i + (k + 1) by omega]
    · have : i = r.header.nRecords := by omega
      subst this
      rw [next_end hlt]
      simp
end

/-- The reader of an array all of whose elements are sound. -/
theorem allSound {f : NpyFile Src} {r : NpyReader t.Val Src} (ho : Opened M f.header) (h : f.data M t = .ok r)
    (hf : Fits f.src.pos size f.header) (hm : size ≤ M.isizeMax) (hb : f.src.pos ≤ f.src.data.length) {elem : Nat → t.Val}
    (hok : ∀ i, i < f.header.nRecords → elementAt t f.header.dtype f.src.data f.src.pos size i = some (elem i)) :
    AllSound f.src.pos size r elem ∧ atItem f.src.pos size r 0 = r ∧ r.header = f.header := by
  obtain ⟨n, he, hn, hr⟩ := opened_reads ho h
  have : n = size := by have := hf.size; rw [hn] at this; cases this; rfl
  subst this
  obtain ⟨hp, p, hrd, rfl⟩ := data_ok_iff.mp h
  have hdec := (hr hm).decodes
  refine ⟨⟨hf, fun i hi => ?_⟩, by simp [atItem], rfl⟩
  have h1 := (itemAt_iff (s := { f.src with pos := f.src.pos + i * n }) (base := f.src.pos) (i := i) hb rfl (elem i)).mp (hok i hi)
  have h2 := (disk_exec_iff hdec { f.src with pos := f.src.pos + i * n } (elem i)).mpr h1
  have h3 := disk_exec_src hdec h2
  simp only at h2 h3
  refine Prod.ext h2 (h3.trans ?_)
  rw [Nat.add_mul, Nat.one_mul, Nat.add_assoc]

theorem len_at {base n : Nat} {r : NpyReader V Src} {i : Nat} (hi : i ≤ r.header.nRecords) :
    (atItem base n r i).len M = .ok (r.header.nRecords - i) := by
  unfold NpyReader.len Machine.subUint
  exact if_pos hi

/-- C117: with `l` items to come, `nth(k)` for `k < l` is `read_at` of the `k`-th of them: the same element, and the reader is the same afterwards;
for other `k` it is `None`, and nothing is left. -/
theorem C117_nth {f : NpyFile Src} {r : NpyReader t.Val Src} (ho : Opened M f.header) (h : f.data M t = .ok r)
    (hf : Fits f.src.pos size f.header) (hm : size ≤ M.isizeMax) (hb : f.src.pos ≤ f.src.data.length)
    (hok : ∀ i, i < f.header.nRecords → elementAt t f.header.dtype f.src.data f.src.pos size i ≠ none) (ops : List ROp)
    (hop : InRange f.header.nRecords ops) :
    ∃ l, l ≤ f.header.nRecords ∧ (r.steps M disk ops).2.len M = .ok l ∧
      (∀ k, k < l → ∃ v, elementAt t f.header.dtype f.src.data f.src.pos size (f.header.nRecords - l + k) = some v ∧
        ∃ r', (r.steps M disk ops).2.nth disk k = (some (.ok v), r') ∧ (r.steps M disk ops).2.readAt M disk (f.header.nRecords - l + k) = (.ok v, r')) ∧
      ∀ k, l ≤ k → ∃ r', (r.steps M disk ops).2.nth disk k = (none, r') ∧ r'.len M = .ok 0 := by
  by_cases hn0 : f.header.nRecords = 0
  · obtain ⟨-, p, -, rfl⟩ := data_ok_iff.mp h
    obtain ⟨h1, -, h3⟩ := steps_inv (M := M) (S := disk) ops ⟨f.header, p, f.src, 0⟩ (Nat.zero_le _)
    simp only at h1 h3
    generalize ((⟨f.header, p, f.src, 0⟩ : NpyReader t.Val Src).steps M disk ops).2 = r' at h1 h3
    have hl : r'.len M = .ok 0 := by
      unfold NpyReader.len Machine.subUint
      rw [h1, if_pos h3, hn0, Nat.zero_sub]
    refine ⟨0, Nat.zero_le _, hl, fun k hk => absurd hk (by omega), fun k _ => ⟨r', ?_, hl⟩⟩
    have hnx : r'.next disk = (none, r') := next_none (by rw [h1]; omega)
    cases k with
    | zero => exact hnx
    | succ k => unfold NpyReader.nth; rw [hnx]
  obtain ⟨v0, -⟩ := Option.ne_none_iff_exists'.mp (hok 0 (by omega))
  obtain ⟨hs, h0, hh⟩ := allSound ho h hf hm hb (elem := fun i => (elementAt t f.header.dtype f.src.data f.src.pos size i).getD v0) fun i hi => by
    obtain ⟨v, hv⟩ := Option.ne_none_iff_exists'.mp (hok i hi)
    rw [hv]; rfl
  rw [← hh] at hop
  obtain ⟨j, hj, hst⟩ := steps_at (M := M) hs ops (Nat.zero_le _) hop
  rw [h0] at hst
  rw [hst]
  refine ⟨r.header.nRecords - j, by rw [hh]; omega, len_at hj, fun k hk => ?_, fun k hk => ?_⟩
  · rw [show f.header.nRecords - (r.header.nRecords - j) + k = j + k by rw [hh] at hj ⊢; omega]
    obtain ⟨v, hv⟩ := Option.ne_none_iff_exists'.mp (hok (j + k) (by rw [← hh]; omega))
    refine ⟨v, hv, atItem f.src.pos size r (j + k + 1), ?_, ?_⟩
    · rw [nth_at hs k (by omega), hv]; rfl
    · rw [readAt_at hs hj (by omega), hv]; rfl
  · exact ⟨_, nth_end hs k hj (by omega), by rw [len_at (Nat.le_refl _), Nat.sub_self]⟩

/-- C117: over any source, at any point of any history, `count` is the number of items to come, values and errors alike, if it fits in `usize`; it is
the remainder modulo the range of `usize`, or a panic if there are overflow checks, if it does not. -/
theorem C117_count {σ : Type} {S : Source σ} {f : NpyFile σ} {r : NpyReader t.Val σ} (h : f.data M t = .ok r) (hS : ∀ s, (S.exec r.prog s).1 ≠ .panic)
    (ops : List ROp) :
    ∃ l, l ≤ f.header.nRecords ∧ (r.steps M S ops).2.len M = .ok l ∧
      ((r.steps M S ops).2.count M S).1 = if l < M.usizeLim then .ok l else if M.overflowChecks then .panic else .ok (l % M.usizeLim) := by
  obtain ⟨-, p, -, rfl⟩ := data_ok_iff.mp h
  obtain ⟨h1, h2, h3⟩ := steps_inv (M := M) (S := S) ops ⟨f.header, p, f.src, 0⟩ (Nat.zero_le _)
  simp only at h1 h2 h3 hS
  generalize ((⟨f.header, p, f.src, 0⟩ : NpyReader t.Val σ).steps M S ops).2 = r' at h1 h2 h3
  refine ⟨f.header.nRecords - r'.cur, by omega, ?_, ?_⟩
  · unfold NpyReader.len Machine.subUint
    rw [h1, if_pos h3]
  have hM : 0 < M.usizeLim := Nat.two_pow_pos _
  rw [← h2] at hS
  clear h2
  have key : ∀ (k : Nat) (r' : NpyReader t.Val σ) (c : Nat), c < M.usizeLim → r'.cur ≤ r'.header.nRecords → (∀ s, (S.exec r'.prog s).1 ≠ .panic) →
      r'.header.nRecords - r'.cur < k →
      (r'.foldLoop S (fun n _ => if n + 1 < M.usizeLim then .ok (n + 1) else if M.overflowChecks then .panic else .ok 0) k c).1 =
        if c + (r'.header.nRecords - r'.cur) < M.usizeLim then .ok (c + (r'.header.nRecords - r'.cur))
        else if M.overflowChecks then .panic else .ok ((c + (r'.header.nRecords - r'.cur)) % M.usizeLim) := by
    intro k
    induction k with
    | zero => intro r' c _ _ _ hk; omega
    | succ k ih =>
      intro r' c hc hle hS hk
      unfold NpyReader.foldLoop
      by_cases hlt : r'.cur < r'.header.nRecords
      · rw [next_some hlt]
        have ih' := fun c hc => ih { r' with src := (S.exec r'.prog r'.src).2, cur := r'.cur + 1 } c hc hlt hS (by show r'.header.nRecords - (r'.cur + 1) < k; omega)
        simp only at ih'
        have e : r'.header.nRecords - r'.cur = r'.header.nRecords - (r'.cur + 1) + 1 := by omega
        have hx : ∀ x, (S.exec r'.prog r'.src).1 = x → x ≠ .panic := fun x hx => hx ▸ hS _
        rw [e]
        by_cases hc1 : c + 1 < M.usizeLim
        · rw [show c + (r'.header.nRecords - (r'.cur + 1) + 1) = c + 1 + (r'.header.nRecords - (r'.cur + 1)) by omega, ← ih' (c + 1) hc1]
          simp only [if_pos hc1]
          cases hy : (S.exec r'.prog r'.src).1 with
          | panic => exact absurd rfl (hx _ hy)
          | ok v => rfl
          | err e' => rfl
        · have hc2 : c + 1 = M.usizeLim := by omega
          rw [if_neg (show ¬ c + (r'.header.nRecords - (r'.cur + 1) + 1) < M.usizeLim by omega)]
          simp only [if_neg hc1]
          cases ho : M.overflowChecks with
          | true =>
            cases hy : (S.exec r'.prog r'.src).1 with
            | panic => exact absurd rfl (hx _ hy)
            | ok v => rfl
            | err e' => rfl
          | false =>
            have := ih' 0 hM
            rw [ho] at this
            simp only [Bool.false_eq_true, ↓reduceIte] at this ⊢
            rw [show c + (r'.header.nRecords - (r'.cur + 1) + 1) = M.usizeLim + (r'.header.nRecords - (r'.cur + 1)) by omega,
              Nat.add_mod_left]
            rw [Nat.zero_add] at this
            have e2 : (if r'.header.nRecords - (r'.cur + 1) < M.usizeLim then (.ok (r'.header.nRecords - (r'.cur + 1)) : Res Nat)
                else .ok ((r'.header.nRecords - (r'.cur + 1)) % M.usizeLim)) = .ok ((r'.header.nRecords - (r'.cur + 1)) % M.usizeLim) := by
              split
              · rw [Nat.mod_eq_of_lt (by assumption)]
              · rfl
            rw [← e2, ← this]
            cases hy : (S.exec r'.prog r'.src).1 with
            | panic => exact absurd rfl (hx _ hy)
            | ok v => rfl
            | err e' => rfl
      · rw [next_none hlt]
        have : r'.header.nRecords - r'.cur = 0 := by omega
        simp only [this, Nat.add_zero, if_pos hc]
  have := key (r'.header.nRecords - r'.cur + 1) r' 0 hM (by rw [h1]; exact h3) hS (by omega)
  rw [Nat.zero_add] at this
  unfold NpyReader.count NpyReader.fold
  rw [this, h1]

/-- C117: `last` is the last element if there are items to come, and `None` otherwise. -/
theorem C117_last {f : NpyFile Src} {r : NpyReader t.Val Src} (ho : Opened M f.header) (h : f.data M t = .ok r)
    (hf : Fits f.src.pos size f.header) (hm : size ≤ M.isizeMax) (hb : f.src.pos ≤ f.src.data.length)
    (hok : ∀ i, i < f.header.nRecords → elementAt t f.header.dtype f.src.data f.src.pos size i ≠ none) (ops : List ROp)
    (hop : InRange f.header.nRecords ops) :
    ((r.steps M disk ops).2.len M = .ok 0 ∧ ((r.steps M disk ops).2.last disk).1 = .ok none) ∨
    (∃ l v, (r.steps M disk ops).2.len M = .ok l ∧ 0 < l ∧ ((r.steps M disk ops).2.last disk).1 = .ok (some (.ok v)) ∧
      elementAt t f.header.dtype f.src.data f.src.pos size (f.header.nRecords - 1) = some v) := by
  by_cases hn0 : f.header.nRecords = 0
  · left
    obtain ⟨-, p, -, rfl⟩ := data_ok_iff.mp h
    obtain ⟨h1, -, h3⟩ := steps_inv (M := M) (S := disk) ops ⟨f.header, p, f.src, 0⟩ (Nat.zero_le _)
    simp only at h1 h3
    generalize ((⟨f.header, p, f.src, 0⟩ : NpyReader t.Val Src).steps M disk ops).2 = r' at h1 h3
    refine ⟨?_, ?_⟩
    · unfold NpyReader.len Machine.subUint
      rw [h1, if_pos h3, hn0, Nat.zero_sub]
    · unfold NpyReader.last NpyReader.fold NpyReader.foldLoop
      rw [next_none (by rw [h1]; omega)]
  obtain ⟨v0, -⟩ := Option.ne_none_iff_exists'.mp (hok 0 (by omega))
  obtain ⟨hs, h0, hh⟩ := allSound ho h hf hm hb (elem := fun i => (elementAt t f.header.dtype f.src.data f.src.pos size i).getD v0) fun i hi => by
    obtain ⟨v, hv⟩ := Option.ne_none_iff_exists'.mp (hok i hi)
    rw [hv]; rfl
  rw [← hh] at hop
  obtain ⟨j, hj, hst⟩ := steps_at (M := M) hs ops (Nat.zero_le _) hop
  rw [h0] at hst
  rw [hst]
  obtain ⟨v, hv⟩ := Option.ne_none_iff_exists'.mp (hok (f.header.nRecords - 1) (by omega))
  have key := fold_at (acc := fun i => if i = j then none else some (.ok ((elementAt t f.header.dtype f.src.data f.src.pos size (i - 1)).getD v0)))
    (g := fun (_ : Option (Res t.Val)) x => .ok (some x)) (s0 := j) hs (fun i h1 h2 => by rw [if_neg (show i + 1 ≠ j by omega), Nat.add_sub_cancel])
    (r.header.nRecords - j + 1) (Nat.le_refl _) hj (by omega)
  rw [if_pos rfl] at key
  have e : (atItem f.src.pos size r j).last disk = _ := key
  rw [e]
  by_cases hjn : r.header.nRecords = j
  · left
    rw [len_at hj, if_pos hjn, hjn, Nat.sub_self]
    exact ⟨rfl, rfl⟩
  · right
    refine ⟨r.header.nRecords - j, v, len_at hj, by omega, ?_, hv⟩
    rw [if_neg hjn, hh, hv]
    rfl

/-- C117: at any point of any history, seeking to element `a` and collecting at most `k` items gives the elements from `a` on, `k` of them or as many
as there are, and leaves the reader behind them, as `seek_to` would. -/
theorem C117_window {f : NpyFile Src} {r : NpyReader t.Val Src} (ho : Opened M f.header) (h : f.data M t = .ok r)
    (hf : Fits f.src.pos size f.header) (hm : size ≤ M.isizeMax) (hb : f.src.pos ≤ f.src.data.length)
    (hok : ∀ i, i < f.header.nRecords → elementAt t f.header.dtype f.src.data f.src.pos size i ≠ none) (ops : List ROp) (a k : Nat)
    (hop : InRange f.header.nRecords ops) (ha : a ≤ f.header.nRecords) :
    ∃ vs r', (r.steps M disk (ops ++ [.seekTo a])).2.takeCollect disk k = (.ok vs, r') ∧ vs.length = min k (f.header.nRecords - a) ∧
      (∀ i (hi : i < vs.length), elementAt t f.header.dtype f.src.data f.src.pos size (a + i) = some vs[i]) ∧
      (r.steps M disk ops).2.seekTo M disk (a + vs.length) = (.ok (), r') := by
  have happ : ∀ (ops : List ROp) (r : NpyReader t.Val Src), (r.steps M disk (ops ++ [.seekTo a])).2 = ((r.steps M disk ops).2.seekTo M disk a).2 := by
    intro ops
    induction ops with
    | nil => intro r; rfl
    | cons op ops ih => intro r; exact ih _
  rw [happ]
  by_cases hn0 : f.header.nRecords = 0
  · obtain ⟨-, p, -, rfl⟩ := data_ok_iff.mp h
    obtain ⟨h1, -, h3⟩ := steps_inv (M := M) (S := disk) ops ⟨f.header, p, f.src, 0⟩ (Nat.zero_le _)
    simp only at h1 h3
    generalize ((⟨f.header, p, f.src, 0⟩ : NpyReader t.Val Src).steps M disk ops).2 = r' at h1 h3
    have ha0 : a = 0 := by omega
    have hc0 : r'.cur = 0 := by omega
    subst ha0
    have hs : r'.seekTo M disk 0 = (.ok (), r') := by
      unfold NpyReader.seekTo
      rw [if_pos (Nat.zero_le _), hc0, Int.sub_self]
      rfl
    refine ⟨[], r', ?_, by rw [hn0]; simp, nofun, hs⟩
    rw [hs]
    cases k with
    | zero => rfl
    | succ k => unfold NpyReader.takeCollect; rw [next_none (by rw [h1]; omega)]
  obtain ⟨v0, -⟩ := Option.ne_none_iff_exists'.mp (hok 0 (by omega))
  obtain ⟨hs, h0, hh⟩ := allSound ho h hf hm hb (elem := fun i => (elementAt t f.header.dtype f.src.data f.src.pos size i).getD v0) fun i hi => by
    obtain ⟨v, hv⟩ := Option.ne_none_iff_exists'.mp (hok i hi)
    rw [hv]; rfl
  have ha' : a ≤ r.header.nRecords := by rw [hh]; exact ha
  rw [← hh] at hop
  obtain ⟨j, hj, hst⟩ := steps_at (M := M) hs ops (Nat.zero_le _) hop
  rw [h0] at hst
  rw [hst, seekTo_at hs hj ha']
  refine ⟨_, _, takeCollect_at hs k ha', by rw [List.length_map, List.length_range', hh], fun i hi => ?_, ?_⟩
  · rw [List.length_map, List.length_range'] at hi
    obtain ⟨v, hv⟩ := Option.ne_none_iff_exists'.mp (hok (a + i) (by rw [← hh]; omega))
    rw [List.getElem_map, List.getElem_range', Nat.one_mul, hv]
    rfl
  · rw [List.length_map, List.length_range', seekTo_at hs hj (by omega), show a + min k (r.header.nRecords - a) = min (a + k) r.header.nRecords by omega]

/-! ### A concrete case -/

/-- C117_nth, C117_last, C117_window, C117_count: two floats, after a call of `read_at`. -/
example : ∃ (f : NpyFile Src) (r : NpyReader f64.Val Src) (l : Nat),
    NpyFile.new ⟨false, 64, true⟩ Py.parse disk ⟨twoFloats, 0⟩ = (.ok f, f.src) ∧
    ((r.steps ⟨false, 64, true⟩ disk [.readAt 1, .seekTo 0]).2.count ⟨false, 64, true⟩ disk).1 =
      if l < (⟨false, 64, true⟩ : Machine).usizeLim then .ok l else .panic := by
  obtain ⟨f, r, h1, h0, h2, h3, h4, h5, h6⟩ := twoFloats_reader
  have hS : ∀ s, (disk.exec r.prog s).1 ≠ .panic := by
    intro s
    obtain ⟨n, he, hn, hr⟩ := opened_reads h1 h2
    have : n = 8 := by have := h3.size; rw [hn] at this; cases this; rfl
    subst this
    rcases disk_exec_total (hr (by decide)).decodes s with ⟨v, hv⟩ | ⟨e, hv⟩ <;> rw [hv] <;> nofun
  obtain ⟨l, -, -, k⟩ := C117_count h2 hS [.readAt 1, .seekTo 0]
  exact ⟨f, r, l, h0, k⟩
example : ∃ (f : NpyFile Src) (r r' : NpyReader f64.Val Src) (vs : List f64.Val),
    NpyFile.new ⟨false, 64, true⟩ Py.parse disk ⟨twoFloats, 0⟩ = (.ok f, f.src) ∧
    (r.steps ⟨false, 64, true⟩ disk ([.readAt 0] ++ [.seekTo 1])).2.takeCollect disk 5 = (.ok vs, r') ∧ vs.length = 1 := by
  obtain ⟨f, r, h1, h0, h2, h3, h4, h5, h6⟩ := twoFloats_reader
  have hop : InRange f.header.nRecords [.readAt 0] := by rw [h4]; intro op ho; simp at ho; rcases ho with rfl; simp
  have h117 := C117_nth h1 h2 h3 (by decide) (by omega) (twoFloats_elements h4 h5 h6) [.readAt 0] hop
  have h118 := C117_last h1 h2 h3 (by decide) (by omega) (twoFloats_elements h4 h5 h6) [.readAt 0] hop
  obtain ⟨vs, r', k1, k2, -⟩ := C117_window h1 h2 h3 (by decide) (by omega) (twoFloats_elements h4 h5 h6) [.readAt 0] 1 5 hop (by omega)
  exact ⟨f, r, r', vs, h0, k1, by rw [k2, h4]; rfl⟩

end Npyz.Props
