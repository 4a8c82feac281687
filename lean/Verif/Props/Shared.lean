import Verif.Spec.Shared
import Verif.Props.Iter
import Verif.Props.Recover
/-!
C130: readers of the same open file.
-/
set_option autoImplicit false
namespace Npyz.Props
open Npyz Spec Py

variable {V : Type} {M : Machine} {t : Ty} {size : Nat}

/-- One call on disk. -/
theorem step_callAt {f : Bytes → Option V} {base n : Nat} {r : NpyReader V Src} (hr : Decodes r.prog n f) (hf : Fits base n r.header)
    (ha : AtItem base n r) (hb : base ≤ r.src.data.length) (op : ROp) (hop : InRange r.header.nRecords [op]) :
    seen (r.step M disk op).1 = some (callAt (itemAt f r.src.data base n) r.header.nRecords r.cur op).1 ∧
      (r.step M disk op).2.header = r.header ∧ (r.step M disk op).2.prog = r.prog ∧
      (r.step M disk op).2.src.data = r.src.data ∧
      (r.step M disk op).2.cur = (callAt (itemAt f r.src.data base n) r.header.nRecords r.cur op).2 ∧
      ((callAt (itemAt f r.src.data base n) r.header.nRecords r.cur op).1 ≠ .failed → AtItem base n (r.step M disk op).2) := by
  obtain ⟨x, i, a0, -, a1, a2, a3, a4, -, a6⟩ := step_disk (M := M) hr hf ha hb op hop
  rw [expected_callAt] at a0
  have hx := (List.cons.inj a0).1
  rw [hx]
  exact ⟨a1, a2, a3, a4, cur_callAt hf ha op hop, a6⟩

theorem itemAt_shift {f : Bytes → Option V} {data : Bytes} {base n : Nat} (j : Nat) :
    itemAt f data (base + j * n) n = fun k => itemAt f data base n (k + j) := by
  funext k
  unfold itemAt
  rw [show base + j * n + (k + 1) * n = base + (k + j + 1) * n by simp only [Nat.add_mul]; omega,
    show base + j * n + k * n = base + (k + j) * n by simp only [Nat.add_mul]; omega]

/-- Two readers of one file, whose position is the sum of theirs. -/
structure Sharing (f : Bytes → Option V) (base n : Nat) (a b : NpyReader V Src) : Prop where
  decodesA : Decodes a.prog n f
  decodesB : Decodes b.prog n f
  header : a.header = b.header
  src : a.src = b.src
  fits : Fits base n a.header
  whole : base + a.header.nRecords * n ≤ a.src.data.length
  small : a.src.data.length < 2 ^ 63
  curA : a.cur ≤ a.header.nRecords
  curB : b.cur ≤ a.header.nRecords
  pos : a.src.pos = base + (a.cur + b.cur) * n

theorem Sharing.swap {f : Bytes → Option V} {base n : Nat} {a b : NpyReader V Src} (h : Sharing f base n a b) : Sharing f base n b a where
  decodesA := h.decodesB
  decodesB := h.decodesA
  header := h.header.symm
  src := h.src.symm
  fits := h.header ▸ h.fits
  whole := h.header ▸ h.src ▸ h.whole
  small := h.src ▸ h.small
  curA := h.header ▸ h.curB
  curB := h.header ▸ h.curA
  pos := by rw [← h.src, h.pos, Nat.add_comm a.cur]

/-- A call of the first reader. -/
theorem Sharing.step {f : Bytes → Option V} {base n : Nat} {a b : NpyReader V Src} (h : Sharing f base n a b) (op : ROp)
    (hop : InRange a.header.nRecords [op]) :
    seen (a.step M disk op).1 = some (callAt (fun k => itemAt f a.src.data base n (k + b.cur)) a.header.nRecords a.cur op).1 ∧
      (a.step M disk op).2.header = a.header ∧ (a.step M disk op).2.src.data = a.src.data ∧
      (a.step M disk op).2.cur = (callAt (fun k => itemAt f a.src.data base n (k + b.cur)) a.header.nRecords a.cur op).2 ∧
      ((callAt (fun k => itemAt f a.src.data base n (k + b.cur)) a.header.nRecords a.cur op).1 ≠ .failed →
        Sharing f base n (a.step M disk op).2 { b with src := (a.step M disk op).2.src }) := by
  have hle : b.cur * n ≤ a.header.nRecords * n := Nat.mul_le_mul_right n h.curB
  have hw := h.whole
  have hs := h.small
  have hby := h.fits.bytes
  have hF : Fits (base + b.cur * n) n a.header := ⟨h.fits.size, h.fits.count, h.fits.bytes, by omega⟩
  have hA : AtItem (base + b.cur * n) n a := ⟨h.curA, by rw [h.pos, Nat.add_mul]; omega⟩
  obtain ⟨h1, h2, h3, h4, h5, h6⟩ := step_callAt (M := M) h.decodesA hF hA (by omega) op hop
  rw [itemAt_shift] at h1 h5 h6
  refine ⟨h1, h2, h4, h5, fun hne => ?_⟩
  have h7 := h6 hne
  exact { decodesA := by rw [h3]; exact h.decodesA, decodesB := h.decodesB, header := by rw [h2]; exact h.header, src := rfl,
          fits := by rw [h2]; exact h.fits, whole := by rw [h2, h4]; exact hw, small := by rw [h4]; exact hs, curA := h7.cur_le,
          curB := by rw [h2]; exact h.curB, pos := by rw [h7.pos, Nat.add_mul]; simp only; omega }

theorem shared_entangled {f : Bytes → Option V} {base n : Nat} (data : Bytes) (N : Nat) (calls : List (Bool × ROp)) (a b : NpyReader V Src)
    (h : Sharing f base n a b) (hd : a.src.data = data) (hN : a.header.nRecords = N) (hop : InRange N (calls.map (·.2))) :
    ∃ rest, (shared M calls a b).map seen = (entangled (itemAt f data base n) N calls a.cur b.cur).map some ++ rest := by
  subst hd hN
  induction calls generalizing a b with
  | nil => exact ⟨[], rfl⟩
  | cons call calls ih =>
    obtain ⟨who, op⟩ := call
    have hop' : InRange a.header.nRecords (calls.map (·.2)) := fun o ho => hop o (by simp only [List.map_cons]; exact List.mem_cons_of_mem _ ho)
    have hop1 : InRange a.header.nRecords [op] := fun o ho => hop o (by rw [List.mem_singleton.mp ho]; exact List.mem_cons_self)
    cases who with
    | false =>
      obtain ⟨h1, h2, h3, h4, h5⟩ := h.step (M := M) op hop1
      simp only [shared, entangled, List.map_cons, List.cons_append, h1]
      generalize hx : (callAt (fun k => itemAt f a.src.data base n (k + b.cur)) a.header.nRecords a.cur op).1 = x at h5
      by_cases hne : x = .failed
      · subst hne; exact ⟨_, rfl⟩
      · obtain ⟨rest, hr⟩ := ih _ _ (h5 hne) (by rw [h2]; exact hop')
        rw [h2, h3, h4] at hr
        refine ⟨rest, ?_⟩
        rw [hr]
        cases x <;> first | rfl | exact absurd rfl hne
    | true =>
      obtain ⟨h1, h2, h3, h4, h5⟩ := h.swap.step (M := M) op (h.header ▸ hop1)
      rw [← h.header] at h1 h2 h4 h5
      rw [← h.src] at h1 h3 h4 h5
      simp only [shared, entangled, List.map_cons, List.cons_append, h1]
      generalize hx : (callAt (fun k => itemAt f a.src.data base n (k + a.cur)) a.header.nRecords b.cur op).1 = x at h5
      by_cases hne : x = .failed
      · subst hne; exact ⟨_, rfl⟩
      · obtain ⟨rest, hr⟩ := ih { a with src := (b.step M disk op).2.src } _ (h5 hne).swap hop'
        simp only [h3, h4] at hr
        refine ⟨rest, ?_⟩
        rw [hr]
        cases x <;> first | rfl | exact absurd rfl hne

theorem length_shared (calls : List (Bool × ROp)) (a b : NpyReader V Src) : (shared M calls a b).length = calls.length := by
  induction calls generalizing a b with
  | nil => rfl
  | cons call calls ih =>
    obtain ⟨who, op⟩ := call
    cases who <;> simp [shared, ih]

/-- C130, what happens: two readers made from the same open file, which is complete.  For every interleaving of their calls, up to the
first that fails, each call returns the element that is as many elements behind the requested one as the other reader has moved on. -/
theorem C130_entangled {f : NpyFile Src} {r : NpyReader t.Val Src} (ho : Opened M f.header) (h : f.data M t = .ok r)
    (hf : Fits f.src.pos size f.header) (hm : size ≤ M.isizeMax) (hb : f.src.pos + f.header.nRecords * size ≤ f.src.data.length)
    (hl : f.src.data.length < 2 ^ 63) (calls : List (Bool × ROp)) (hop : InRange f.header.nRecords (calls.map (·.2))) :
    ∃ rest, (shared M calls r r).map seen =
      (entangled (elementAt t f.header.dtype f.src.data f.src.pos size) f.header.nRecords calls 0 0).map some ++ rest := by
  obtain ⟨n, he, hnn, hr⟩ := opened_reads ho h
  have : n = size := by have := hf.size; rw [hnn] at this; cases this; rfl
  subst this
  obtain ⟨hp, p, hrd, rfl⟩ := data_ok_iff.mp h
  have hdec := (hr hm).decodes
  exact shared_entangled f.src.data f.header.nRecords calls _ _ ⟨hdec, hdec, rfl, rfl, hf, hb, hl, Nat.zero_le _, Nat.zero_le _, by simp⟩ rfl rfl hop

theorem callAt_ok {elem : Nat → Option V} {n : Nat} (hok : ∀ i, i < n → elem i ≠ none) {op : ROp} (hop : InRange n [op]) (i : Nat) :
    (callAt elem n i op).1 ≠ .failed := by
  have hl : ∀ k, k < n → look elem k ≠ .failed := by
    intro k hk
    obtain ⟨v, hv⟩ := Option.ne_none_iff_exists'.mp (hok k hk)
    simp [look, hv]
  cases op with
  | next =>
    simp only [callAt]
    by_cases h : i < n
    · rw [if_pos h]; exact hl i h
    · rw [if_neg h]; nofun
  | seekTo j => nofun
  | readAt j => exact hl j ((hop _ (List.mem_singleton.mpr rfl)).2 j rfl)

theorem unlessFailed_ok {x : Seen V} (h : x ≠ .failed) (rest : List (Seen V)) : unlessFailed x rest = rest := by
  cases x <;> first | rfl | exact absurd rfl h

theorem turn_first {elem : Nat → Option V} {n : Nat} (hok : ∀ i, i < n → elem i ≠ none) (rest : List (Bool × ROp))
    (hr : entangled elem n rest 0 0 = apart elem n rest 0 0) (ops : List ROp) (hop : InRange n ops) (i : Nat) :
    entangled elem n ((ops ++ [ROp.seekTo 0]).map (fun op => (false, op)) ++ rest) i 0 =
      apart elem n ((ops ++ [ROp.seekTo 0]).map (fun op => (false, op)) ++ rest) i 0 := by
  induction ops generalizing i with
  | nil => simp [entangled, apart, callAt, unlessFailed, hr]
  | cons op ops ih =>
    have h1 := callAt_ok hok (op := op) (fun o ho => hop o (by rw [List.mem_singleton.mp ho]; exact List.mem_cons_self)) i
    simp only [List.cons_append, List.map_cons, entangled, apart, Nat.add_zero]
    rw [unlessFailed_ok h1, ih (fun o ho => hop o (List.mem_cons_of_mem _ ho))]

theorem turn_second {elem : Nat → Option V} {n : Nat} (hok : ∀ i, i < n → elem i ≠ none) (rest : List (Bool × ROp))
    (hr : entangled elem n rest 0 0 = apart elem n rest 0 0) (ops : List ROp) (hop : InRange n ops) (i : Nat) :
    entangled elem n ((ops ++ [ROp.seekTo 0]).map (fun op => (true, op)) ++ rest) 0 i =
      apart elem n ((ops ++ [ROp.seekTo 0]).map (fun op => (true, op)) ++ rest) 0 i := by
  induction ops generalizing i with
  | nil => simp [entangled, apart, callAt, unlessFailed, hr]
  | cons op ops ih =>
    have h1 := callAt_ok hok (op := op) (fun o ho => hop o (by rw [List.mem_singleton.mp ho]; exact List.mem_cons_self)) i
    simp only [List.cons_append, List.map_cons, entangled, apart, Nat.add_zero]
    rw [unlessFailed_ok h1, ih (fun o ho => hop o (List.mem_cons_of_mem _ ho))]

theorem turns_apart {elem : Nat → Option V} {n : Nat} (hok : ∀ i, i < n → elem i ≠ none) (turns : List (Bool × List ROp))
    (hop : ∀ turn ∈ turns, InRange n turn.2) :
    entangled elem n (takingTurns turns) 0 0 = apart elem n (takingTurns turns) 0 0 := by
  induction turns with
  | nil => rfl
  | cons turn turns ih =>
    obtain ⟨who, ops⟩ := turn
    have hrest := ih (fun turn h => hop turn (List.mem_cons_of_mem _ h))
    have h := hop (who, ops) List.mem_cons_self
    simp only [takingTurns, List.flatMap_cons] at hrest ⊢
    cases who with
    | false => exact turn_first hok _ hrest ops h 0
    | true => exact turn_second hok _ hrest ops h 0

theorem length_apart {elem : Nat → Option V} {n : Nat} (calls : List (Bool × ROp)) (i j : Nat) : (apart elem n calls i j).length = calls.length := by
  induction calls generalizing i j with
  | nil => rfl
  | cons call calls ih =>
    obtain ⟨who, op⟩ := call
    cases who <;> simp [apart, ih]

/-- C130, the part that holds: two readers of the same open file return what they should if they take turns, and each of them goes back
to the first element at the end of its turn.  Missing: other interleavings of the calls, see `C130_violated` and `C130_entangled`. -/
theorem C130_turns_partial {f : NpyFile Src} {r : NpyReader t.Val Src} (ho : Opened M f.header) (h : f.data M t = .ok r)
    (hf : Fits f.src.pos size f.header) (hm : size ≤ M.isizeMax) (hb : f.src.pos + f.header.nRecords * size ≤ f.src.data.length)
    (hl : f.src.data.length < 2 ^ 63)
    (hok : ∀ i, i < f.header.nRecords → elementAt t f.header.dtype f.src.data f.src.pos size i ≠ none)
    (turns : List (Bool × List ROp)) (hop : ∀ turn ∈ turns, InRange f.header.nRecords turn.2) :
    (shared M (takingTurns turns) r r).map seen =
      (apart (elementAt t f.header.dtype f.src.data f.src.pos size) f.header.nRecords (takingTurns turns) 0 0).map some := by
  have hin : InRange f.header.nRecords ((takingTurns turns).map (·.2)) := by
    intro op hmem
    simp only [takingTurns, List.mem_map, List.mem_flatMap] at hmem
    obtain ⟨c, ⟨turn, ht, op', ho', rfl⟩, rfl⟩ := hmem
    rcases List.mem_append.mp ho' with h1 | h1
    · exact hop turn ht op' h1
    · rw [List.mem_singleton.mp h1]
      exact ⟨fun j hj => (by cases hj; exact Nat.zero_le _), fun j hj => nomatch hj⟩
  obtain ⟨rest, hr⟩ := C130_entangled ho h hf hm hb hl (takingTurns turns) hin
  rw [turns_apart hok turns hop] at hr
  have := congrArg List.length hr
  rw [List.length_map, List.length_append, List.length_map, length_shared, length_apart] at this
  rw [hr, List.eq_nil_of_length_eq_zero (by omega : rest.length = 0), List.append_nil]

/-- C130 is violated for every array of at least two elements: after one reader has read the first element, `read_at(0)` of the other
one returns the second. -/
theorem C130_disturbed {f : NpyFile Src} {r : NpyReader t.Val Src} (ho : Opened M f.header) (h : f.data M t = .ok r)
    (hf : Fits f.src.pos size f.header) (hm : size ≤ M.isizeMax) (hb : f.src.pos + f.header.nRecords * size ≤ f.src.data.length)
    (hl : f.src.data.length < 2 ^ 63) (hn : 2 ≤ f.header.nRecords) {v w : t.Val}
    (hv : elementAt t f.header.dtype f.src.data f.src.pos size 0 = some v)
    (hw : elementAt t f.header.dtype f.src.data f.src.pos size 1 = some w) :
    (shared M [(false, .readAt 0), (true, .readAt 0)] r r).map seen = [some (.value v), some (.value w)] := by
  obtain ⟨rest, hr⟩ := C130_entangled ho h hf hm hb hl [(false, .readAt 0), (true, .readAt 0)]
    (by intro op hop; simp at hop; subst hop; exact ⟨fun j hj => (by cases hj), fun j hj => (by cases hj; omega)⟩)
  have e : entangled (elementAt t f.header.dtype f.src.data f.src.pos size) f.header.nRecords [(false, .readAt 0), (true, .readAt 0)] 0 0 =
      [.value v, .value w] := by
    simp [entangled, callAt, look, hv, hw, unlessFailed]
  rw [e] at hr
  have := congrArg List.length hr
  rw [List.length_map, List.length_append, length_shared] at this
  simp only [List.map_cons, List.map_nil, List.length_cons, List.length_nil] at this
  rw [hr, List.eq_nil_of_length_eq_zero (by omega : rest.length = 0)]
  rfl

def floatOf (i : Nat) : Option (BitVec 64) := elementAt f64 (.plain ⟨.little, .float, 8, none⟩) twoFloats 66 8 i

/-- C130 is violated: a file of two floats is opened twice from its beginning; both readers ask for the first element, and the second of
them gets another one, without an error. -/
theorem C130_violated : ∃ (f : NpyFile Src) (r : NpyReader f64.Val Src) (v w : BitVec 64),
    NpyFile.new ⟨false, 64, true⟩ Py.parse disk ⟨twoFloats, 0⟩ = (.ok f, f.src) ∧ f.data ⟨false, 64, true⟩ f64 = .ok r ∧
    (shared ⟨false, 64, true⟩ [(false, .readAt 0), (true, .readAt 0)] r r).map seen = [some (.value v), some (.value w)] ∧ v ≠ w := by
  obtain ⟨f, r, h1, h0, h2, h3, h4, h5, h6⟩ := twoFloats_reader
  have hd : f.src.data = twoFloats := (new_disk h0).2.2.1
  have hl : twoFloats.length = 82 := by decide +kernel
  have hp : f.src.pos = 66 := by rw [hd, hl] at h5; omega
  refine ⟨f, r, 258#64, 772#64, h0, h2, ?_, by decide⟩
  refine C130_disturbed h1 h2 h3 (by decide) (by rw [h4]; omega) (by rw [hd, hl]; decide) (by omega) ?_ ?_
  · rw [h6, hd, hp]; exact (by decide +kernel : floatOf 0 = some 258#64)
  · rw [h6, hd, hp]; exact (by decide +kernel : floatOf 1 = some 772#64)

/-! ### Concrete cases -/

/-- C130_entangled, C130_turns_partial: two turns on the file of two floats. -/
example : ∃ (f : NpyFile Src) (r : NpyReader f64.Val Src),
    NpyFile.new ⟨false, 64, true⟩ Py.parse disk ⟨twoFloats, 0⟩ = (.ok f, f.src) ∧
    (shared ⟨false, 64, true⟩ (takingTurns [(false, [.next, .next]), (true, [.readAt 1]), (false, [.next])]) r r).map seen =
      (apart (elementAt f64 f.header.dtype f.src.data f.src.pos 8) 2
        [(false, .next), (false, .next), (false, .seekTo 0), (true, .readAt 1), (true, .seekTo 0), (false, .next), (false, .seekTo 0)] 0 0).map some := by
  obtain ⟨f, r, h1, h0, h2, h3, h4, h5, h6⟩ := twoFloats_reader
  have hd : f.src.data = twoFloats := (new_disk h0).2.2.1
  have hl : twoFloats.length = 82 := by decide +kernel
  have := C130_turns_partial h1 h2 h3 (by decide) (by rw [h4]; omega) (by rw [hd, hl]; decide) (twoFloats_elements h4 h5 h6)
    [(false, [.next, .next]), (true, [.readAt 1]), (false, [.next])]
    (by rw [h4]; intro turn ht op ho; simp at ht; rcases ht with rfl | rfl | rfl <;> simp at ho <;> subst ho <;> simp)
  exact ⟨f, r, h0, h4 ▸ this⟩

/-- C130_disturbed: its hypotheses are met by `C130_violated`; what should have been returned is the first element twice. -/
example : apart (fun i => some (10 * i)) 3 [(false, .readAt 0), (true, .readAt 0), (false, .next)] 0 0 = [.value 0, .value 0, .value 10] ∧
    entangled (fun i => some (10 * i)) 3 [(false, .readAt 0), (true, .readAt 0), (false, .next)] 0 0 = [.value 0, .value 10, .value 20] := by
  constructor <;> rfl

end Npyz.Props
