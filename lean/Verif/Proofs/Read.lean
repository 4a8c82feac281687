import Verif.Spec.Read
import Verif.Proofs.Header
import Verif.Proofs.CodecDefault
/-! Facts about files, readers and sources. -/
namespace Npyz
open Spec

theorem shapeProduct_lt {M : Machine} {shape : List Nat} {acc n : Nat} (ha : acc < 2 ^ 64)
    (h : shapeProduct M acc shape = .ok n) : n < 2 ^ 64 := by
  induction shape generalizing acc with
  | nil => cases h; exact ha
  | cons x xs ih =>
    simp only [shapeProduct, Out.bind_eq_ok] at h
    obtain ⟨a, h1, h2⟩ := h
    refine ih ?_ h2
    unfold Machine.mulU64 at h1
    split at h1
    · rename_i hl; cases h1; exact hl
    · split at h1
      · cases h1
      · cases h1; exact Nat.mod_lt _ (by decide)

theorem opened {M : Machine} {h : NpyHeader} (ho : Opened M h) : h.dtype.Wf ∧ h.nRecords < 2 ^ 64 ∧
    h.usesPickled = h.dtype.usesPickled ∧
    ((HasObject h.dtype ∧ h.itemSize = none) ∨ (¬ HasObject h.dtype ∧ AllFit M.usizeLim h.dtype ∧ ∃ n, exactBytes h.dtype = some n ∧ h.itemSize = some n)) := by
  obtain ⟨py, bs, rest, hr⟩ := ho
  obtain ⟨v, r, h1, h2⟩ := RProg.run_bind_ok.mp hr
  cases v with
  | dict kvs =>
    simp only [RProg.run_lift, Prod.mk.injEq] at h2
    obtain ⟨_, b, vs, vd, shape, d, _, _, _, _, h5, h6⟩ := interpretHeader_ok_iff.mp h2.1
    obtain ⟨k1, k2, k3, k4, k5, k6, k7⟩ := fromParts_ok h6
    rw [k1]
    exact ⟨(fromDescr_wf _ _ h5).1, shapeProduct_lt (by decide) k4, k7, itemSizeOf_ok_iff.mp k6⟩
  | _ => simp [interpretHeader] at h2

theorem data_ok_iff {M : Machine} {σ : Type} {t : Ty} {f : NpyFile σ} {r : NpyReader t.Val σ} :
    f.data M t = .ok r ↔ f.header.usesPickled = false ∧ ∃ p, t.reader M f.header.dtype = .ok p ∧ r = ⟨f.header, p, f.src, 0⟩ := by
  unfold NpyFile.data NpyFile.dataWith NpyHeader.forbidPickle
  cases hp : f.header.usesPickled with
  | true => simp
  | false =>
    simp only [Bool.false_eq_true, if_false, Out.bind_ok, true_and]
    rw [Out.bind_eq_ok]
    constructor
    · rintro ⟨p, h1, h2⟩; cases h2; exact ⟨p, h1, rfl⟩
    · rintro ⟨p, h1, rfl⟩; exact ⟨p, h1, rfl⟩

/-- A reader over an opened file reads its elements. -/
theorem opened_reads {M : Machine} {σ : Type} {t : Ty} {f : NpyFile σ} {r : NpyReader t.Val σ} (ho : Opened M f.header)
    (h : f.data M t = .ok r) : ∃ n, exactBytes f.header.dtype = some n ∧ f.header.itemSize = some n ∧
      (n ≤ M.isizeMax → Reads r.prog n (decode t f.header.dtype)) := by
  obtain ⟨hp, p, hr, rfl⟩ := data_ok_iff.mp h
  obtain ⟨hw, -, h1, h2⟩ := opened ho
  rw [h1] at hp
  rcases h2 with ⟨h2, -⟩ | ⟨-, -, n, h3, h4⟩
  · rw [(usesPickled_iff _).mpr h2] at hp; cases hp
  · exact ⟨n, h3, h4, fun hm => reader_reads t hr hw h3 hm⟩

/-! ### Reading one item from disk -/

theorem Reads.decodes {V : Type} {p : RProg V} {n : Nat} {f : Bytes → Option V} (h : Reads p n f) : Decodes p n f where
  ok := h.ok
  bad bs rest h1 h2 := by obtain ⟨why, k, -, h⟩ := h.bad bs rest h1 h2; exact ⟨_, by rw [h]⟩
  short bs h1 := by obtain ⟨e, r, h, -⟩ := h.short bs h1; exact ⟨e, by rw [h]⟩

theorem Src.leave_rest (s : Src) (n : Nat) (h : n ≤ s.rest.length) : s.leave (s.rest.drop n) = { s with pos := s.pos + n } := by
  simp only [Src.leave, List.length_drop]
  congr 2
  omega

theorem disk_exec_iff {V : Type} {f : Bytes → Option V} {n : Nat} {p : RProg V} (hr : Decodes p n f) (s : Src)
    (v : V) : (disk.exec p s).1 = .ok v ↔ n ≤ s.rest.length ∧ f (s.rest.take n) = some v := by
  show (p.run s.rest).1 = .ok v ↔ _
  by_cases hl : n ≤ s.rest.length
  · have hlen : (s.rest.take n).length = n := by simp; omega
    have hsplit := (List.take_append_drop n s.rest).symm
    cases hf : f (s.rest.take n) with
    | none =>
      obtain ⟨e, hb⟩ := hr.bad _ (s.rest.drop n) hlen hf
      rw [← hsplit] at hb
      simp [hb]
    | some v' =>
      have := hr.ok _ (s.rest.drop n) v' hlen hf
      rw [← hsplit] at this
      simp [this, hl]
  · obtain ⟨e, he⟩ := hr.short s.rest (by omega)
    simp [he, hl]

theorem disk_exec_src {V : Type} {f : Bytes → Option V} {n : Nat} {p : RProg V} (hr : Decodes p n f) {s : Src}
    {v : V} (h : (disk.exec p s).1 = .ok v) : (disk.exec p s).2 = { s with pos := s.pos + n } := by
  obtain ⟨hl, hv⟩ := (disk_exec_iff hr s v).mp h
  have hlen : (s.rest.take n).length = n := by simp; omega
  have := hr.ok _ (s.rest.drop n) v hlen hv
  rw [List.take_append_drop] at this
  show s.leave (p.run s.rest).2 = _
  rw [this]
  exact Src.leave_rest s n hl

theorem disk_exec_total {V : Type} {f : Bytes → Option V} {n : Nat} {p : RProg V} (hr : Decodes p n f) (s : Src) :
    (∃ v, (disk.exec p s).1 = .ok v) ∨ (∃ e, (disk.exec p s).1 = .err e) := by
  show (∃ v, (p.run s.rest).1 = .ok v) ∨ (∃ e, (p.run s.rest).1 = .err e)
  by_cases hl : n ≤ s.rest.length
  · have hlen : (s.rest.take n).length = n := by simp; omega
    have hsplit := (List.take_append_drop n s.rest).symm
    cases hf : f (s.rest.take n) with
    | none =>
      obtain ⟨e, hb⟩ := hr.bad _ (s.rest.drop n) hlen hf
      rw [← hsplit] at hb
      exact .inr ⟨_, hb⟩
    | some v' =>
      have := hr.ok _ (s.rest.drop n) v' hlen hf
      rw [← hsplit] at this
      exact .inl ⟨v', by rw [this]⟩
  · obtain ⟨e, he⟩ := hr.short s.rest (by omega)
    exact .inr ⟨e, he⟩

theorem itemAt_iff {V : Type} {f : Bytes → Option V} {s : Src} {base n i : Nat} (hb : base ≤ s.data.length) (hp : s.pos = base + i * n)
    (v : V) : itemAt f s.data base n i = some v ↔ n ≤ s.rest.length ∧ f (s.rest.take n) = some v := by
  unfold itemAt Src.rest
  rw [hp, List.length_drop]
  have e : (i + 1) * n = i * n + n := by rw [Nat.add_mul, Nat.one_mul]
  rw [e]
  by_cases h : base + (i * n + n) ≤ s.data.length
  · rw [if_pos h]
    constructor
    · exact fun hv => ⟨by omega, hv⟩
    · exact fun hv => hv.2
  · rw [if_neg h]
    constructor
    · intro hv; cases hv
    · rintro ⟨h1, -⟩
      have : n = 0 ∨ 0 < n := by omega
      rcases this with rfl | h2
      · simp at h; omega
      · omega

/-! ### Seeking -/

theorem wrapI64_small {n : Nat} (h : n < 2 ^ 63) : wrapI64 n = n := by
  unfold wrapI64
  omega

theorem i64_small {M : Machine} {x : Int} (h1 : -2 ^ 63 ≤ x) (h2 : x < 2 ^ 63) : M.i64 x = .ok x := by
  unfold Machine.i64; rw [if_pos ⟨h1, h2⟩]

/-- Seeking within an array that is not too large moves to the item. -/
theorem seekTo_disk {M : Machine} {V : Type} {r : NpyReader V Src} {n base i : Nat}
    (hsz : r.header.itemSize = some n) (hN : r.header.nRecords < 2 ^ 63) (hNn : r.header.nRecords * n < 2 ^ 63)
    (hb : base + r.header.nRecords * n < 2 ^ 64) (hc : r.cur ≤ r.header.nRecords) (hp : r.src.pos = base + r.cur * n)
    (hi : i ≤ r.header.nRecords) :
    r.seekTo M disk i = (.ok (), { r with src := { r.src with pos := base + i * n }, cur := i }) := by
  unfold NpyReader.seekTo NpyReader.totalLen
  rw [if_pos hi, wrapI64_small (by omega), wrapI64_small (by omega), i64_small (by omega) (by omega)]
  simp only
  by_cases hd : (i : Int) - r.cur = 0
  · rw [if_neg (by simpa using hd)]
    have : i = r.cur := by omega
    subst this
    obtain ⟨h, p, ⟨dat, pos⟩, c⟩ := r
    simp only at hp ⊢
    rw [hp]
  · rw [if_pos hd]
    have hpos : 0 < r.header.nRecords := by omega
    have hn63 : n < 2 ^ 63 := by
      have : n ≤ r.header.nRecords * n := Nat.le_mul_of_pos_left n hpos
      omega
    unfold NpyReader.seekBy
    rw [hsz]
    simp only
    have e1 : ((i : Int) - r.cur) * (n : Int) = ((i * n : Nat) : Int) - ((r.cur * n : Nat) : Int) := by
      rw [Int.sub_mul]; simp
    have b1 : i * n ≤ r.header.nRecords * n := Nat.mul_le_mul_right n hi
    have b2 : r.cur * n ≤ r.header.nRecords * n := Nat.mul_le_mul_right n hc
    rw [wrapI64_small hn63, e1, i64_small (by omega) (by omega)]
    have e2 : (r.src.pos : Int) + (((i * n : Nat) : Int) - ((r.cur * n : Nat) : Int)) = ((base + i * n : Nat) : Int) := by
      rw [hp]; omega
    simp only [disk, Src.seek, e2]
    rw [if_pos ⟨by omega, by unfold u64Lim; omega⟩, Int.toNat_natCast]

/-! ### Sessions on disk -/

/-- The reader is at an item boundary. -/
structure AtItem {V : Type} (base n : Nat) (r : NpyReader V Src) : Prop where
  cur_le : r.cur ≤ r.header.nRecords
  pos : r.src.pos = base + r.cur * n

theorem next_some {V : Type} {σ : Type} {S : Source σ} {r : NpyReader V σ} (h : r.cur < r.header.nRecords) :
    r.next S = (some (S.exec r.prog r.src).1, { r with src := (S.exec r.prog r.src).2, cur := r.cur + 1 }) := by
  unfold NpyReader.next; rw [if_pos h]

theorem next_none {V : Type} {σ : Type} {S : Source σ} {r : NpyReader V σ} (h : ¬ r.cur < r.header.nRecords) :
    r.next S = (none, r) := by
  unfold NpyReader.next; rw [if_neg h]

/-- `read_at` is `seek_to` and `next`. -/
theorem readAt_eq {V : Type} {σ : Type} {M : Machine} {S : Source σ} {r r' : NpyReader V σ} {i : Nat} (hi : i < r.header.nRecords)
    (hs : r.seekTo M S i = (.ok (), r')) (hr' : r'.header = r.header) (hc : r'.cur = i) :
    r.readAt M S i = ((S.exec r'.prog r'.src).1, { r' with src := (S.exec r'.prog r'.src).2, cur := i + 1 }) := by
  unfold NpyReader.readAt NpyReader.totalLen
  rw [if_pos hi, hs]
  simp only [NpyReader.nextUnwrap]
  rw [next_some (by rw [hr', hc]; exact hi), hc]

variable {M : Machine} {V : Type}

/-- One item read at an item boundary. -/
theorem read_item {f : Bytes → Option V} {base n : Nat} {r : NpyReader V Src} (hr : Decodes r.prog n f) (ha : AtItem base n r)
    (hb : base ≤ r.src.data.length) (hlt : r.cur < r.header.nRecords) {o : Res V → ROut V}
    (ho : o = (fun x => .item (some x)) ∨ o = .value) :
    seen (o (disk.exec r.prog r.src).1) = some (look (itemAt f r.src.data base n) r.cur) ∧
    (∀ v, look (itemAt f r.src.data base n) r.cur = .value v →
      (disk.exec r.prog r.src).2 = { r.src with pos := base + (r.cur + 1) * n }) := by
  have key := fun v => (disk_exec_iff hr r.src v).trans (itemAt_iff (f := f) hb ha.pos v).symm
  cases he : itemAt f r.src.data base n r.cur with
  | none =>
    constructor
    · rcases disk_exec_total hr r.src with ⟨v, hv⟩ | ⟨e, hv⟩
      · rw [(key v).mp hv] at he; cases he
      · rcases ho with rfl | rfl <;> rw [hv] <;> simp [seen, look, he]
    · intro v hv; simp [look, he] at hv
  | some v =>
    have hv := (key v).mpr he
    constructor
    · rcases ho with rfl | rfl <;> rw [hv] <;> simp [seen, look, he]
    · intro _ _
      rw [disk_exec_src hr hv, ha.pos, Nat.add_mul, Nat.one_mul, Nat.add_assoc]

/-- The state of a reader after a call, apart from its source. -/
theorem steps_cons {σ : Type} {S : Source σ} {r : NpyReader V σ} {op : ROp} {ops : List ROp} :
    r.steps M S (op :: ops) = ((r.step M S op).1 :: ((r.step M S op).2.steps M S ops).1, ((r.step M S op).2.steps M S ops).2) := rfl

/-- One step on disk: what is seen is what is expected, and unless it failed, the reader is at the
next item. -/
theorem step_disk {f : Bytes → Option V} {base n : Nat} {r : NpyReader V Src} (hr : Decodes r.prog n f) (hf : Fits base n r.header)
    (ha : AtItem base n r) (hb : base ≤ r.src.data.length) (op : ROp) (hop : InRange r.header.nRecords [op]) :
    ∃ x i, expected (itemAt f r.src.data base n) r.header.nRecords [op] r.cur = [x] ∧
      (∀ ops, expected (itemAt f r.src.data base n) r.header.nRecords (op :: ops) r.cur =
        x :: expected (itemAt f r.src.data base n) r.header.nRecords ops i) ∧
      seen (r.step M disk op).1 = some x ∧
      (r.step M disk op).2.header = r.header ∧ (r.step M disk op).2.prog = r.prog ∧
      (r.step M disk op).2.src.data = r.src.data ∧ (r.step M disk op).2.cur = i ∧
      (x ≠ .failed → AtItem base n (r.step M disk op).2) := by
  cases op with
  | next =>
    by_cases hlt : r.cur < r.header.nRecords
    · obtain ⟨h1, h2⟩ := read_item hr ha hb hlt (.inl rfl)
      refine ⟨look (itemAt f r.src.data base n) r.cur, r.cur + 1, by simp [expected, hlt], fun ops => by simp [expected, hlt], ?_⟩
      simp only [NpyReader.step, next_some hlt]
      refine ⟨h1, trivial, trivial, rfl, trivial, ?_⟩
      intro hne
      cases hl : look (itemAt f r.src.data base n) r.cur with
      | value v =>
        have := h2 v hl
        rw [this]
        exact ⟨hlt, rfl⟩
      | failed => exact absurd hl hne
      | done => simp only [look] at hl; split at hl <;> cases hl
      | moved => simp only [look] at hl; split at hl <;> cases hl
    · refine ⟨.done, r.cur, by simp [expected, hlt], fun ops => by simp [expected, hlt], ?_⟩
      simp only [NpyReader.step, next_none hlt]
      exact ⟨rfl, trivial, trivial, trivial, trivial, fun _ => ha⟩
  | seekTo j =>
    have hj := (hop _ (List.mem_singleton.mpr rfl)).1 j rfl
    refine ⟨.moved, j, by simp [expected], fun ops => by simp [expected], ?_⟩
    simp only [NpyReader.step, seekTo_disk hf.size hf.count hf.bytes hf.last ha.cur_le ha.pos hj]
    exact ⟨rfl, trivial, trivial, trivial, trivial, fun _ => ⟨hj, rfl⟩⟩
  | readAt j =>
    have hj := (hop _ (List.mem_singleton.mpr rfl)).2 j rfl
    have hs := seekTo_disk (M := M) hf.size hf.count hf.bytes hf.last ha.cur_le ha.pos (Nat.le_of_lt hj)
    have hat : AtItem base n ({ r with src := { r.src with pos := base + j * n }, cur := j } : NpyReader V Src) := ⟨Nat.le_of_lt hj, rfl⟩
    obtain ⟨h1, h2⟩ := read_item (r := { r with src := { r.src with pos := base + j * n }, cur := j }) hr hat hb hj (.inr rfl)
    refine ⟨look (itemAt f r.src.data base n) j, j + 1, by simp [expected], fun ops => by simp [expected], ?_⟩
    simp only [NpyReader.step, readAt_eq hj hs rfl rfl]
    refine ⟨h1, trivial, trivial, rfl, trivial, ?_⟩
    intro hne
    cases hl : look (itemAt f r.src.data base n) j with
    | value v =>
      have := h2 v hl
      rw [this]
      exact ⟨hj, rfl⟩
    | failed => exact absurd hl hne
    | done => simp only [look] at hl; split at hl <;> cases hl
    | moved => simp only [look] at hl; split at hl <;> cases hl

/-- Histories without failures. -/
theorem steps_disk {f : Bytes → Option V} {base n : Nat} {r : NpyReader V Src} (hr : Decodes r.prog n f) (hf : Fits base n r.header)
    (ha : AtItem base n r) (hb : base ≤ r.src.data.length) (ops : List ROp) (hop : InRange r.header.nRecords ops)
    (hok : Seen.failed ∉ (expected (itemAt f r.src.data base n) r.header.nRecords ops r.cur).dropLast) :
    (r.steps M disk ops).1.map seen = (expected (itemAt f r.src.data base n) r.header.nRecords ops r.cur).map some := by
  induction ops generalizing r with
  | nil => rfl
  | cons op ops ih =>
    obtain ⟨x, i, -, h1, h2, h3, h4, h5, h6, h7⟩ := step_disk (M := M) hr hf ha hb op
      (fun o ho => hop o (by rw [List.mem_singleton.mp ho]; exact List.mem_cons_self))
    rw [steps_cons, h1]
    simp only [List.map_cons, h2]
    congr 1
    cases ops with
    | nil => rfl
    | cons op' ops =>
      rw [h1] at hok
      have hne : expected (itemAt f r.src.data base n) r.header.nRecords (op' :: ops) i ≠ [] := by
        cases op' <;> simp only [expected] <;> (try split) <;> simp
      rw [List.dropLast_cons_of_ne_nil hne] at hok
      simp only [List.mem_cons, not_or] at hok
      have hx : x ≠ .failed := fun h => hok.1 h.symm
      rw [← h5, ← h3, ← h6]
      refine ih (r := (r.step M disk op).2) (by rw [h4]; exact hr) (by rw [h3]; exact hf) (h7 hx) (by rw [h5]; exact hb)
        (by rw [h3]; exact fun o ho => hop o (List.mem_cons_of_mem _ ho)) ?_
      rw [h5, h3, h6]
      exact hok.2

/-- Programs that consume the whole item even if it is malformed. -/
def Whole {α : Type} (p : RProg α) (n : Nat) : Prop :=
  ∀ bs rest, bs.length = n → (p.run (bs ++ rest)).2 = rest

/-- Histories with malformed elements, for programs that consume whole items. -/
theorem steps_disk_whole {f : Bytes → Option V} {base n : Nat} {r : NpyReader V Src} (hr : Decodes r.prog n f) (hwh : Whole r.prog n)
    (hf : Fits base n r.header) (ha : AtItem base n r) (hb : base + r.header.nRecords * n ≤ r.src.data.length)
    (ops : List ROp) (hop : InRange r.header.nRecords ops) :
    (r.steps M disk ops).1.map seen = (expected (itemAt f r.src.data base n) r.header.nRecords ops r.cur).map some := by
  have whole : ∀ r' : NpyReader V Src, AtItem base n r' → r'.header = r.header → r'.src.data = r.src.data → r'.prog = r.prog →
      r'.cur < r'.header.nRecords → (disk.exec r'.prog r'.src).2 = { r'.src with pos := base + (r'.cur + 1) * n } := by
    intro r' h1 h2 h3 h4 h5
    have e : (r'.cur + 1) * n = r'.cur * n + n := by rw [Nat.add_mul, Nat.one_mul]
    have hle : (r'.cur + 1) * n ≤ r.header.nRecords * n := Nat.mul_le_mul_right n (by rw [← h2]; omega)
    have hl : n ≤ r'.src.rest.length := by
      unfold Src.rest; rw [h3, h1.pos, List.length_drop]; omega
    have := hwh (r'.src.rest.take n) (r'.src.rest.drop n) (by simp; omega)
    rw [List.take_append_drop] at this
    show r'.src.leave (r'.prog.run r'.src.rest).2 = _
    rw [h4, this, Src.leave_rest _ _ hl, h1.pos, e, Nat.add_assoc]
  induction ops generalizing r with
  | nil => rfl
  | cons op ops ih =>
    obtain ⟨x, i, -, h1, h2, h3, h4, h5, h6, h7⟩ := step_disk (M := M) hr hf ha (by omega) op
      (fun o ho => hop o (by rw [List.mem_singleton.mp ho]; exact List.mem_cons_self))
    rw [steps_cons, h1]
    simp only [List.map_cons, h2]
    congr 1
    have hat : AtItem base n (r.step M disk op).2 := by
      cases op with
      | next =>
        by_cases hlt : r.cur < r.header.nRecords
        · simp only [NpyReader.step, next_some hlt]
          exact ⟨hlt, by simp only [whole r ha rfl rfl rfl hlt]⟩
        · simp only [NpyReader.step, next_none hlt]; exact ha
      | seekTo j =>
        refine h7 ?_
        have := h1 []
        simp only [expected] at this
        cases this; simp
      | readAt j =>
        have hj := (hop _ List.mem_cons_self).2 j rfl
        have hs := seekTo_disk (M := M) hf.size hf.count hf.bytes hf.last ha.cur_le ha.pos (Nat.le_of_lt hj)
        have hat : AtItem base n ({ r with src := { r.src with pos := base + j * n }, cur := j } : NpyReader V Src) := ⟨Nat.le_of_lt hj, rfl⟩
        simp only [NpyReader.step, readAt_eq hj hs rfl rfl]
        refine ⟨hj, ?_⟩
        have := whole _ hat rfl rfl rfl hj
        simp only at this ⊢
        rw [this]
    rw [← h5, ← h3, ← h6]
    refine ih (r := (r.step M disk op).2) (by rw [h4]; exact hr) (by rw [h4]; exact hwh) (by rw [h3]; exact hf) hat (by rw [h5, h3]; exact hb)
      (by rw [h3]; exact fun o ho => hop o (List.mem_cons_of_mem _ ho)) ?_
    rw [h3, h4, h5]
    exact whole

/-! ### Collecting -/

theorem collectLoop_disk {f : Bytes → Option V} {base n : Nat} (k : Nat) {r : NpyReader V Src} (hr : Decodes r.prog n f)
    (ha : AtItem base n r) (hb : base ≤ r.src.data.length) (hk : k = r.header.nRecords - r.cur + 1) :
    (∃ e r', r.collectLoop disk k = (.err e, r') ∧ ∃ i, r.cur ≤ i ∧ i < r.header.nRecords ∧ itemAt f r.src.data base n i = none) ∨
    (∃ vs r', r.collectLoop disk k = (.ok vs, r') ∧ vs.length = r.header.nRecords - r.cur ∧
      (∀ i (h : i < vs.length), itemAt f r.src.data base n (r.cur + i) = some vs[i]) ∧
      r'.src = { r.src with pos := base + r.header.nRecords * n }) := by
  induction k generalizing r with
  | zero => omega
  | succ k ih =>
    by_cases hlt : r.cur < r.header.nRecords
    · have key := fun v => (disk_exec_iff hr r.src v).trans (itemAt_iff (f := f) hb ha.pos v).symm
      have hd := disk_exec_total hr r.src
      rcases hd with ⟨v, hv⟩ | ⟨e, hv⟩
      · have he := (key v).mp hv
        have hsrc := disk_exec_src hr hv
        have hat : AtItem base n ({ r with src := (disk.exec r.prog r.src).2, cur := r.cur + 1 } : NpyReader V Src) := by
          rw [hsrc]
          exact ⟨hlt, by simp only [ha.pos, Nat.add_mul, Nat.one_mul, Nat.add_assoc]⟩
        have hdat : (disk.exec r.prog r.src).2.data = r.src.data := by rw [hsrc]
        have := ih (r := { r with src := (disk.exec r.prog r.src).2, cur := r.cur + 1 }) hr hat (by simp only [hdat]; exact hb)
          (by simp only; omega)
        simp only [NpyReader.collectLoop, next_some hlt, hv]
        simp only [hdat] at this
        rcases this with ⟨e, r', h1, i, h2, h3, h4⟩ | ⟨vs, r', h1, h2, h3, h4⟩
        · refine .inl ⟨e, r', by rw [h1], i, by omega, h3, h4⟩
        · refine .inr ⟨v :: vs, r', by rw [h1], by simp [h2]; omega, ?_, ?_⟩
          · intro i hi
            cases i with
            | zero => simpa using he
            | succ i =>
              have := h3 i (by simpa using hi)
              rw [show r.cur + (i + 1) = r.cur + 1 + i by omega]
              simpa using this
          · rw [h4]
      · refine .inl ⟨e, _, by simp only [NpyReader.collectLoop, next_some hlt, hv]; rfl, r.cur, Nat.le_refl _, hlt, ?_⟩
        cases he : itemAt f r.src.data base n r.cur with
        | none => rfl
        | some v => rw [(key v).mpr he] at hv; cases hv
    · have hc : r.cur = r.header.nRecords := by have := ha.cur_le; omega
      refine .inr ⟨[], r, by simp only [NpyReader.collectLoop, next_none hlt], by simp [hc], by simp, ?_⟩
      have := ha.pos
      rw [hc] at this
      rw [← this]

variable {t : Ty}

/-! ### Whole items -/

theorem Whole.pure {α : Type} (a : α) : Whole (Pure.pure a : RProg α) 0 := by
  intro bs rest h
  rw [List.length_eq_zero_iff.mp h]; rfl

theorem Whole.lift {α : Type} (a : Res α) : Whole (RProg.lift a) 0 := by
  intro bs rest h
  rw [List.length_eq_zero_iff.mp h]; rfl

theorem Whole.readExact (n : Nat) : Whole (RProg.readExact n) n := by
  intro bs rest h
  rw [RProg.run_readExact, if_pos (by simp [h]), List.drop_left' h]

/-- A program that always succeeds, followed by any. -/
theorem Whole.bind {α β : Type} {p : RProg α} {n m : Nat} {f : α → RProg β} (hp : Whole p n)
    (hok : ∀ bs rest, bs.length = n → ∃ a, (p.run (bs ++ rest)).1 = .ok a) (hf : ∀ a, Whole (f a) m) : Whole (p >>= f) (n + m) := by
  intro bs rest h
  have h1 : (bs.take n).length = n := by simp; omega
  have h2 : (bs.drop n).length = m := by simp; omega
  have e : bs ++ rest = bs.take n ++ (bs.drop n ++ rest) := by rw [← List.append_assoc, List.take_append_drop]
  obtain ⟨a, ha⟩ := hok (bs.take n) (bs.drop n ++ rest) h1
  have hr : p.run (bs.take n ++ (bs.drop n ++ rest)) = (.ok a, bs.drop n ++ rest) := Prod.ext ha (hp _ _ h1)
  rw [e, RProg.run_bind_of_ok hr]
  exact hf a _ _ h2

theorem readExact_ok (n : Nat) (bs rest : Bytes) (h : bs.length = n) : ∃ a, ((RProg.readExact n).run (bs ++ rest)).1 = .ok a := by
  rw [RProg.run_readExact, if_pos (by simp [h])]; exact ⟨_, rfl⟩

/-- A reader that never fails on complete items consumes them whole. -/
theorem Reads.whole {α : Type} {p : RProg α} {n : Nat} {f : Bytes → Option α} (h : Reads p n f)
    (hf : ∀ bs, bs.length = n → f bs ≠ none) : Whole p n := by
  intro bs rest hl
  cases hv : f bs with
  | none => exact absurd hv (hf bs hl)
  | some v => rw [h.ok bs rest v hl hv]

theorem whole_readBytes {M : Machine} {info : ByteInfo} (h : info.size ≤ M.isizeMax) : Whole (readBytes M info) info.size := by
  unfold readBytes
  have : RProg.lift (M.allocBytes info.size) = (Pure.pure () : RProg Unit) := by
    unfold Machine.allocBytes; rw [if_pos h]; rfl
  rw [this]
  exact Whole.bind (Whole.readExact _) (readExact_ok _) (fun _ => Whole.pure _)

theorem readBytes_ok {M : Machine} {info : ByteInfo} (h : info.size ≤ M.isizeMax) (bs rest : Bytes) (hl : bs.length = info.size) :
    ∃ a, ((readBytes M info).run (bs ++ rest)).1 = .ok a := by
  unfold readBytes
  have : RProg.lift (M.allocBytes info.size) = (Pure.pure () : RProg Unit) := by
    unfold Machine.allocBytes; rw [if_pos h]; rfl
  rw [this]
  show ∃ a, ((RProg.readExact info.size >>= _).run (bs ++ rest)).1 = .ok a
  rw [RProg.run_bind, RProg.run_readExact, if_pos (by simp [hl])]
  exact ⟨_, rfl⟩

theorem whole_readUtf8 {M : Machine} {info : ByteInfo} (h : info.size ≤ M.isizeMax) : Whole (readUtf8String M info) info.size := by
  unfold readUtf8String
  exact Whole.bind (m := 0) (whole_readBytes h) (readBytes_ok h) (fun _ => Whole.lift _)

theorem whole_onePiece {M : Machine} {s : TypeStr} {n : Nat} (hu : s.typeChar ≠ .unicodeStr) (hw : s.Wf)
    (hn : exactBytes (.plain s) = some n) (hm : n ≤ M.isizeMax) : (t : Ty) → (∀ k t', t ≠ .array k t') → (∀ fs, t ≠ .record fs) →
    {p : RProg t.Val} → t.reader M (.plain s) = .ok p → Whole p n
  | .num q, _, _, p, h => (reader_reads _ h hw hn hm).whole fun bs hl => by simp [decode, onPlain]
  | .bool, _, _, p, h => by
    simp only [Ty.reader, Out.bind_eq_ok] at h
    obtain ⟨_, h1, h⟩ := h
    cases h
    obtain ⟨s', hs, h2, h3⟩ := checkBool_ok.mp h1
    cases hs
    have : n = 1 := by
      have := exact_other hn (by simp [h3])
      omega
    subst this
    exact Whole.bind (m := 0) (Whole.readExact 1) (readExact_ok 1) (fun _ => Whole.lift _)
  | .complex f, _, _, p, h => (reader_reads _ h hw hn hm).whole fun bs hl => by simp [decode, onPlain]
  | .vecU8, _, _, p, h => (reader_reads _ h hw hn hm).whole fun bs hl => by simp [decode, onPlain]
  | .arrayVecU8 k, _, _, p, h => (reader_reads _ h hw hn hm).whole fun bs hl => by simp [decode, onPlain]
  | .fixedBytes k, _, _, p, h => (reader_reads _ h hw hn hm).whole fun bs hl => by
      simp only [Ty.reader, Out.bind_eq_ok] at h
      obtain ⟨_, h1, h⟩ := h
      obtain ⟨s', hs, h2, h3⟩ := checkFixed_ok.mp h1
      cases hs
      have := exact_other hn hu
      have : bs.length = k := by omega
      simp [decode, onPlain, this]
  | .vecU32, _, _, p, h => by
    simp only [Ty.reader, Out.bind_eq_ok, checkUnicode_ok] at h
    obtain ⟨_, ⟨s', hs, h2, h3, _⟩, h⟩ := h
    cases hs; exact absurd h3 hu
  | .vecChar, _, _, p, h => by
    simp only [Ty.reader, Out.bind_eq_ok, checkUnicode_ok] at h
    obtain ⟨_, ⟨s', hs, h2, h3, _⟩, h⟩ := h
    cases hs; exact absurd h3 hu
  | .arrayVecU32 k, _, _, p, h => by
    simp only [Ty.reader, Out.bind_eq_ok, checkUnicodeArrayVec_ok] at h
    obtain ⟨_, ⟨s', hs, h2, h3, _⟩, h⟩ := h
    cases hs; exact absurd h3 hu
  | .arrayVecChar k, _, _, p, h => by
    simp only [Ty.reader, Out.bind_eq_ok, checkUnicodeArrayVec_ok] at h
    obtain ⟨_, ⟨s', hs, h2, h3, _⟩, h⟩ := h
    cases hs; exact absurd h3 hu
  | .string, _, _, p, h => by
    simp only [Ty.reader, Out.bind_eq_ok, readFormat_ok] at h
    obtain ⟨f, ⟨s', hs, -, ⟨hc, rfl⟩ | ⟨hc, rfl⟩⟩, h⟩ := h
    · cases h; cases hs
      have hs := exact_other hn hu
      subst hs
      exact whole_readUtf8 (info := ⟨s.size, true⟩) hm
    · cases hs; exact absurd hc hu
  | .arrayString k, _, _, p, h => by
    simp only [Ty.reader, Out.bind_eq_ok, readArrayFormat_ok] at h
    obtain ⟨f, ⟨s', hs, -, hc, rfl⟩, h⟩ := h
    cases h; cases hs
    have hs := exact_other hn hu
    subst hs
    intro bs rest hl
    have h1 := readBytes_ok (info := ⟨s.size, true⟩) hm bs rest hl
    have h2 := whole_readUtf8 (info := ⟨s.size, true⟩) hm bs rest hl
    show ((readUtf8String M ⟨s.size, true⟩ >>= fun s => RProg.lift (toArrayString k (popToBytes k s))).run (bs ++ rest)).2 = rest
    rw [RProg.run_bind]
    rcases hx : (readUtf8String M ⟨s.size, true⟩).run (bs ++ rest) with ⟨r, rest'⟩
    rw [hx] at h2
    cases r <;> exact h2
  | .array k t', ha, _, _, _ => absurd rfl (ha k t')
  | .record fs, _, hr, _, _ => absurd rfl (hr fs)

/-! ### Flaky sources -/

/-- The same reader on a well-behaved source. -/
def NpyReader.plain (r : NpyReader V FlakySrc) : NpyReader V Src := ⟨r.header, r.prog, r.src.src, r.cur⟩

theorem flaky_exec {α : Type} (p : RProg α) (s : FlakySrc) :
    (∃ evs, (∀ e ∈ evs, e ∈ s.evs) ∧ flaky.exec p s = ((disk.exec p s.src).1, ⟨(disk.exec p s.src).2, evs⟩)) ∨
    (∃ c, .fail c ∈ s.evs ∧ (flaky.exec p s).1 = .err (.source c)) := by
  rcases RProg.runSched_cases p s.src.rest s.evs with ⟨evs, h1, h2⟩ | h
  · refine .inl ⟨evs, h1, ?_⟩
    simp only [flaky, disk, h2]
  · exact .inr h

theorem flaky_seek (off : Int) (s : FlakySrc) :
    (∃ evs, (∀ e ∈ evs, e ∈ s.evs) ∧ flaky.seek off s = ((disk.seek off s.src).1, ⟨(disk.seek off s.src).2, evs⟩)) ∨
    (∃ c, .fail c ∈ s.evs ∧ (flaky.seek off s).1 = .err (.source c)) := by
  obtain ⟨src, evs⟩ := s
  cases evs with
  | nil => exact .inl ⟨[], by simp, rfl⟩
  | cons ev evs =>
    cases ev with
    | short k => exact .inl ⟨evs, fun e he => List.mem_cons_of_mem _ he, rfl⟩
    | interrupted => exact .inl ⟨evs, fun e he => List.mem_cons_of_mem _ he, rfl⟩
    | fail c => exact .inr ⟨c, List.mem_cons_self, rfl⟩

theorem flaky_seekTo (r : NpyReader V FlakySrc) (i : Nat) :
    ((r.seekTo M flaky i).1 = (r.plain.seekTo M disk i).1 ∧ (r.seekTo M flaky i).2.plain = (r.plain.seekTo M disk i).2 ∧
      ∀ e ∈ (r.seekTo M flaky i).2.src.evs, e ∈ r.src.evs) ∨
    (∃ c, .fail c ∈ r.src.evs ∧ (r.seekTo M flaky i).1 = .err (.source c)) := by
  unfold NpyReader.seekTo
  by_cases hi : i ≤ r.totalLen
  · have hi' : i ≤ r.plain.totalLen := hi
    rw [if_pos hi, if_pos hi']
    cases hd : M.i64 (wrapI64 i - wrapI64 r.cur) with
    | ok delta =>
      have hd' : M.i64 (wrapI64 i - wrapI64 r.plain.cur) = .ok delta := hd
      rw [hd']
      simp only
      by_cases hz : delta ≠ 0
      · simp only [if_pos hz, NpyReader.seekBy]
        have hsz : r.plain.header.itemSize = r.header.itemSize := rfl
        rw [hsz]
        cases r.header.itemSize with
        | none => exact .inl ⟨rfl, rfl, fun _ h => h⟩
        | some n =>
          simp only
          cases M.i64 (delta * wrapI64 n) with
          | ok off =>
            simp only
            have hsrc : r.plain.src = r.src.src := rfl
            rw [hsrc]
            rcases flaky_seek off r.src with ⟨evs, h1, h2⟩ | ⟨c, h1, h2⟩
            · rw [h2]
              left
              rcases disk.seek off r.src.src with ⟨(_ | _ | _), s⟩
              · exact ⟨rfl, rfl, h1⟩
              · exact ⟨rfl, rfl, h1⟩
              · exact ⟨rfl, rfl, h1⟩
            · right
              refine ⟨c, h1, ?_⟩
              rcases hx : flaky.seek off r.src with ⟨x, s⟩
              rw [hx] at h2
              simp only at h2
              subst h2
              rfl
          | err e => exact .inl ⟨rfl, rfl, fun _ h => h⟩
          | panic => exact .inl ⟨rfl, rfl, fun _ h => h⟩
      · rw [if_neg hz, if_neg hz]
        exact .inl ⟨rfl, rfl, fun _ h => h⟩
    | err e =>
      have hd' : M.i64 (wrapI64 i - wrapI64 r.plain.cur) = .err e := hd
      rw [hd']
      exact .inl ⟨rfl, rfl, fun _ h => h⟩
    | panic =>
      have hd' : M.i64 (wrapI64 i - wrapI64 r.plain.cur) = .panic := hd
      rw [hd']
      exact .inl ⟨rfl, rfl, fun _ h => h⟩
  · have hi' : ¬ i ≤ r.plain.totalLen := hi
    rw [if_neg hi, if_neg hi']
    exact .inl ⟨rfl, rfl, fun _ h => h⟩

theorem flaky_next (r : NpyReader V FlakySrc) :
    ((r.next flaky).1 = (r.plain.next disk).1 ∧ (r.next flaky).2.plain = (r.plain.next disk).2 ∧
      ∀ e ∈ (r.next flaky).2.src.evs, e ∈ r.src.evs) ∨
    (∃ c, .fail c ∈ r.src.evs ∧ (r.next flaky).1 = some (.err (.source c))) := by
  by_cases h : r.cur < r.header.nRecords
  · have h' : r.plain.cur < r.plain.header.nRecords := h
    rw [next_some h, next_some h']
    rcases flaky_exec r.prog r.src with ⟨evs, h1, h2⟩ | ⟨c, h1, h2⟩
    · rw [h2]
      exact .inl ⟨rfl, rfl, h1⟩
    · exact .inr ⟨c, h1, by rw [h2]⟩
  · have h' : ¬ r.plain.cur < r.plain.header.nRecords := h
    rw [next_none h, next_none h']
    exact .inl ⟨rfl, rfl, fun _ h => h⟩

/-- One call on a flaky source does what it does on a well-behaved one, or reports an error of the
source. -/
theorem flaky_step (r : NpyReader V FlakySrc) (op : ROp) :
    ((r.step M flaky op).1 = (r.plain.step M disk op).1 ∧ (r.step M flaky op).2.plain = (r.plain.step M disk op).2 ∧
      ∀ e ∈ (r.step M flaky op).2.src.evs, e ∈ r.src.evs) ∨
    (∃ c, .fail c ∈ r.src.evs ∧ FailsWith (.source c) (r.step M flaky op).1) := by
  cases op with
  | next =>
    simp only [NpyReader.step]
    rcases flaky_next r with ⟨h1, h2, h3⟩ | ⟨c, h1, h2⟩
    · exact .inl ⟨by rw [h1], h2, h3⟩
    · exact .inr ⟨c, h1, .inl (by rw [h2])⟩
  | seekTo i =>
    simp only [NpyReader.step]
    rcases flaky_seekTo (M := M) r i with ⟨h1, h2, h3⟩ | ⟨c, h1, h2⟩
    · exact .inl ⟨by rw [h1], h2, h3⟩
    · exact .inr ⟨c, h1, .inr (.inl (by rw [h2]))⟩
  | readAt i =>
    simp only [NpyReader.step, NpyReader.readAt]
    by_cases hi : i < r.totalLen
    · have hi' : i < r.plain.totalLen := hi
      rw [if_pos hi, if_pos hi']
      rcases flaky_seekTo (M := M) r i with ⟨h1, h2, h3⟩ | ⟨c, h1, h2⟩
      · rcases hx : r.seekTo M flaky i with ⟨x, r'⟩
        rcases hy : r.plain.seekTo M disk i with ⟨y, r''⟩
        rw [hx, hy] at h1 h2
        rw [hx] at h3
        simp only at h1 h2 h3
        subst h1 h2
        cases x with
        | ok u =>
          simp only [NpyReader.nextUnwrap]
          rcases flaky_next r' with ⟨k1, k2, k3⟩ | ⟨c, k1, k2⟩
          · left
            rcases hx' : r'.next flaky with ⟨x', s⟩
            rcases hy' : r'.plain.next disk with ⟨y', s'⟩
            rw [hx', hy'] at k1 k2
            rw [hx'] at k3
            simp only at k1 k2 k3
            subst k1 k2
            cases x' with
            | none => exact ⟨rfl, rfl, fun e he => h3 e (k3 e he)⟩
            | some x' => exact ⟨rfl, rfl, fun e he => h3 e (k3 e he)⟩
          · right
            refine ⟨c, h3 _ k1, .inr (.inr ?_)⟩
            rcases hx' : r'.next flaky with ⟨x', s⟩
            rw [hx'] at k2
            simp only at k2
            subst k2
            rfl
        | err e => exact .inl ⟨rfl, rfl, h3⟩
        | panic => exact .inl ⟨rfl, rfl, h3⟩
      · right
        refine ⟨c, h1, .inr (.inr ?_)⟩
        rcases hx : r.seekTo M flaky i with ⟨x, r'⟩
        rw [hx] at h2
        simp only at h2
        subst h2
        rfl
    · have hi' : ¬ i < r.plain.totalLen := hi
      rw [if_neg hi, if_neg hi']
      exact .inl ⟨rfl, rfl, fun _ h => h⟩

/-- Histories on a source without failures. -/
theorem flaky_steps_nofail (ops : List ROp) (r : NpyReader V FlakySrc) (h : NoFail r.src.evs) :
    (r.steps M flaky ops).1 = (r.plain.steps M disk ops).1 := by
  induction ops generalizing r with
  | nil => rfl
  | cons op ops ih =>
    rw [steps_cons, steps_cons]
    rcases flaky_step (M := M) r op with ⟨h1, h2, h3⟩ | ⟨c, h1, -⟩
    · simp only [h1]
      rw [ih _ (fun c hc => h c (h3 _ hc)), h2]
    · exact absurd h1 (h c)

/-- Histories on any source: up to the first error of the source everything is as it should be. -/
theorem flaky_steps (ops : List ROp) (r : NpyReader V FlakySrc) :
    (r.steps M flaky ops).1 = (r.plain.steps M disk ops).1 ∨
    ∃ k c, k < ops.length ∧ (r.steps M flaky ops).1.take k = (r.plain.steps M disk ops).1.take k ∧
      .fail c ∈ r.src.evs ∧ ∃ o, (r.steps M flaky ops).1[k]? = some o ∧ FailsWith (.source c) o := by
  induction ops generalizing r with
  | nil => exact .inl rfl
  | cons op ops ih =>
    rw [steps_cons, steps_cons]
    rcases flaky_step (M := M) r op with ⟨h1, h2, h3⟩ | ⟨c, h1, h2⟩
    · simp only [h1, ← h2]
      rcases ih (r.step M flaky op).2 with h | ⟨k, c, k1, k2, k3, o, k4, k5⟩
      · exact .inl (by rw [h])
      · refine .inr ⟨k + 1, c, by simp; omega, by simp [k2], h3 _ k3, o, by simpa using k4, k5⟩
    · exact .inr ⟨0, c, by simp, by simp, h1, _, rfl, h2⟩

/-! ### Invariants for arbitrary sources -/

theorem wrapI64_inj {a b : Nat} (ha : a < 2 ^ 64) (hb : b < 2 ^ 64) (h : M.i64 (wrapI64 a - wrapI64 b) = .ok 0) : a = b := by
  unfold Machine.i64 at h
  by_cases hx : -2 ^ 63 ≤ wrapI64 a - wrapI64 b ∧ wrapI64 a - wrapI64 b < 2 ^ 63
  · rw [if_pos hx] at h
    have := Out.ok.inj h
    unfold wrapI64 at this
    omega
  · rw [if_neg hx] at h
    cases ho : M.overflowChecks with
    | true => rw [ho, if_pos rfl] at h; cases h
    | false =>
      rw [ho, if_neg (by simp)] at h
      have := Out.ok.inj h
      unfold wrapI64 at this
      omega

theorem seekTo_inv {σ : Type} {S : Source σ} (r : NpyReader V σ) (i : Nat) :
    (r.seekTo M S i).2.header = r.header ∧ (r.seekTo M S i).2.prog = r.prog ∧
    (((r.seekTo M S i).1 = .ok () ∧ i ≤ r.header.nRecords ∧
        ((r.seekTo M S i).2.cur = i ∨ ((r.seekTo M S i).2.cur = r.cur ∧ M.i64 (wrapI64 i - wrapI64 r.cur) = .ok 0))) ∨
     ((r.seekTo M S i).1 ≠ .ok () ∧ (r.seekTo M S i).2.cur = r.cur)) := by
  unfold NpyReader.seekTo NpyReader.totalLen
  by_cases hi : i ≤ r.header.nRecords
  · rw [if_pos hi]
    cases hd : M.i64 (wrapI64 i - wrapI64 r.cur) with
    | ok delta =>
      simp only
      by_cases hz : delta ≠ 0
      · simp only [if_pos hz, NpyReader.seekBy]
        cases r.header.itemSize with
        | none => exact ⟨rfl, rfl, .inr ⟨by simp, rfl⟩⟩
        | some n =>
          simp only
          cases M.i64 (delta * wrapI64 n) with
          | ok off =>
            simp only
            rcases S.seek off r.src with ⟨(_ | _ | _), s⟩
            · exact ⟨rfl, rfl, .inl ⟨rfl, hi, .inl rfl⟩⟩
            · exact ⟨rfl, rfl, .inr ⟨by simp, rfl⟩⟩
            · exact ⟨rfl, rfl, .inr ⟨by simp, rfl⟩⟩
          | err e => exact ⟨rfl, rfl, .inr ⟨by simp, rfl⟩⟩
          | panic => exact ⟨rfl, rfl, .inr ⟨by simp, rfl⟩⟩
      · rw [if_neg hz]
        have : delta = 0 := by omega
        subst this
        exact ⟨rfl, rfl, .inl ⟨rfl, hi, .inr ⟨rfl, rfl⟩⟩⟩
    | err e => exact ⟨rfl, rfl, .inr ⟨by simp, rfl⟩⟩
    | panic => exact ⟨rfl, rfl, .inr ⟨by simp, rfl⟩⟩
  · rw [if_neg hi]
    exact ⟨rfl, rfl, .inr ⟨by simp, rfl⟩⟩

theorem next_inv {σ : Type} {S : Source σ} (r : NpyReader V σ) :
    (r.next S).2.header = r.header ∧ (r.next S).2.prog = r.prog ∧
    ((r.cur < r.header.nRecords ∧ (∃ x, (r.next S).1 = some x) ∧ (r.next S).2.cur = r.cur + 1) ∨
     (¬ r.cur < r.header.nRecords ∧ r.next S = (none, r))) := by
  by_cases h : r.cur < r.header.nRecords
  · rw [next_some h]; exact ⟨rfl, rfl, .inl ⟨h, ⟨_, rfl⟩, rfl⟩⟩
  · rw [next_none h]; exact ⟨rfl, rfl, .inr ⟨h, rfl⟩⟩

theorem readAt_inv {σ : Type} {S : Source σ} (r : NpyReader V σ) (i : Nat) :
    (r.readAt M S i).2.header = r.header ∧ (r.readAt M S i).2.prog = r.prog ∧
    (r.cur ≤ r.header.nRecords → (r.readAt M S i).2.cur ≤ r.header.nRecords) ∧
    (∀ v, (r.readAt M S i).1 = .ok v → r.header.nRecords < 2 ^ 64 → r.cur ≤ r.header.nRecords →
      (r.readAt M S i).2.cur = i + 1 ∧ i < r.header.nRecords) := by
  unfold NpyReader.readAt NpyReader.totalLen
  by_cases hi : i < r.header.nRecords
  · rw [if_pos hi]
    have hs := seekTo_inv (M := M) (S := S) r i
    rcases hx : r.seekTo M S i with ⟨x, r'⟩
    rw [hx] at hs
    simp only at hs
    obtain ⟨h1, h2, h3⟩ := hs
    cases x with
    | ok u =>
      simp only [NpyReader.nextUnwrap]
      have hn := next_inv (S := S) r'
      rcases hy : r'.next S with ⟨y, r''⟩
      rw [hy] at hn
      simp only at hn
      obtain ⟨k1, k2, k3⟩ := hn
      rcases h3 with ⟨-, -, h3⟩ | ⟨h3, -⟩
      · cases y with
        | none =>
          simp only
          refine ⟨k1.trans h1, k2.trans h2, ?_, by simp⟩
          intro hc
          rcases k3 with ⟨-, ⟨_, k⟩, -⟩ | ⟨-, k⟩
          · cases k
          · rw [(Prod.mk.inj k).2]
            rcases h3 with h3 | ⟨h3, -⟩ <;> rw [h3] <;> omega
        | some y =>
          simp only
          rcases k3 with ⟨k3, -, k4⟩ | ⟨-, k⟩
          · refine ⟨k1.trans h1, k2.trans h2, fun _ => by rw [k4, ← h1]; exact k3, fun v hv hlt hc => ⟨?_, hi⟩⟩
            rw [k4]
            rcases h3 with h3 | ⟨h3, h4⟩
            · rw [h3]
            · rw [h3, wrapI64_inj (by omega) (by omega) h4]
          · cases (Prod.mk.inj k).1
      · exact absurd rfl h3
    | err e =>
      simp only
      refine ⟨h1, h2, fun hc => ?_, by simp⟩
      rcases h3 with ⟨h3, -⟩ | ⟨-, h3⟩
      · cases h3
      · rw [h3]; exact hc
    | panic =>
      simp only
      refine ⟨h1, h2, fun hc => ?_, by simp⟩
      rcases h3 with ⟨h3, -⟩ | ⟨-, h3⟩
      · cases h3
      · rw [h3]; exact hc
  · rw [if_neg hi]
    exact ⟨rfl, rfl, id, by simp⟩

theorem step_inv {σ : Type} {S : Source σ} (r : NpyReader V σ) (op : ROp) :
    (r.step M S op).2.header = r.header ∧ (r.step M S op).2.prog = r.prog ∧
    (r.cur ≤ r.header.nRecords → (r.step M S op).2.cur ≤ r.header.nRecords) := by
  cases op with
  | next =>
    obtain ⟨h1, h2, h3⟩ := next_inv (S := S) r
    refine ⟨h1, h2, fun hc => ?_⟩
    simp only [NpyReader.step]
    rcases h3 with ⟨h3, -, h4⟩ | ⟨h3, h4⟩
    · rw [h4]; exact h3
    · rw [h4]; exact hc
  | seekTo i =>
    obtain ⟨h1, h2, h3⟩ := seekTo_inv (M := M) (S := S) r i
    refine ⟨h1, h2, fun hc => ?_⟩
    simp only [NpyReader.step]
    rcases h3 with ⟨-, h3, h4 | ⟨h4, -⟩⟩ | ⟨-, h4⟩
    · rw [h4]; exact h3
    · rw [h4]; exact hc
    · rw [h4]; exact hc
  | readAt i =>
    obtain ⟨h1, h2, h3, -⟩ := readAt_inv (M := M) (S := S) r i
    exact ⟨h1, h2, h3⟩

theorem steps_inv {σ : Type} {S : Source σ} (ops : List ROp) (r : NpyReader V σ) (hc : r.cur ≤ r.header.nRecords) :
    (r.steps M S ops).2.header = r.header ∧ (r.steps M S ops).2.prog = r.prog ∧
    (r.steps M S ops).2.cur ≤ r.header.nRecords := by
  induction ops generalizing r with
  | nil => exact ⟨rfl, rfl, hc⟩
  | cons op ops ih =>
    rw [steps_cons]
    obtain ⟨h1, h2, h3⟩ := step_inv (M := M) (S := S) r op
    obtain ⟨k1, k2, k3⟩ := ih (r.step M S op).2 (by rw [h1]; exact h3 hc)
    refine ⟨k1.trans h1, k2.trans h2, ?_⟩
    rw [← h1]; exact k3

/-- Calling `next` repeatedly. -/
theorem steps_next {σ : Type} {S : Source σ} (j : Nat) (k : Nat) (r : NpyReader V σ) (hk : r.cur + k = r.header.nRecords) :
    (r.steps M S (List.replicate (k + j) .next)).1.map yields = List.replicate k true ++ List.replicate j false := by
  induction k generalizing r with
  | zero =>
    induction j with
    | zero => rfl
    | succ j ih =>
      have hn : ¬ r.cur < r.header.nRecords := by omega
      rw [show 0 + (j + 1) = (0 + j) + 1 by omega, List.replicate_succ, steps_cons]
      simp only [NpyReader.step, next_none hn, List.map_cons]
      rw [ih]
      simp [yields, List.replicate_succ]
  | succ k ih =>
    have hn : r.cur < r.header.nRecords := by omega
    rw [show (k + 1) + j = (k + j) + 1 by omega, List.replicate_succ, steps_cons]
    simp only [NpyReader.step, next_some hn, List.map_cons]
    rw [ih _ (by simp only; omega)]
    simp [yields, List.replicate_succ]

/-! ### Opening and collecting on flaky sources -/

theorem flaky_new (py : PyParser) (s : FlakySrc) :
    (∃ evs, (∀ e ∈ evs, e ∈ s.evs) ∧ (NpyFile.new M py flaky s).2 = ⟨(NpyFile.new M py disk s.src).2, evs⟩ ∧
      ((NpyFile.new M py flaky s).1 = (NpyFile.new M py disk s.src).1.map fun f => ⟨f.header, ⟨f.src, evs⟩⟩)) ∨
    (∃ c, .fail c ∈ s.evs ∧ (NpyFile.new M py flaky s).1 = .err (.source c)) := by
  unfold NpyFile.new
  rcases flaky_exec (NpyHeader.fromReader M py) s with ⟨evs, h1, h2⟩ | ⟨c, h1, h2⟩
  · left
    refine ⟨evs, h1, ?_⟩
    rw [h2]
    rcases disk.exec (NpyHeader.fromReader M py) s.src with ⟨(_ | _ | _), s⟩
    · exact ⟨rfl, rfl⟩
    · exact ⟨rfl, rfl⟩
    · exact ⟨rfl, rfl⟩
  · right
    refine ⟨c, h1, ?_⟩
    rcases hx : flaky.exec (NpyHeader.fromReader M py) s with ⟨x, s'⟩
    rw [hx] at h2
    simp only at h2
    subst h2
    rfl

theorem flaky_collectLoop (k : Nat) (r : NpyReader V FlakySrc) :
    ((r.collectLoop flaky k).1 = (r.plain.collectLoop disk k).1 ∧ (r.collectLoop flaky k).2.plain = (r.plain.collectLoop disk k).2) ∨
    (∃ c, .fail c ∈ r.src.evs ∧ (r.collectLoop flaky k).1 = .err (.source c)) := by
  induction k generalizing r with
  | zero => exact .inl ⟨rfl, rfl⟩
  | succ k ih =>
    simp only [NpyReader.collectLoop]
    rcases flaky_next r with ⟨h1, h2, h3⟩ | ⟨c, h1, h2⟩
    · rcases hx : r.next flaky with ⟨x, r'⟩
      rcases hy : r.plain.next disk with ⟨y, r''⟩
      rw [hx, hy] at h1 h2
      rw [hx] at h3
      simp only at h1 h2 h3
      subst h1 h2
      rcases x with _ | (v | e | _)
      · exact .inl ⟨rfl, rfl⟩
      · simp only
        rcases ih r' with ⟨k1, k2⟩ | ⟨c, k1, k2⟩
        · left
          rcases hx' : r'.collectLoop flaky k with ⟨x', s⟩
          rcases hy' : r'.plain.collectLoop disk k with ⟨y', s'⟩
          rw [hx', hy'] at k1 k2
          simp only at k1 k2
          subst k1 k2
          rcases x' with _ | _ | _ <;> exact ⟨rfl, rfl⟩
        · right
          refine ⟨c, h3 _ k1, ?_⟩
          rcases hx' : r'.collectLoop flaky k with ⟨x', s⟩
          rw [hx'] at k2
          simp only at k2
          subst k2
          rfl
      · exact .inl ⟨rfl, rfl⟩
      · exact .inl ⟨rfl, rfl⟩
    · right
      refine ⟨c, h1, ?_⟩
      rcases hx : r.next flaky with ⟨x, r'⟩
      rw [hx] at h2
      simp only at h2
      subst h2
      rfl

theorem flaky_intoVec (f : NpyFile FlakySrc) :
    ((f.intoVec M flaky t).1 = (NpyFile.intoVec M disk t ⟨f.header, f.src.src⟩).1 ∧
      (f.intoVec M flaky t).2.src = (NpyFile.intoVec M disk t ⟨f.header, f.src.src⟩).2) ∨
    (∃ c, .fail c ∈ f.src.evs ∧ (f.intoVec M flaky t).1 = .err (.source c)) := by
  have hdata : NpyFile.data M t (⟨f.header, f.src.src⟩ : NpyFile Src) = (f.data M t).map NpyReader.plain := by
    unfold NpyFile.data NpyFile.dataWith
    simp only
    cases f.header.forbidPickle with
    | ok u =>
      simp only [Out.bind_ok]
      cases t.reader M f.header.dtype <;> rfl
    | err e => rfl
    | panic => rfl
  unfold NpyFile.intoVec
  rw [hdata]
  cases hd : f.data M t with
  | ok r =>
    obtain ⟨-, p, -, hr⟩ := data_ok_iff.mp hd
    have hsrc : r.src = f.src := by rw [hr]
    simp only [Out.map, NpyReader.collect]
    rw [← hsrc]
    rcases flaky_collectLoop (r.header.nRecords - r.cur + 1) r with ⟨h1, h2⟩ | h
    · left
      refine ⟨h1, ?_⟩
      have := congrArg NpyReader.src h2
      exact this
    · exact .inr h
  | err e => exact .inl ⟨rfl, rfl⟩
  | panic => exact .inl ⟨rfl, rfl⟩

end Npyz
