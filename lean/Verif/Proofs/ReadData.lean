import Verif.Proofs.Read
/-!
Opening files on disk; `NpyData` and the streaming reader.
-/
namespace Npyz
open Spec

variable {t : Ty} {M : Machine}

/-- What opening a file gives. -/
theorem new_disk {py : PyParser} {bytes : Bytes} {f : NpyFile Src} {s : Src}
    (h : NpyFile.new M py disk ⟨bytes, 0⟩ = (.ok f, s)) :
    Opened M f.header ∧ s = f.src ∧ f.src.data = bytes ∧ f.src.pos ≤ bytes.length ∧
    (NpyHeader.fromReader M py).run bytes = (.ok f.header, bytes.drop f.src.pos) := by
  unfold NpyFile.new at h
  simp only [disk] at h
  have hrest : (⟨bytes, 0⟩ : Src).rest = bytes := rfl
  rw [hrest] at h
  rcases hx : (NpyHeader.fromReader M py).run bytes with ⟨x, rest⟩
  rw [hx] at h
  rcases x with hd | e | _
  · simp only [Prod.mk.injEq, Out.ok.injEq] at h
    obtain ⟨rfl, rfl⟩ := h
    obtain ⟨used, hu, -⟩ := RProg.run_ok_local hx
    refine ⟨⟨py, bytes, rest, hx⟩, rfl, rfl, ?_, ?_⟩
    · simp only [Src.leave, hrest]; omega
    · simp only [Src.leave, hrest]
      have : 0 + (bytes.length - rest.length) = used.length := by rw [hu]; simp
      rw [this, hu, List.drop_left' rfl]
  · cases (Prod.mk.inj h).1
  · cases (Prod.mk.inj h).1

theorem fromBytes_ok {py : PyParser} {bytes : Bytes} {d : NpyData t} (h : NpyData.fromBytes M py t bytes = .ok d) :
    ∃ f r, NpyFile.new M py disk ⟨bytes, 0⟩ = (.ok f, f.src) ∧ f.data M t = .ok r ∧ d = ⟨f.header, r.prog, f.src.rest⟩ ∧
      (∀ size, f.header.itemSize = some size → M.mulU64 size f.header.nRecords = .ok d.slice.length) := by
  unfold NpyData.fromBytes at h
  rcases hx : NpyFile.new M py disk ⟨bytes, 0⟩ with ⟨x, s⟩
  rw [hx] at h
  rcases x with f | e | _
  · obtain ⟨-, rfl, -⟩ := new_disk hx
    simp only at h
    cases hd : f.data M t with
    | ok r =>
      rw [hd] at h
      obtain ⟨hp, p, hr, hr'⟩ := data_ok_iff.mp hd
      have hh : r.header = f.header := by rw [hr']
      have hsrc : r.src = f.src := by rw [hr']
      simp only [hh, hsrc] at h
      refine ⟨f, r, rfl, hd, ?_⟩
      cases hi : f.header.itemSize with
      | none =>
        rw [hi] at h
        simp only [Out.ok.injEq] at h
        exact ⟨h.symm, by simp⟩
      | some size =>
        rw [hi] at h
        simp only at h
        cases hm : M.mulU64 size f.header.nRecords with
        | ok total =>
          rw [hm] at h
          simp only at h
          by_cases ht : total = f.src.rest.length
          · rw [if_pos ht, Out.ok.injEq] at h
            refine ⟨h.symm, fun s hs => ?_⟩
            cases hs
            rw [hm, ← h, ht]
          · rw [if_neg ht] at h; cases h
        | err e => rw [hm] at h; cases h
        | panic => rw [hm] at h; cases h
    | err e => rw [hd] at h; cases h
    | panic => rw [hd] at h; cases h
  · cases h
  · cases h

theorem elementAt_drop {d : DType} {data : Bytes} {base n : Nat} (hb : base ≤ data.length) (i : Nat) :
    elementAt t d data base n i = elementAt t d (data.drop base) 0 n i := by
  unfold elementAt itemAt
  rw [List.length_drop, List.drop_drop]
  by_cases h : base + (i + 1) * n ≤ data.length
  · rw [if_pos h, if_pos (by omega), Nat.zero_add]
  · rw [if_neg h, if_neg (by omega)]

theorem elementAt_succ {d : DType} {bs : Bytes} {n : Nat} (hl : n ≤ bs.length) (i : Nat) :
    elementAt t d bs 0 n (i + 1) = elementAt t d (bs.drop n) 0 n i := by
  unfold elementAt itemAt
  rw [List.length_drop, List.drop_drop]
  have e1 : (i + 1 + 1) * n = (i + 1) * n + n := by rw [Nat.add_mul, Nat.one_mul]
  have e2 : n + (0 + i * n) = 0 + (i + 1) * n := by rw [Nat.add_mul, Nat.one_mul]; omega
  rw [e1, e2]
  by_cases h : 0 + ((i + 1) * n + n) ≤ bs.length
  · rw [if_pos h, if_pos (by omega)]
  · rw [if_neg h, if_neg (by omega)]

/-- A single read at an offset of the slice. -/
theorem run_element {d : DType} {n : Nat} {p : RProg t.Val} (hr : Reads p n (decode t d)) (bs : Bytes) (i : Nat)
    (hi : i * n ≤ bs.length) (v : t.Val) :
    (p.run (bs.drop (i * n))).1 = .ok v ↔ elementAt t d bs 0 n i = some v := by
  have h1 := disk_exec_iff hr.decodes ⟨bs, i * n⟩ v
  have h2 := itemAt_iff (f := decode t d) (s := ⟨bs, i * n⟩) (base := 0) (n := n) (i := i) (Nat.zero_le _) (by simp) v
  exact h1.trans h2.symm

theorem toVecLoop_ok {d : DType} {n : Nat} {p : RProg t.Val} (hr : Reads p n (decode t d)) (k : Nat) (bs : Bytes) :
    (∃ vs, NpyData.toVecLoop p k bs = .ok vs ∧ vs.length = k ∧ ∀ i (h : i < vs.length), elementAt t d bs 0 n i = some vs[i]) ∨
    (NpyData.toVecLoop p k bs = .panic ∧ ∃ i, i < k ∧ elementAt t d bs 0 n i = none) := by
  induction k generalizing bs with
  | zero => exact .inl ⟨[], rfl, rfl, by simp⟩
  | succ k ih =>
    have key := run_element hr bs 0 (by omega)
    rw [Nat.zero_mul, List.drop_zero] at key
    unfold NpyData.toVecLoop
    cases he : elementAt t d bs 0 n 0 with
    | none =>
      right
      refine ⟨?_, 0, by omega, he⟩
      rcases hx : p.run bs with ⟨(v | e | _), rest⟩
      · have := (key v).mp (by rw [hx])
        rw [he] at this; cases this
      · rfl
      · rfl
    | some v =>
      have hv := (key v).mpr he
      have hl : n ≤ bs.length := by
        unfold elementAt itemAt at he
        by_cases h : 0 + (0 + 1) * n ≤ bs.length
        · omega
        · rw [if_neg h] at he; cases he
      have hdec : decode t d (bs.take n) = some v := by
        unfold elementAt itemAt at he
        rw [if_pos (by omega)] at he
        simpa using he
      have hrun := hr.ok (bs.take n) (bs.drop n) v (by simp; omega) hdec
      rw [List.take_append_drop] at hrun
      rw [hrun]
      simp only
      rcases ih (bs.drop n) with ⟨vs, h1, h2, h3⟩ | ⟨h1, i, h2, h3⟩
      · left
        refine ⟨v :: vs, by rw [h1], by simp [h2], ?_⟩
        intro i hi
        cases i with
        | zero => simpa using he
        | succ i =>
          rw [elementAt_succ hl]
          simpa using h3 i (by simpa using hi)
      · right
        refine ⟨by rw [h1], i + 1, by omega, ?_⟩
        rw [elementAt_succ hl]; exact h3

/-- What is needed of a legacy array: sizes that do not wrap. -/
theorem npyData_get {d : DType} {n : Nat} {a : NpyData t} (hr : Reads a.prog n (decode t d)) (hsz : a.header.itemSize = some n)
    (hu : a.header.nRecords < M.usizeLim) (hs : a.slice.length = a.header.nRecords * n) (hm : a.slice.length < M.usizeLim) (i : Nat) :
    (a.header.nRecords ≤ i ∧ a.get M i = .ok none) ∨
    (i < a.header.nRecords ∧ ((∃ v, a.get M i = .ok (some v) ∧ elementAt t d a.slice 0 n i = some v) ∨
      (a.get M i = .panic ∧ elementAt t d a.slice 0 n i = none))) := by
  unfold NpyData.get NpyData.len
  rw [Nat.mod_eq_of_lt hu]
  by_cases hi : i < a.header.nRecords
  · right
    refine ⟨hi, ?_⟩
    have hle : i * n ≤ a.header.nRecords * n := Nat.mul_le_mul_right _ (by omega)
    rw [if_pos hi]
    unfold NpyData.getUnchecked NpyData.mulUsize
    rw [hsz]
    simp only
    rw [if_pos (by omega)]
    simp only
    rw [if_pos (by omega)]
    have key := run_element hr a.slice i (by omega)
    cases he : elementAt t d a.slice 0 n i with
    | some v => left; refine ⟨v, ?_, rfl⟩; rw [(key v).mpr he]; rfl
    | none =>
      right
      refine ⟨?_, rfl⟩
      rcases hx : (a.prog.run (a.slice.drop (i * n))).1 with v | e | _
      · have := (key v).mp hx
        rw [he] at this; cases this
      · rfl
      · rfl
  · left; rw [if_neg hi]; exact ⟨by omega, rfl⟩

end Npyz
