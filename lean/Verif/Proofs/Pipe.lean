import Verif.Spec.Pipe
import Verif.Proofs.Memory
import Verif.Proofs.Visit
/-! Reading from a pipe. -/
set_option autoImplicit false
namespace Npyz
open Spec

theorem waits_iff {α : Type} (p : RProg α) (bs : Bytes) : waits p bs = false ↔ (buffers p bs).sum ≤ bs.length := by
  induction p generalizing bs with
  | ret r => simp [waits, buffers]
  | read n eof k ih =>
    simp only [waits, buffers]
    by_cases hn : n ≤ bs.length
    · rw [if_pos hn, if_pos hn, ih, List.length_drop, List.sum_cons]; omega
    · rw [if_neg hn, if_neg hn]; simp; omega

theorem waits_of_ok {α : Type} {p : RProg α} {bs rest : Bytes} {a : α} (h : p.run bs = (.ok a, rest)) : waits p bs = false := by
  induction p generalizing bs with
  | ret r => rfl
  | read n eof k ih =>
    simp only [RProg.run] at h
    by_cases hn : n ≤ bs.length
    · rw [if_pos hn] at h
      simp only [waits, if_pos hn]
      exact ih _ h
    · rw [if_neg hn] at h; cases (Prod.mk.inj h).1

/-- What does not wait for more bytes does not depend on them. -/
theorem run_more {α : Type} {p : RProg α} {bs : Bytes} (h : waits p bs = false) (more : Bytes) :
    p.run (bs ++ more) = ((p.run bs).1, (p.run bs).2 ++ more) := by
  induction p generalizing bs with
  | ret r => rfl
  | read n eof k ih =>
    simp only [waits] at h
    by_cases hn : n ≤ bs.length
    · rw [if_pos hn] at h
      simp only [RProg.run]
      rw [if_pos hn, if_pos (by rw [List.length_append]; omega), List.take_append_of_le_length hn, List.drop_append_of_le_length hn, ih _ h]
    · rw [if_neg hn] at h; cases h

theorem waits_more {α : Type} {p : RProg α} {bs : Bytes} (h : waits p bs = false) (more : Bytes) : waits p (bs ++ more) = false := by
  induction p generalizing bs with
  | ret r => rfl
  | read n eof k ih =>
    simp only [waits] at h
    by_cases hn : n ≤ bs.length
    · rw [if_pos hn] at h
      simp only [waits]
      rw [if_pos (by rw [List.length_append]; omega), List.take_append_of_le_length hn, List.drop_append_of_le_length hn, ih _ h]
    · rw [if_neg hn] at h; cases h

/-- What is consumed was asked for. -/
theorem run_asked {α : Type} {p : RProg α} {bs : Bytes} (h : waits p bs = false) :
    bs.length = (p.run bs).2.length + (buffers p bs).sum := by
  induction p generalizing bs with
  | ret r => simp [RProg.run, buffers]
  | read n eof k ih =>
    simp only [waits] at h
    by_cases hn : n ≤ bs.length
    · rw [if_pos hn] at h
      simp only [RProg.run, buffers, if_pos hn, List.sum_cons]
      have := ih _ h
      rw [List.length_drop] at this
      omega
    · rw [if_neg hn] at h; cases h

theorem Reads.waits {α : Type} {p : RProg α} {n : Nat} {f : Bytes → Option α} (h : Reads p n f) {bs : Bytes} (hl : n ≤ bs.length) :
    waits p bs = false := (waits_iff p bs).mpr (Nat.le_trans (h.buffers_le bs) hl)

/-- The same reader when more has arrived. -/
def later {V : Type} (r : NpyReader V Src) (more : Bytes) : NpyReader V Src := { r with src := ⟨r.src.data ++ more, r.src.pos⟩ }

theorem rest_more {s : Src} (h : s.pos ≤ s.data.length) (more : Bytes) : (⟨s.data ++ more, s.pos⟩ : Src).rest = s.rest ++ more := by
  simp only [Src.rest]
  rw [List.drop_append_of_le_length h]

theorem exec_arrived {α : Type} {p : RProg α} {s : Src} (h : waits p s.rest = false) (hp : s.pos ≤ s.data.length) (more : Bytes) :
    disk.exec p ⟨s.data ++ more, s.pos⟩ = ((disk.exec p s).1, ⟨s.data ++ more, (disk.exec p s).2.pos⟩) ∧
      (disk.exec p s).2.data = s.data ∧ (disk.exec p s).2.pos = s.pos + (buffers p s.rest).sum ∧
      (disk.exec p s).2.pos ≤ s.data.length := by
  have ha := run_asked h
  have hr : s.rest.length = s.data.length - s.pos := by simp [Src.rest]
  have hd : disk.exec p s = ((p.run s.rest).1, s.leave (p.run s.rest).2) := rfl
  have hm : disk.exec p ⟨s.data ++ more, s.pos⟩ = ((p.run (s.rest ++ more)).1, (⟨s.data ++ more, s.pos⟩ : Src).leave (p.run (s.rest ++ more)).2) := by
    show ((p.run (⟨s.data ++ more, s.pos⟩ : Src).rest).1, (⟨s.data ++ more, s.pos⟩ : Src).leave (p.run (⟨s.data ++ more, s.pos⟩ : Src).rest).2) = _
    rw [rest_more hp]
  rw [hm, hd, run_more h]
  simp only [Src.leave, rest_more hp, List.length_append]
  refine ⟨?_, trivial, by omega, by omega⟩
  refine Prod.ext rfl ?_
  simp only [Src.mk.injEq, true_and]
  omega

section
variable {V : Type} {f : Bytes → Option V} {size : Nat}

/-- `k` calls of `next` do not wait when `k` items have arrived. -/
theorem nexts_arrived : ∀ (k : Nat) {r : NpyReader V Src}, Reads r.prog size f → r.src.pos ≤ r.src.data.length →
    r.src.pos + min k (r.header.nRecords - r.cur) * size ≤ r.src.data.length →
    ∃ xs r', nexts k r = some (xs, r') ∧ r'.src.pos ≤ r.src.pos + min k (r.header.nRecords - r.cur) * size ∧ r'.src.data = r.src.data ∧
      ∀ more, nexts k (later r more) = some (xs, later r' more)
  | 0, r, _, _, _ => ⟨[], r, rfl, by omega, rfl, fun _ => rfl⟩
  | k + 1, r, hr, hp, ha => by
    by_cases hc : r.cur < r.header.nRecords
    · have hmin : min (k + 1) (r.header.nRecords - r.cur) = min k (r.header.nRecords - (r.cur + 1)) + 1 := by omega
      rw [hmin, Nat.add_mul, Nat.one_mul] at ha ⊢
      have hw : waits r.prog r.src.rest = false := hr.waits (by simp only [Src.rest, List.length_drop]; omega)
      obtain ⟨-, h2, h3, h4⟩ := exec_arrived hw hp []
      have hle := hr.buffers_le r.src.rest
      have hn := next_some (S := disk) hc
      obtain ⟨xs, r', g1, g2, g3, g4⟩ := nexts_arrived k (r := (r.next disk).2) (by rw [hn]; exact hr) (by rw [hn]; simp only [h2]; exact h4)
        (by rw [hn]; simp only [h2, h3]; omega)
      rw [hn] at g1 g2 g3 g4
      simp only [h2, h3] at g2 g3
      refine ⟨(r.next disk).1 :: xs, r', ?_, by omega, g3, fun more => ?_⟩
      · rw [nexts, if_neg (by rw [hw]; simp), hn]
        simp only at g1 ⊢
        rw [g1]
      · obtain ⟨m1, -, -, -⟩ := exec_arrived hw hp more
        have hn' : (later r more).next disk = ((r.next disk).1, later (r.next disk).2 more) := by
          rw [next_some (r := later r more) hc, hn]
          show (some (disk.exec r.prog ⟨r.src.data ++ more, r.src.pos⟩).1, _) = _
          simp only [later, m1, h2]
        rw [nexts, if_neg (by
          show ¬ (_ ∧ waits r.prog (⟨r.src.data ++ more, r.src.pos⟩ : Src).rest = true)
          rw [rest_more hp, waits_more hw]; simp), hn', hn]
        simp only
        rw [g4 more]
    · have hz : r.header.nRecords - r.cur = 0 := by omega
      have hn := next_none (S := disk) hc
      obtain ⟨xs, r', g1, g2, g3, g4⟩ := nexts_arrived k hr hp (by rw [hz]; simpa using hp)
      rw [hz] at g2 ⊢
      refine ⟨none :: xs, r', ?_, by simpa using g2, g3, fun more => ?_⟩
      · rw [nexts, if_neg (fun h => hc h.1), hn]; simp only; rw [g1]
      · rw [nexts, if_neg (fun h => hc h.1), next_none (r := later r more) hc]; simp only; rw [g4]
end

theorem nexts_length {V : Type} : ∀ (k : Nat) {r r' : NpyReader V Src} {xs : List (Option (Res V))}, nexts k r = some (xs, r') → xs.length = k
  | 0, _, _, _, h => by cases h; rfl
  | k + 1, r, r', xs, h => by
    rw [nexts] at h
    split at h
    · cases h
    · cases hx : nexts k (r.next disk).2 with
      | none => rw [hx] at h; cases h
      | some p =>
        rw [hx] at h
        cases h
        rw [List.length_cons, nexts_length k (xs := p.1) (r' := p.2) hx]

/-- Items that were encoded one after the other are received. -/
theorem nexts_items {t : Ty} {d : DType} {size : Nat} (hcan : CanRead t d) (hn : exactBytes d = some size) :
    ∀ (vs : List t.Val) {items rest : Bytes} {r : NpyReader t.Val Src}, Reads r.prog size (decode t d) → encodeAll (encode t d) vs = some items →
      r.src.rest = items ++ rest → r.cur + vs.length ≤ r.header.nRecords →
      ∃ r', nexts vs.length r = some (vs.map fun v => some (.ok (readBack t d v)), r')
  | [], _, _, r, _, _, _, _ => ⟨r, rfl⟩
  | v :: vs, items, rest, r, hr, he, hs, hc => by
    obtain ⟨b, bs, h1, h2, rfl⟩ := encodeAll_cons he
    obtain ⟨hl, hd⟩ := encode_decode t d size v b hcan hn h1
    have hrun := hr.ok b (bs ++ rest) _ hl hd
    rw [List.append_assoc] at hs
    rw [List.length_cons] at hc
    have hex : disk.exec r.prog r.src = (.ok (readBack t d v), r.src.leave (bs ++ rest)) := by
      show ((r.prog.run r.src.rest).1, r.src.leave (r.prog.run r.src.rest).2) = _
      rw [hs, hrun]
    have hrest : (r.src.leave (bs ++ rest)).rest = bs ++ rest := by
      have : bs ++ rest = r.src.rest.drop b.length := by rw [hs, List.drop_left]
      rw [this, Src.leave_rest _ _ (by rw [hs]; simp)]
      simp [Src.rest, List.drop_drop]
    have hnx := next_some (S := disk) (r := r) (by omega)
    rw [hex] at hnx
    obtain ⟨r', g⟩ := nexts_items hcan hn vs (r := (r.next disk).2) (items := bs) (rest := rest) (by rw [hnx]; exact hr) h2
      (by rw [hnx]; exact hrest) (by rw [hnx]; simp only; omega)
    refine ⟨r', ?_⟩
    rw [List.length_cons, nexts, if_neg (by rw [hs, waits_of_ok hrun]; simp), g, hnx]
    rfl

end Npyz
