import Verif.Props.Kinds
import Verif.Props.Writer
/-!
C101: how many elements a file can make the library produce.
-/
namespace Npyz.Props
set_option autoImplicit false
open Npyz.Spec

variable {M : Machine} {py : PyParser} {t : Ty}

/-- C101, what holds: a file is at least as long as its header and the items that are read from it. -/
theorem C101_bounded_partial {bytes : Bytes} {f : NpyFile Src} {size : Nat} {vs : List t.Val} (hn : (NpyFile.new M py disk ⟨bytes, 0⟩).1 = .ok f)
    (hs : f.header.itemSize = some size) (hm : size ≤ M.isizeMax) (h : readFile M py disk t ⟨bytes, 0⟩ = .ok vs) :
    headerEnd bytes + vs.length * size ≤ bytes.length ∧ (0 < size → vs.length ≤ bytes.length) := by
  obtain ⟨ho, -, h2, h3, h4⟩ := new_disk (s := (NpyFile.new M py disk ⟨bytes, 0⟩).2) (Prod.ext hn rfl)
  obtain ⟨hg, hl, hd'⟩ := C10_consumes_header _ _ _ _ _ h4
  have hend : f.src.pos = headerEnd bytes := by
    have := congrArg List.length hd'
    simp only [List.length_drop] at this
    omega
  unfold readFile at h
  rw [hn] at h
  simp only at h
  have key : headerEnd bytes + vs.length * size ≤ bytes.length := by
    rcases C21_into_vec (t := t) ho hs hm (by rw [h2]; exact h3) with ⟨vs', h5, h6, h7, -⟩ | ⟨e, h5, -⟩
    · rw [h5] at h
      cases h
      rw [h6, ← hend, ← h2]
      exact h7
    · rw [h5] at h
      cases h
  refine ⟨key, fun h0 => ?_⟩
  have := Nat.le_mul_of_pos_right vs.length h0
  omega

/-- Items without bytes. -/
def nothing : DType := .plain ⟨.irrelevant, .rawData, 0, none⟩

theorem nothing_wf : nothing.Wf := wf_of_parse (s := "|V0".toList) (by decide)

theorem nothing_dict {n : Nat} (h : n < 2 ^ 64) : dictBytes nothing .c (.nd [n]) ≤ 100 := by
  have h1 : ∀ c ∈ dictText nothing .c (.nd [n]), c.toNat < 128 := by
    intro c hc
    unfold dictText at hc
    simp only [shapeTuple, List.flatMap_cons, List.flatMap_nil, List.append_nil, List.mem_append] at hc
    have h2 := toDigits_lt_128 n c
    have h3 : ∀ s : Text, (s.all fun c => decide (c.toNat < 128)) = true → c ∈ s → c.toNat < 128 := fun s hs hc =>
      of_decide_eq_true (List.all_eq_true.mp hs c hc)
    rcases hc with ((((((h | h) | h) | h) | h) | ((h | h | h) | h)) | h)
    all_goals first | exact h2 h | exact h3 _ (by decide) h
  unfold dictBytes
  rw [encodeUtf8_ascii h1, List.length_map]
  unfold dictText
  simp only [shapeTuple, List.flatMap_cons, List.flatMap_nil, List.append_nil, List.length_append]
  have h2 := toDigits_length_le h
  have e1 : (txt "{'descr': ").length = 10 := by decide
  have e2 : nothing.descr.length = 5 := by decide
  have e3 : (txt ", 'fortran_order': ").length = 19 := by decide
  have e4 : (boolText (Order.c == Order.fortran)).length = 5 := by decide
  have e5 : (txt ", 'shape': ").length = 11 := by decide
  have e6 : (txt "(").length = 1 := by decide
  have e7 : (txt ", ").length = 2 := by decide
  have e8 : (txt ")").length = 1 := by decide
  have e9 : (txt ", }").length = 3 := by decide
  omega

/-- The element of no bytes. -/
def noBytes : (Ty.fixedBytes 0).Val := (⟨[], rfl⟩ : { l : Bytes // l.length = 0 })

/-- C101 is violated: for every number there is a file of less than 200 bytes from which that many elements are read. -/
theorem C101_violated (M : Machine) (hM : M.Wf) (n : Nat) (h : n < 2 ^ 64) : ∃ (bytes : Bytes) (vs : List (Ty.fixedBytes 0).Val), bytes.length < 200 ∧
    readFile M Py.parse disk (.fixedBytes 0) ⟨bytes, 0⟩ = .ok vs ∧ vs.length = n := by
  have hbig : 200 ≤ M.isizeMax := by rcases hM with h | h <;> simp [Machine.isizeMax, h]
  have hlim : 0 < M.usizeLim := by rcases hM with h | h <;> simp [Machine.usizeLim, h]
  have hfit : AllFit M.usizeLim nothing := by
    intro k hk
    cases hk
    exact hlim
  have hd := nothing_dict h
  have hnz : nonzeroProd [n] < 2 ^ 64 := by
    unfold nonzeroProd
    simp only [List.filter]
    split <;> simp <;> omega
  have hlen : (List.replicate n noBytes).length = n := List.length_replicate
  have hdims : ∀ k ∈ [n], k < 2 ^ 64 := by
    intro k hk
    rw [List.mem_singleton.mp hk]
    exact h
  have hcheck : checkFixed M 0 nothing = .ok () := by
    rcases hM with h | h <;> simp [checkFixed, nothing, expectScalar, sizeAsUsize, Machine.usizeLim, h, bind, pure, Out.bind]
  have hread : ∃ p, (Ty.fixedBytes 0).reader M nothing = .ok p := by
    unfold Ty.reader
    rw [hcheck]
    exact ⟨_, rfl⟩
  have hwrite : ∃ p, (Ty.fixedBytes 0).writer M nothing = .ok p := by
    unfold Ty.writer
    rw [hcheck]
    exact ⟨_, rfl⟩
  obtain ⟨s', hs⟩ := C39_succeeds (t := .fixedBytes 0) nothing_wf (size := 0) rfl (Nat.zero_le M.isizeMax) (by simp [DType.NotArray, nothing])
    hwrite (o := .c) (hint := .nd [n]) hnz (by omega) (by simp) (vs := List.replicate n noBytes) (by rw [hlen]; exact h)
    (by rw [hlen]; simp [CountFits]) (fun v _ => by simp [encode, nothing, onPlain]) (s := ⟨[], 0, false⟩) (by intro h; cases h)
  obtain ⟨items, he, hs', -⟩ := save_ok nothing_wf (size := 0) rfl (Nat.zero_le _) (by rw [hlen]; exact h) (by intro h; cases h) hs
  obtain ⟨f, h1, -, -, -, h2⟩ := C39_exact (M' := M) (py := Py.parse) hM (fun _ _ h => h) (t := .fixedBytes 0) trivial nothing_wf (size := 0) rfl (Nat.zero_le _) (Nat.zero_le _)
    hfit hread hdims hnz (by omega) (by rw [hlen]; exact h) hs
  have hitems : items.length = 0 := by
    obtain ⟨w, hw⟩ := hwrite
    have := (encodeAll_item (fun v b h => encode_length nothing_wf (size := 0) rfl (Nat.zero_le _) hw v b h) _ he).1
    omega
  refine ⟨s'.data, _, ?_, ?_, hlen⟩
  · have h3 := headerBytes_le nothing .c (.nd [n])
    have h4 : ((⟨[], 0, false⟩ : Sink).put (headerBytes (finalDict nothing .c (.nd [n]) (List.replicate n noBytes).length) ++ items)).data.length ≤
        (headerBytes (dictText nothing .c (.nd [n]))).length := by
      have e : finalDict nothing .c (.nd [n]) (List.replicate n noBytes).length = dictText nothing .c (.nd [n]) := rfl
      rw [e, List.length_eq_zero_iff.mp hitems, List.append_nil]
      unfold Sink.put
      split
      · exact Nat.zero_le _
      · simp [overwrite]
    rw [← hs'] at h4
    omega
  · unfold readFile
    rw [h1]
    exact h2

/-- Length of what was read, when reading succeeds. -/
def okLen {V : Type} : Res (List V) → Option Nat
  | .ok vs => some vs.length
  | _ => none

-- two doubles: two items of eight bytes follow the header

/-- C101_bounded_partial: the file of C18. -/
example : ∃ vs : List f64.Val, readFile ⟨false, 64, true⟩ Py.parse disk f64 ⟨twoFloats, 0⟩ = .ok vs ∧ headerEnd twoFloats + vs.length * 8 ≤ twoFloats.length := by
  obtain ⟨f, r, -, h1, -, h3, -⟩ := twoFloats_reader
  have h : okLen (readFile ⟨false, 64, true⟩ Py.parse disk f64 ⟨twoFloats, 0⟩) = some 2 := by decide +kernel
  cases hx : readFile ⟨false, 64, true⟩ Py.parse disk f64 ⟨twoFloats, 0⟩ with
  | ok vs => exact ⟨vs, rfl, (C101_bounded_partial (congrArg Prod.fst h1) h3.size (by decide) hx).1⟩
  | err e => rw [hx] at h; cases h
  | panic => rw [hx] at h; cases h

example : (match (NpyFile.new ⟨false, 64, true⟩ Py.parse disk ⟨twoFloats, 0⟩).1 with
      | .ok f => f.header.itemSize
      | _ => none) = some 8 ∧
    okLen (readFile ⟨false, 64, true⟩ Py.parse disk f64 ⟨twoFloats, 0⟩) = some 2 ∧ headerEnd twoFloats + 2 * 8 = twoFloats.length := by
  decide +kernel

end Npyz.Props
