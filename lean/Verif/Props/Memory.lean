import Verif.Proofs.Memory
import Verif.Props.Read
/-!
Property C83: the memory requested for reading.
`buffers p bs` lists the sizes of the buffers that a reading program asks for on the input `bs` (Spec/Memory.lean).
-/
set_option autoImplicit false
namespace Npyz.Props
open Npyz Npyz.Spec

/-- Twelve bytes: magic string, version 2.0 and a header length of `2^32 - 1`. -/
def twelveBytes : Bytes := [0x93, 78, 85, 77, 80, 89, 2, 0, 255, 255, 255, 255]

/-- C83 is false: a file of twelve bytes makes the header reader ask for a buffer of 4 GiB. -/
theorem C83_violated (py : PyParser) : twelveBytes.length = 12 ∧ 2 ^ 32 - 1 ∈ buffers (NpyHeader.fromReader ⟨false, 64, true⟩ py) twelveBytes :=
  ⟨rfl, List.mem_cons_of_mem _ (List.mem_cons_of_mem _ (List.mem_cons_self ..))⟩

/-- C83 is false for elements, too: one item of dtype `|S9223372036854775807` asks for a buffer of that size, on an
empty rest of the file. -/
theorem C83_violated_items : ∃ p, Ty.reader ⟨false, 64, true⟩ .vecU8 (.plain ⟨.irrelevant, .byteStr, 2 ^ 63 - 1, none⟩) = .ok p ∧
    2 ^ 63 - 1 ∈ buffers p [] := ⟨_, rfl, List.mem_cons_self ..⟩

theorem header_buffers {M : Machine} {py : PyParser} (bs : Bytes) :
    ∃ w n, buffers (NpyHeader.fromReader M py) bs <+: [8, w, n] ∧ n < 256 ^ w ∧ (w = 2 ∨ w = 4) ∧ (bs[6]? = some 1 → w = 2) := by
  simp only [NpyHeader.fromReader, readHeader, readMagicAndVersion, bind, RProg.bind, buffers]
  have one : ∀ l : List Nat, l = [] → ∃ w n, 8 :: l <+: [8, w, n] ∧ n < 256 ^ w ∧ (w = 2 ∨ w = 4) ∧ (bs[6]? = some 1 → w = 2) := by
    rintro l rfl
    exact ⟨2, 0, ⟨[2, 0], rfl⟩, by decide, .inl rfl, fun _ => rfl⟩
  by_cases h8 : 8 ≤ bs.length
  · rw [if_pos h8]
    by_cases hm : List.take 6 (List.take 8 bs) = magic
    · simp only [if_pos hm, RProg.bind, RProg.lift]
      rcases hv : getVersionProps ((List.take 8 bs).getD 6 0) ((List.take 8 bs).getD 7 0) with p | e | _
      · simp only [RProg.bind, readHeaderSize, bind, RProg.readExact, buffers, pure]
        have tail : ∀ w, (w = 2 ∨ w = 4) → (bs[6]? = some 1 → w = 2) → ∃ w' n, (8 :: w :: if w ≤ (List.drop 8 bs).length then
            buffers (((RProg.ret (M.allocBytes (leNat (List.take w (List.drop 8 bs))))).bind fun _ =>
              RProg.read (leNat (List.take w (List.drop 8 bs))) .unexpectedEof fun text => RProg.ret (parseHeaderText py text)).bind
                fun v => RProg.ret (interpretHeader M v)) (List.drop w (List.drop 8 bs)) else []) <+: [8, w', n] ∧ n < 256 ^ w' ∧
            (w' = 2 ∨ w' = 4) ∧ (bs[6]? = some 1 → w' = 2) := by
          intro w hw1 hw2
          by_cases hl : w ≤ (List.drop 8 bs).length
          · rw [if_pos hl]
            have hlt := leNat_lt (List.take w (List.drop 8 bs))
            rw [List.length_take, Nat.min_eq_left hl] at hlt
            generalize leNat (List.take w (List.drop 8 bs)) = n at hlt
            refine ⟨w, n, ?_, hlt, hw1, hw2⟩
            rcases M.allocBytes n with _ | e | _
            · simp only [RProg.bind, buffers]
              refine List.cons_prefix_cons.mpr ⟨rfl, List.cons_prefix_cons.mpr ⟨rfl, List.cons_prefix_cons.mpr ⟨rfl, ?_⟩⟩⟩
              by_cases hn : n ≤ (List.drop w (List.drop 8 bs)).length
              · rw [if_pos hn]
                rcases parseHeaderText py (List.take n (List.drop w (List.drop 8 bs))) with v | e | _ <;> exact List.nil_prefix
              · rw [if_neg hn]; exact List.nil_prefix
            · exact ⟨[n], rfl⟩
            · exact ⟨[n], rfl⟩
          · rw [if_neg hl]
            exact ⟨w, 0, ⟨[0], rfl⟩, Nat.pow_pos (by decide), hw1, hw2⟩
        obtain ⟨st, en⟩ := p
        cases st with
        | u16 => exact tail 2 (.inl rfl) (fun _ => rfl)
        | u32 =>
          refine tail 4 (.inr rfl) (fun h => ?_)
          have hg : (List.take 8 bs).getD 6 0 = 1 := by
            rw [List.getD_eq_getElem?_getD, List.getElem?_take, if_pos (by decide), h]; rfl
          rw [hg] at hv
          unfold getVersionProps at hv
          by_cases h2 : (List.take 8 bs).getD 7 0 = 0
          · rw [if_pos ⟨rfl, h2⟩] at hv; cases hv
          · rw [if_neg (fun h => h2 h.2), if_neg (by simp), if_neg (by simp)] at hv; cases hv
      · exact one _ rfl
      · exact one _ rfl
    · simp only [if_neg hm]
      exact one _ rfl
  · rw [if_neg h8]
    exact one _ rfl

/-- C83: reading a header asks for at most three buffers: 8 bytes, the length field, and as many bytes as the length
field says; all but the last are filled with bytes of the file.  So none is larger than 64 KiB in version 1 and
4 GiB in the other versions. -/
theorem C83_header_partial {M : Machine} {py : PyParser} (bs : Bytes) :
    (buffers (NpyHeader.fromReader M py) bs).dropLast.sum ≤ bs.length ∧
    (∀ n ∈ buffers (NpyHeader.fromReader M py) bs, n < 2 ^ 32) ∧
    (bs[6]? = some 1 → ∀ n ∈ buffers (NpyHeader.fromReader M py) bs, n < 2 ^ 16) ∧
    (buffers (NpyHeader.fromReader M py) bs).length ≤ 3 := by
  refine ⟨buffers_filled _ _, ?_⟩
  obtain ⟨w, n, hp, hn, hw, h1⟩ := header_buffers (M := M) (py := py) bs
  have hm : ∀ k ∈ buffers (NpyHeader.fromReader M py) bs, k = 8 ∨ k = w ∨ k = n := fun k hk => by
    simpa using hp.subset hk
  refine ⟨fun k hk => ?_, fun hv k hk => ?_, by simpa using hp.length_le⟩
  · have := hm k hk
    rcases hw with rfl | rfl <;> simp only [Nat.reducePow] at * <;> omega
  · have := hm k hk
    have := h1 hv
    subst this
    simp only [Nat.reducePow] at *
    omega

/-- C83: reading one element, from whatever bytes, asks for buffers of at most the item size of the dtype, all
together. -/
theorem C83_element_partial {M : Machine} {σ : Type} {t : Ty} {f : NpyFile σ} {r : NpyReader t.Val σ} {size : Nat} (ho : Opened M f.header)
    (hs : f.header.itemSize = some size) (hm : size ≤ M.isizeMax) (h : f.data M t = .ok r) (bs : Bytes) :
    (buffers r.prog bs).sum ≤ size ∧ (buffers r.prog bs).dropLast.sum ≤ bs.length := by
  refine ⟨?_, buffers_filled _ _⟩
  obtain ⟨n, -, hn, hr⟩ := opened_reads ho h
  rw [hs] at hn
  cases hn
  exact (hr hm).buffers_le bs

example : ∃ (f : NpyFile Src) (r : NpyReader f64.Val Src), f.data ⟨false, 64, true⟩ f64 = .ok r ∧ ∀ bs, (buffers r.prog bs).sum ≤ 8 := by
  obtain ⟨f, r, h0, -, h2, h3, -⟩ := twoFloats_reader
  exact ⟨f, r, h2, fun bs => (C83_element_partial h0 h3.size (by decide) h2 bs).1⟩

/-- C83: so a file whose header is complete and that contains at least one item of its dtype never makes its reader ask
for more than its own length. -/
theorem C83_complete_partial {M : Machine} {py : PyParser} {t : Ty} {bytes : Bytes} {f : NpyFile Src} {s : Src} {r : NpyReader t.Val Src} {size : Nat}
    (hnew : NpyFile.new M py disk ⟨bytes, 0⟩ = (.ok f, s)) (hs : f.header.itemSize = some size) (hm : size ≤ M.isizeMax)
    (h : f.data M t = .ok r) (hc : f.src.pos + size ≤ bytes.length) :
    (buffers (NpyHeader.fromReader M py) bytes).sum ≤ f.src.pos ∧
    ∀ i, (buffers r.prog (bytes.drop (f.src.pos + i * size))).sum ≤ bytes.length - f.src.pos := by
  obtain ⟨ho, -, -, hp, hrun⟩ := new_disk hnew
  constructor
  · obtain ⟨used, hu, hl⟩ := RProg.run_ok_local hrun
    have h0 := hl [0]
    have hn := hl []
    rw [List.append_nil] at hn
    have hful : buffers (NpyHeader.fromReader M py) bytes = buffers (NpyHeader.fromReader M py) used := by
      conv => lhs; rw [hu]
      exact buffers_exact hn _
    have := buffers_sum (NpyHeader.fromReader M py) (used ++ [0]) (by rw [h0]; simp)
    rw [h0, buffers_exact hn [0]] at this
    rw [hful]
    have hlen := congrArg List.length hu
    simp only [List.length_append, List.length_drop, List.length_cons, List.length_nil] at this hlen
    omega
  · intro i
    have := (C83_element_partial ho hs hm h (bytes.drop (f.src.pos + i * size))).1
    omega

-- the hypotheses are met by a file of two doubles
example : ∃ (f : NpyFile Src) (r : NpyReader f64.Val Src), NpyFile.new ⟨false, 64, true⟩ Py.parse disk ⟨twoFloats, 0⟩ = (.ok f, f.src) ∧
    f.header.itemSize = some 8 ∧ f.data ⟨false, 64, true⟩ f64 = .ok r ∧ f.src.pos + 8 ≤ twoFloats.length := by
  obtain ⟨f, r, -, h1, h2, h3, h4, h5, -⟩ := twoFloats_reader
  obtain ⟨-, -, h6, -⟩ := new_disk h1
  exact ⟨f, r, h1, h3.size, h2, by rw [h6] at h5; omega⟩

end Npyz.Props
