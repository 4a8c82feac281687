import Verif.Props.Stream
import Verif.Props.Resave
import Verif.Proofs.Portable
/-!
C107: what one machine can read or write, a bigger one can.
-/
namespace Npyz.Spec
set_option autoImplicit false

/-- `M'` has at least the word size of `M`, and checks for overflow only if `M` does. -/
structure AtLeast (M M' : Machine) : Prop where
  words : M.usizeBits ≤ M'.usizeBits
  checks : M'.overflowChecks = true → M.overflowChecks = true

end Npyz.Spec

namespace Npyz.Props
set_option autoImplicit false
open Npyz.Spec

variable {M M' : Machine} {py : PyParser} {t : Ty} {d : DType} {size : Nat}

theorem lim_mono (h : AtLeast M M') : M.usizeLim ≤ M'.usizeLim := Nat.pow_le_pow_right (by decide) h.words

theorem isize_mono (h : AtLeast M M') : M.isizeMax ≤ M'.isizeMax :=
  Nat.sub_le_sub_right (Nat.pow_le_pow_right (by decide) (Nat.sub_le_sub_right h.words 1)) 1

mutual
theorem allFit_mono {lim lim' : Nat} (h : lim ≤ lim') : (d : DType) → AllFit lim d → AllFit lim' d
  | .plain _, hf => fun n hn => Nat.lt_of_lt_of_le (hf n hn) h
  | .array _ d, hf => ⟨allFit_mono h d hf.1, Nat.lt_of_lt_of_le hf.2.1 h, fun k hk => Nat.lt_of_lt_of_le (hf.2.2 k hk) h⟩
  | .record fs, hf => ⟨fieldsFit_mono h fs hf.1, fun k hk => Nat.lt_of_lt_of_le (hf.2 k hk) h⟩
theorem fieldsFit_mono {lim lim' : Nat} (h : lim ≤ lim') : (fs : Fields) → FieldsFit lim fs → FieldsFit lim' fs
  | .nil, _ => trivial
  | .cons _ d rest, hf => ⟨allFit_mono h d hf.1, fieldsFit_mono h rest hf.2⟩
end

mutual
theorem sizesFit_mono {lim lim' : Nat} (h : lim ≤ lim') : (d : DType) → SizesFit lim d → SizesFit lim' d
  | .plain _, hf => Nat.lt_of_lt_of_le hf h
  | .array _ d, hf => sizesFit_mono h d hf
  | .record fs, hf => fieldSizesFit_mono h fs hf
theorem fieldSizesFit_mono {lim lim' : Nat} (h : lim ≤ lim') : (fs : Fields) → FieldSizesFit lim fs → FieldSizesFit lim' fs
  | .nil, _ => trivial
  | .cons _ d rest, hf => ⟨sizesFit_mono h d hf.1, fieldSizesFit_mono h rest hf.2⟩
end

theorem mulU64_mono (h : AtLeast M M') {a b c : Nat} (hx : M.mulU64 a b = .ok c) : M'.mulU64 a b = .ok c := by
  unfold Machine.mulU64 at hx ⊢
  split at hx
  · next hl => rw [if_pos hl]; exact hx
  · next hl =>
    rw [if_neg hl]
    split at hx
    · cases hx
    · next hc => rw [if_neg (fun h' => hc (h.checks h'))]; exact hx

theorem shapeProduct_mono (h : AtLeast M M') : ∀ (dims : List Nat) {acc x : Nat}, shapeProduct M acc dims = .ok x → shapeProduct M' acc dims = .ok x
  | [], _, _, hx => hx
  | k :: ks, acc, x, hx => by
    simp only [shapeProduct, Out.bind_eq_ok] at hx ⊢
    obtain ⟨a, h1, h2⟩ := hx
    exact ⟨a, mulU64_mono h h1, shapeProduct_mono h ks h2⟩

theorem prefixProducts_mono (h : AtLeast M M') : ∀ (dims : List Nat) {acc : Nat} {x : List Nat}, prefixProducts M acc dims = .ok x →
    prefixProducts M' acc dims = .ok x
  | [], _, _, hx => hx
  | k :: ks, acc, x, hx => by
    simp only [prefixProducts, Out.bind_eq_ok] at hx ⊢
    obtain ⟨a, h1, r, h2, h3⟩ := hx
    exact ⟨a, mulU64_mono h h1, r, prefixProducts_mono h ks h2, h3⟩

theorem computeStrides_mono (h : AtLeast M M') {o : Order} {dims x : List Nat} (hx : computeStrides M o dims = .ok x) : computeStrides M' o dims = .ok x := by
  cases o with
  | c =>
    simp only [computeStrides, Out.bind_eq_ok] at hx ⊢
    obtain ⟨a, h1, h2⟩ := hx
    exact ⟨a, prefixProducts_mono h _ h1, h2⟩
  | fortran => exact prefixProducts_mono h _ hx

theorem itemSizeOf_mono (h : AtLeast M M') {x : Option Nat} (hx : itemSizeOf M d = .ok x) : itemSizeOf M' d = .ok x := by
  rcases itemSizeOf_ok_iff.mp hx with h1 | ⟨h1, h2, h3⟩
  · exact itemSizeOf_ok_iff.mpr (.inl h1)
  · exact itemSizeOf_ok_iff.mpr (.inr ⟨h1, allFit_mono (lim_mono h) d h2, h3⟩)

theorem fromParts_mono (h : AtLeast M M') {shape : List Nat} {o : Order} {x : NpyHeader} (hx : NpyHeader.fromParts M d shape o = .ok x) :
    NpyHeader.fromParts M' d shape o = .ok x := by
  simp only [NpyHeader.fromParts, Out.bind_eq_ok] at hx ⊢
  obtain ⟨n, h1, i, h2, s, h3, h4⟩ := hx
  exact ⟨n, shapeProduct_mono h _ h1, i, itemSizeOf_mono h h2, s, computeStrides_mono h h3, h4⟩

theorem interpretHeader_mono (h : AtLeast M M') {v : PyVal} {x : NpyHeader} (hx : interpretHeader M v = .ok x) : interpretHeader M' v = .ok x := by
  cases v with
  | dict kvs =>
    simp only [interpretHeader, Out.bind_eq_ok, interpretDict] at hx ⊢
    obtain ⟨d, h1, fo, h2, o, h3, sh, h4, shape, h5, de, h6, dt, h7, h8⟩ := hx
    exact ⟨d, h1, fo, h2, o, h3, sh, h4, shape, h5, de, h6, dt, h7, fromParts_mono h h8⟩
  | _ => simp [interpretHeader] at hx

theorem fromReader_mono (h : AtLeast M M') {bs r : Bytes} {x : NpyHeader} (hx : (NpyHeader.fromReader M py).run bs = (.ok x, r)) :
    (NpyHeader.fromReader M' py).run bs = (.ok x, r) := by
  unfold NpyHeader.fromReader readHeader at hx ⊢
  simp only [RProg.run_bind_ok, RProg.run_lift, Prod.mk.injEq] at hx ⊢
  obtain ⟨v, r1, ⟨a, r2, h1, p, r3, h2, n, r4, h3, u, r5, ⟨h4, h4'⟩, text, r6, h5, h6⟩, h7, h8⟩ := hx
  refine ⟨v, r1, ⟨a, r2, h1, p, r3, h2, n, r4, h3, u, r5, ⟨?_, h4'⟩, text, r6, h5, h6⟩, interpretHeader_mono h h7, h8⟩
  unfold Machine.allocBytes at h4 ⊢
  split at h4
  · next hle => rw [if_pos (Nat.le_trans hle (isize_mono h))]
  · cases h4

/-- C107: a file that can be opened on one machine can be opened on a bigger one, with the same header and at the same place. -/
theorem C107_open (h : AtLeast M M') {src s : Src} {f : NpyFile Src} (hf : NpyFile.new M py disk src = (.ok f, s)) :
    NpyFile.new M' py disk src = (.ok f, s) := by
  unfold NpyFile.new at hf ⊢
  simp only [disk] at hf ⊢
  rcases hx : (NpyHeader.fromReader M py).run src.rest with ⟨(x | e | _), r⟩
  · rw [hx] at hf
    rw [fromReader_mono h hx]
    exact hf
  · rw [hx] at hf; cases hf
  · rw [hx] at hf; cases hf

/-- C107: the same element types are accepted there, and more of them. -/
theorem C107_types (hM : M.Wf) (hM' : M'.Wf) (h : AtLeast M M') : ((∃ p, t.reader M d = .ok p) → ∃ p, t.reader M' d = .ok p) ∧
    ((∃ w, t.writer M d = .ok w) → ∃ w, t.writer M' d = .ok w) := by
  rw [reader_ok_iff hM, reader_ok_iff hM', writer_ok_iff hM, writer_ok_iff hM']
  exact ⟨fun hx => ⟨hx.1, sizesFit_mono (lim_mono h) d hx.2⟩, fun hx => ⟨hx.1, sizesFit_mono (lim_mono h) d hx.2⟩⟩

/-- C107: an array that can be read on one machine is read on a bigger one, with the same elements. -/
theorem C107_read (hM : M.Wf) (hM' : M'.Wf) (h : AtLeast M M') {src : Src} {vs : List t.Val} (hr : readFile M py disk t src = .ok vs)
    (hs : ∀ f, (NpyFile.new M py disk src).1 = .ok f → ∃ size, exactBytes f.header.dtype = some size ∧ size ≤ M.isizeMax) :
    readFile M' py disk t src = .ok vs := by
  unfold readFile at hr ⊢
  rcases hx : NpyFile.new M py disk src with ⟨(f | e | _), s⟩
  · rw [hx] at hr hs
    rw [C107_open h hx]
    simp only at hr hs ⊢
    obtain ⟨size, hn, hm⟩ := hs f rfl
    obtain ⟨ho, hb⟩ := opened_of_new (congrArg Prod.fst hx)
    obtain ⟨ho', -⟩ := opened_of_new (congrArg Prod.fst (C107_open h hx))
    obtain ⟨-, -, -, hi⟩ := opened ho
    have hsz : f.header.itemSize = some size := by
      rcases hi with ⟨h1, -⟩ | ⟨-, -, n, h1, h2⟩
      · have := (exactBytes_none_iff _).mpr h1; rw [hn] at this; cases this
      · rw [hn] at h1; cases h1; exact h2
    rcases C21_into_vec (t := t) ho hsz hm hb with ⟨ws, h1, h2, -, h4⟩ | ⟨e, h1, -⟩
    · rw [h1] at hr; cases hr
      rcases C21_into_vec (t := t) ho' hsz (Nat.le_trans hm (isize_mono h)) hb with ⟨ws', h1', h2', -, h4'⟩ | ⟨e, h1', hno⟩
      · rw [h1']
        refine congrArg Out.ok ?_
        apply List.ext_getElem (h2'.trans h2.symm)
        intro i hi hi'
        have := (h4' i hi).symm.trans (h4 i hi')
        exact Option.some.inj this
      · exfalso
        rcases hno with ⟨why, hw⟩ | ⟨i, hi, hno⟩
        · have hd : ∃ r, f.data M t = .ok r := by
            cases hy : f.data M t with
            | ok r => exact ⟨r, rfl⟩
            | err e => unfold NpyFile.intoVec at h1; rw [hy] at h1; cases h1
            | panic => unfold NpyFile.intoVec at h1; rw [hy] at h1; cases h1
          obtain ⟨r, hd⟩ := hd
          obtain ⟨hp, p, hp', -⟩ := data_ok_iff.mp hd
          obtain ⟨q, hq⟩ := (C107_types hM hM' h).1 ⟨p, hp'⟩
          rw [data_ok_iff.mpr ⟨hp, q, hq, rfl⟩] at hw
          cases hw
        · rw [h4 i (by omega)] at hno; cases hno
    · rw [h1] at hr; cases hr
  · rw [hx] at hr; cases hr
  · rw [hx] at hr; cases hr

/-- C107: an array that can be written on one machine is written on a bigger one, with the same bytes. -/
theorem C107_write (hM : M.Wf) (hM' : M'.Wf) (h : AtLeast M M') (hd : d.Wf) (hn : exactBytes d = some size) (hm : size ≤ M.isizeMax)
    {o : Order} {hint : ShapeHint} (hh : hint.Fits) {vs : List t.Val} (hc : vs.length < 2 ^ 64) {s s' : Sink}
    (hpos : hint.seeks = true → s.pos + dictBytes d o hint + 76 ≤ 2 ^ 64)
    (hs : NpyWriter.save M solid t d o hint vs s = (.ok (), s')) : NpyWriter.save M' solid t d o hint vs s = (.ok (), s') := by
  refine C69_same_file hd hn hm (Nat.le_trans hm (isize_mono h)) ((C107_types hM hM' h).2 ?_) hh hc hpos hs
  obtain ⟨items, -, -, -, -, -, -, hw⟩ := save_ok hd hn hm hc hpos hs
  exact hw

/-- From a 32-bit big-endian machine with overflow checks to a 64-bit little-endian one without. -/
theorem bigger_pc : AtLeast ⟨true, 32, true⟩ ⟨false, 64, false⟩ := ⟨by decide, fun h => by cases h⟩

/-- C107_open, C107_types: a file that opens on the smaller machine, and a type. -/
example : ∃ f, NpyFile.new ⟨true, 32, true⟩ Py.parse disk ⟨twoFloats, 0⟩ = (.ok f, f.src) ∧ NpyFile.new ⟨false, 64, false⟩ Py.parse disk ⟨twoFloats, 0⟩ = (.ok f, f.src) :=
  let ⟨f, _, h, _⟩ := openAnd_ok (M := ⟨true, 32, true⟩) (t := f64) (bytes := twoFloats) (P := fun _ => true) (by decide +kernel)
  ⟨f, h, C107_open bigger_pc h⟩

example : ∃ p, f64.reader ⟨false, 64, false⟩ (.plain ⟨.big, .float, 8, none⟩) = .ok p := (C107_types (.inl rfl) (.inr rfl) bigger_pc).1 ⟨_, rfl⟩

example : ∃ vs : List f64.Val, readFile ⟨true, 32, true⟩ Py.parse disk f64 ⟨twoFloats, 0⟩ = .ok vs ∧
    readFile ⟨false, 64, false⟩ Py.parse disk f64 ⟨twoFloats, 0⟩ = .ok vs := by
  obtain ⟨f, r, h0, h1, -, -, h2, h3⟩ := openAnd_ok (M := ⟨true, 32, true⟩) (t := f64) (bytes := twoFloats)
    (P := fun r => match readFile ⟨true, 32, true⟩ Py.parse disk f64 ⟨twoFloats, 0⟩ with
      | .ok vs => vs.length == 2 && r.header.itemSize == some 8
      | _ => false) (by decide +kernel)
  have hr : r.header = f.header := by obtain ⟨-, p, -, e⟩ := data_ok_iff.mp h2; rw [e]
  cases hx : readFile ⟨true, 32, true⟩ Py.parse disk f64 ⟨twoFloats, 0⟩ with
  | ok vs =>
    refine ⟨vs, rfl, C107_read (.inl rfl) (.inr rfl) bigger_pc hx fun g hg => ?_⟩
    rw [h0] at hg
    cases Out.ok.inj hg
    simp only [hx, hr, Bool.and_eq_true, beq_iff_eq] at h3
    obtain ⟨-, -, -, hi⟩ := opened h1
    rcases hi with ⟨-, e⟩ | ⟨-, -, n, e1, e2⟩
    · rw [e] at h3; cases h3.2
    · rw [e2] at h3
      cases h3.2
      exact ⟨8, e1, by decide⟩
  | err e => rw [hx] at h3; cases h3
  | panic => rw [hx] at h3; cases h3

end Npyz.Props
