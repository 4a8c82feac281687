import Verif.Spec.Framing
import Verif.Proofs.Blanks
import Verif.Proofs.Numpy
import Verif.Props.Apart
/-!
C96: the version of a header, the blanks around its text and the newline at its end do not matter.
-/
namespace Npyz.Props
set_option autoImplicit false
open Npyz.Spec

/-- C96: headers with the same text are read alike, or rejected alike, in all versions, whatever the text is. -/
theorem C96_version {M : Machine} {py : PyParser} {bs bs' : Bytes} (h : Framed M bs) (h' : Framed M bs')
    (ht : headerBody bs = headerBody bs') (hd : behind bs = behind bs') :
    (NpyHeader.fromReader M py).run bs = (NpyHeader.fromReader M py).run bs' := by
  rw [run_body h.1 h.2 h.3, run_body h'.1 h'.2 h'.3, ht]
  exact congrArg _ hd

theorem parse_line {py : PyParser} (hpy : py.ExtendsRef) {text : Text} {v : PyVal} (hv : Py.parse text = some v) (hn : '\n' ∉ text)
    {b : Bytes} (h : Line text b) : parseHeaderText py b = .ok v := by
  cases h with
  | bare m n =>
    unfold parseHeaderText
    rw [stripNewline_of_not_mem, decodeUtf8_encode]
    · simp only [hpy _ _ (Py.parse_blanks hv m n), parseResult]
    · intro hm
      have := mem_encodeUtf8_newline hm
      simp [List.mem_append, List.mem_replicate] at this
      exact hn this
  | ended m n =>
    rw [parseHeaderText_append, hpy _ _ (Py.parse_blanks hv m n)]
    rfl

/-- C96: headers whose texts differ by blanks around the literal and by a final newline are read alike, in all versions. -/
theorem C96_padding {M : Machine} {py : PyParser} (hpy : py.ExtendsRef) {text : Text} {v : PyVal} (hv : Py.parse text = some v)
    (hn : '\n' ∉ text) {bs bs' : Bytes} (h : Framed M bs) (h' : Framed M bs') (ht : Line text (headerBody bs))
    (ht' : Line text (headerBody bs')) (hd : behind bs = behind bs') :
    (NpyHeader.fromReader M py).run bs = (NpyHeader.fromReader M py).run bs' := by
  rw [run_body h.1 h.2 h.3, run_body h'.1 h'.2 h'.3, finishHeader, finishHeader, parse_line hpy hv hn ht, parse_line hpy hv hn ht']
  exact congrArg _ hd

/-- The headers have the same text, as far as it matters. -/
def SameText (py : PyParser) (b b' : Bytes) : Prop :=
  b = b' ∨ (py.ExtendsRef ∧ ∃ text v, Py.parse text = some v ∧ '\n' ∉ text ∧ Line text b ∧ Line text b')

/-- C96: files that differ only in the version, the padding and the newline of their headers are the same to every program that reads
them: the headers are the same, and for every element type, also a user-defined one, so is everything that is read from the data,
one element after the other or in any order. -/
theorem C96_file {M : Machine} {py : PyParser} {bs bs' : Bytes} (h : Framed M bs) (h' : Framed M bs')
    (ht : SameText py (headerBody bs) (headerBody bs')) (hd : behind bs = behind bs') {f : NpyFile Src}
    (hf : (NpyFile.new M py disk ⟨bs, 0⟩).1 = .ok f) :
    ∃ f', (NpyFile.new M py disk ⟨bs', 0⟩).1 = .ok f' ∧ f'.header = f.header ∧
      ∀ {V : Type} (reader : DType → DRes (RProg V)) (r : NpyReader V Src), f.dataWith reader = .ok r →
        ∃ r', f'.dataWith reader = .ok r' ∧
          (∀ k, (r.steps M disk (List.replicate k .next)).1 = (r'.steps M disk (List.replicate k .next)).1) ∧
          (∀ vs, (r.collect disk).1 = .ok vs ↔ (r'.collect disk).1 = .ok vs) ∧
          ∀ size dec, (∀ p, reader f.header.dtype = .ok p → Decodes p size dec) → Fits (headerEnd bs) size f.header →
            Fits (headerEnd bs') size f.header → ∀ ops, InRange f.header.nRecords ops →
            Seen.failed ∉ (expected (itemAt dec bs (headerEnd bs) size) f.header.nRecords ops 0).dropLast →
            (r.steps M disk ops).1.map seen = (r'.steps M disk ops).1.map seen := by
  have hrun : (NpyHeader.fromReader M py).run bs = (NpyHeader.fromReader M py).run bs' := by
    rcases ht with ht | ⟨hpy, text, v, hv, hn, h1, h2⟩
    · exact C96_version h h' ht hd
    · exact C96_padding hpy hv hn h h' h1 h2 hd
  obtain ⟨a1, a2⟩ := C89_position hf
  have a3 := (C89_new.2 f _ (Prod.ext hf rfl)).1
  have a4 : ((NpyHeader.fromReader M py).run bs).1 = .ok f.header := congrArg Prod.fst a3
  have b3 : disk.exec (NpyHeader.fromReader M py) ⟨bs', 0⟩ = (.ok f.header, (disk.exec (NpyHeader.fromReader M py) ⟨bs', 0⟩).2) :=
    Prod.ext (show ((NpyHeader.fromReader M py).run bs').1 = _ by rw [← hrun, a4]) rfl
  have b5 := congrArg Prod.fst (C89_new.1 _ _ b3)
  obtain ⟨b1, b2⟩ := C89_position b5
  obtain ⟨f', hf'⟩ : ∃ f', f' = NpyFile.withHeader f.header (disk.exec (NpyHeader.fromReader M py) ⟨bs', 0⟩).2 := ⟨_, rfl⟩
  have hh : f'.header = f.header := by rw [hf']; rfl
  rw [← hf'] at b5 b1
  refine ⟨f', b5, hh, fun {V} reader r hr => ?_⟩
  have s1 : f.src = ⟨bs, headerEnd bs⟩ := by
    have : f.src = { (⟨bs, 0⟩ : Src) with pos := 0 + headerEnd bs } := a1
    rw [this, Nat.zero_add]
  have s2 : f'.src = ⟨bs', headerEnd bs'⟩ := by
    have : f'.src = { (⟨bs', 0⟩ : Src) with pos := 0 + headerEnd bs' } := b1
    rw [this, Nat.zero_add]
  obtain ⟨h5, p, h6, rfl⟩ := dataWith_ok_iff.mp hr
  have hr' : f'.dataWith reader = .ok ⟨f'.header, p, f'.src, 0⟩ := dataWith_ok_iff.mpr ⟨by rw [hh]; exact h5, p, by rw [hh]; exact h6, rfl⟩
  rw [hh] at hr'
  have hw' : NpyFile.withHeader f.header f'.src = f' := by rw [← hh]; rfl
  have hsame : f.src.rest = f'.src.rest := by rw [s1, s2]; exact hd
  have p1 : f.src.pos ≤ f.src.data.length := by rw [s1]; exact h.whole
  have p2 : f'.src.pos ≤ f'.src.data.length := by rw [s2]; exact h'.whole
  have key := C89_same_rest (M := M) (header := f.header) hsame p1 p2 (show (NpyFile.withHeader f.header f.src).dataWith reader = _ from hr)
    (by rw [hw']; exact hr')
  refine ⟨_, hr', key.1, key.2, fun size dec hdec hfit hfit' ops hop hok => ?_⟩
  exact C89_same_data (s := f.src) (s' := f'.src) hdec (by rw [s1]; exact hfit) (by rw [s2]; exact hfit') p1 p2
    (congrArg (List.take _) hsame) (show (NpyFile.withHeader f.header f.src).dataWith reader = _ from hr) (by rw [hw']; exact hr') ops hop
    (by rw [s1]; exact hok)

theorem cut_mid {pre text rest : Bytes} {w : Nat} (h : pre.length = w) :
    (((pre ++ text ++ rest).take (w + text.length)).drop w = text) ∧ (pre ++ text ++ rest).drop (w + text.length) = rest := by
  subst h
  rw [← List.length_append, List.take_left', List.drop_left', List.drop_left']
  · exact ⟨rfl, rfl⟩
  all_goals rfl

theorem frame_framed {M : Machine} {v : Nat} (hv : v = 1 ∨ v = 2 ∨ v = 3) {text rest : Bytes}
    (hl : text.length < if v = 1 then 2 ^ 16 else 2 ^ 32) (hm : text.length + 12 ≤ M.isizeMax) :
    Framed M (frame v text ++ rest) ∧ headerBody (frame v text ++ rest) = text ∧ behind (frame v text ++ rest) = rest := by
  obtain ⟨w, hw⟩ : ∃ w, w = if v = 1 then 10 else 12 := ⟨_, rfl⟩
  have e : headerEnd (frame v text ++ rest) = w + text.length := by
    rcases hv with rfl | rfl | rfl <;>
      simp [frame, headerEnd, byteAt, magicBytes, List.range_succ] at hl hw ⊢ <;> omega
  have g : GoodPreamble (frame v text ++ rest) := by
    rcases hv with rfl | rfl | rfl <;> simp [frame, GoodPreamble, byteAt, magicBytes]
  have b : byteAt (frame v text ++ rest) 6 = v := by
    rcases hv with rfl | rfl | rfl <;> simp [frame, byteAt, magicBytes]
  obtain ⟨pre, hp, hpl⟩ : ∃ pre : Bytes, frame v text = pre ++ text ∧ pre.length = w := by
    refine ⟨_, rfl, ?_⟩
    rcases hv with rfl | rfl | rfl <;> simp [magicBytes, hw]
  have hw12 : w ≤ 12 := by rw [hw]; split <;> omega
  obtain ⟨c1, c2⟩ := cut_mid (text := text) (rest := rest) hpl
  refine ⟨⟨g, ?_, by omega⟩, ?_, ?_⟩
  · rw [e, hp]
    simp only [List.length_append]
    omega
  · rw [headerBody, b, e, ← hw, hp]
    exact c1
  · rw [behind, e, hp]
    exact c2

/-- C96: the same text in the three versions. -/
theorem C96_frame {M : Machine} {py : PyParser} {v v' : Nat} (hv : v = 1 ∨ v = 2 ∨ v = 3) (hv' : v' = 1 ∨ v' = 2 ∨ v' = 3) {text rest : Bytes}
    (hl : text.length < if v = 1 then 2 ^ 16 else 2 ^ 32) (hl' : text.length < if v' = 1 then 2 ^ 16 else 2 ^ 32)
    (hm : text.length + 12 ≤ M.isizeMax) :
    (NpyHeader.fromReader M py).run (frame v text ++ rest) = (NpyHeader.fromReader M py).run (frame v' text ++ rest) := by
  obtain ⟨h1, h2, h3⟩ := frame_framed (rest := rest) hv hl hm
  obtain ⟨h1', h2', h3'⟩ := frame_framed (rest := rest) hv' hl' hm
  exact C96_version h1 h1' (h2.trans h2'.symm) (h3.trans h3'.symm)

/-- A header as a program other than this library or NumPy may write it: version 2, no padding, no newline. -/
def terse : Bytes := "{'descr':'<u2','fortran_order':False,'shape':(3,)}".toList.map fun c => UInt8.ofNat c.toNat

/-- The same with blanks and a newline. -/
def padded : Bytes := (List.replicate 7 32 ++ terse ++ List.replicate 40 32) ++ [10]

def threeWords : Bytes := [1, 0, 2, 0, 3, 1]

/-- C96_version, C96_frame: the same text in versions 1 and 2. -/
example : (NpyHeader.fromReader ⟨false, 64, true⟩ Py.parse).run (frame 2 terse ++ threeWords) =
    (NpyHeader.fromReader ⟨false, 64, true⟩ Py.parse).run (frame 1 terse ++ threeWords) := by
  have hl : terse.length = 50 := by decide +kernel
  obtain ⟨a, a1, a2⟩ := frame_framed (M := ⟨false, 64, true⟩) (v := 2) (text := terse) (rest := threeWords) (by decide) (by rw [hl]; decide) (by rw [hl]; decide)
  obtain ⟨b, b1, b2⟩ := frame_framed (M := ⟨false, 64, true⟩) (v := 1) (text := terse) (rest := threeWords) (by decide) (by rw [hl]; decide) (by rw [hl]; decide)
  exact C96_version a b (a1.trans b1.symm) (a2.trans b2.symm)

/-- C96_padding, C96_file. -/
example {M : Machine} (hM : M.Wf) {py : PyParser} (hpy : py.ExtendsRef) {f : NpyFile Src}
    (hf : (NpyFile.new M py disk ⟨frame 2 terse ++ threeWords, 0⟩).1 = .ok f) :
    ∃ f', (NpyFile.new M py disk ⟨frame 1 padded ++ threeWords, 0⟩).1 = .ok f' ∧ f'.header = f.header := by
  have hm : 4294967295 / 2 ≤ M.isizeMax := by rcases hM with h | h <;> unfold Machine.isizeMax <;> rw [h] <;> decide
  have hl : terse.length = 50 := by decide +kernel
  have hl' : padded.length = 98 := by decide +kernel
  obtain ⟨a, a1, a2⟩ := frame_framed (M := M) (v := 2) (text := terse) (rest := threeWords) (by decide) (by rw [hl]; decide) (by omega)
  obtain ⟨b, b1, b2⟩ := frame_framed (M := M) (v := 1) (text := padded) (rest := threeWords) (by decide) (by rw [hl']; decide) (by omega)
  obtain ⟨v, hv⟩ : ∃ v, Py.parse "{'descr':'<u2','fortran_order':False,'shape':(3,)}".toList = some v :=
    Option.isSome_iff_exists.mp (by decide +kernel)
  have l1 : terse = encodeUtf8 (List.replicate 0 ' ' ++ "{'descr':'<u2','fortran_order':False,'shape':(3,)}".toList ++ List.replicate 0 ' ') := by decide +kernel
  have l2 : padded = encodeUtf8 (List.replicate 7 ' ' ++ "{'descr':'<u2','fortran_order':False,'shape':(3,)}".toList ++ List.replicate 40 ' ') ++ [10] := by
    decide +kernel
  obtain ⟨f', h1, h2, -⟩ := C96_file a b (py := py)
    (.inr ⟨hpy, _, v, hv, by decide +kernel, by rw [a1, l1]; exact .bare 0 0, by rw [b1, l2]; exact .ended 7 40⟩) (a2.trans b2.symm) hf
  exact ⟨f', h1, h2⟩

/-- Its hypothesis is met. -/
example : ∃ f, (NpyFile.new ⟨false, 64, true⟩ Py.parse disk ⟨frame 2 terse ++ threeWords, 0⟩).1 = .ok f ∧ f.header.shape = [3] := by
  rcases h : (NpyFile.new ⟨false, 64, true⟩ Py.parse disk ⟨frame 2 terse ++ threeWords, 0⟩).1 with f | _ | _
  · refine ⟨f, rfl, ?_⟩
    have : (match (NpyFile.new ⟨false, 64, true⟩ Py.parse disk ⟨frame 2 terse ++ threeWords, 0⟩).1 with
      | .ok f => decide (f.header.shape = [3]) | _ => false) = true := by decide +kernel
    rw [h] at this
    simpa using this
  all_goals
    have : (match (NpyFile.new ⟨false, 64, true⟩ Py.parse disk ⟨frame 2 terse ++ threeWords, 0⟩).1 with
      | .ok _ => true | _ => false) = true := by decide +kernel
    rw [h] at this
    cases this

end Npyz.Props
