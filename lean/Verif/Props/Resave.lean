import Verif.Proofs.Resave
import Verif.Props.Apart
import Verif.Props.Writer
import Verif.Props.User
/-!
C94: copying an array through the library.
-/
namespace Npyz.Props
set_option autoImplicit false
open Npyz.Spec

mutual
/-- Without types of fixed capacity nothing can be too small. -/
theorem roomy_of_unbounded : (t : Ty) → (d : DType) → Unbounded t → Roomy t d
  | .num _, _, _ | .bool, _, _ | .complex _, _, _ | .vecU8, _, _ | .fixedBytes _, _, _ | .vecU32, _, _ | .vecChar, _, _ | .string, _, _ => by
    simp [Roomy]
  | .array _ t, .array _ d, h => roomy_of_unbounded t d h
  | .array _ t, .plain _, _ | .array _ t, .record _, _ | .record _, .plain _, _ | .record _, .array _ _, _ => by simp [Roomy]
  | .record fs, .record dfs, h => roomy_of_unbounded_fields fs dfs h
theorem roomy_of_unbounded_fields : (fs : TFields) → (dfs : Fields) → UnboundedFields fs → RoomyFields fs dfs
  | .nil, .nil, _ | .nil, .cons _ _ _, _ | .cons _ _ _, .nil, _ => by simp [RoomyFields]
  | .cons _ t fs, .cons _ d dfs, h => ⟨roomy_of_unbounded t d h.1, roomy_of_unbounded_fields fs dfs h.2⟩
end

/-- C94: the bytes of an item that was read are what its value is written as. -/
theorem C94_item {M M' : Machine} (hM : M.Wf) {t : Ty} {d : DType} {size : Nat} (hd : d.Wf) (hroom : Roomy t d) (hn : exactBytes d = some size)
    (hm : size ≤ M.isizeMax) (hm' : size ≤ M'.isizeMax) {p : RProg t.Val} (hp : t.reader M d = .ok p) {w : t.Val → WProg Unit}
    (hw : t.writer M' d = .ok w) {bs rest : Bytes} {v : t.Val} (hl : bs.length = size) (hr : p.run (bs ++ rest) = (.ok v, rest)) (s : Sink) :
    (w v).exec s = (.ok (), s.put bs) := by
  have hc := ((reader_ok_iff hM t d).mp ⟨p, hp⟩).1
  have h := reader_reads t hp hd hn hm
  have hdec : decode t d bs = some v := by
    cases hx : decode t d bs with
    | none =>
      obtain ⟨why, k, -, hb⟩ := h.bad bs rest hl hx
      rw [hr] at hb
      cases hb
    | some v' =>
      have := h.ok bs rest v' hl hx
      rw [hr] at this
      cases this
      rfl
  have henc := decode_encode t d size v bs hc hroom hn hl hdec
  have := writer_writes t hw hd hn hm' v
  rw [henc] at this
  exact this.item.2 s

example (s : Sink) : ∃ (p : RProg f64.Val) (w : f64.Val → WProg Unit) (v : f64.Val), f64.reader ⟨false, 64, true⟩ (.plain ⟨.big, .float, 8, none⟩) = .ok p ∧
    f64.writer ⟨true, 32, false⟩ (.plain ⟨.big, .float, 8, none⟩) = .ok w ∧ p.run [1, 2, 3, 4, 5, 6, 7, 8, 9] = (.ok v, [9]) ∧
    (w v).exec s = (.ok (), s.put [1, 2, 3, 4, 5, 6, 7, 8]) :=
  ⟨_, _, 0x0102030405060708#64, rfl, rfl, rfl, C94_item (M := ⟨false, 64, true⟩) (M' := ⟨true, 32, false⟩) (t := f64) (d := .plain ⟨.big, .float, 8, none⟩)
    (.inr rfl) (wf_of_parse (s := ">f8".toList) (by decide)) trivial rfl (by decide) (by decide) rfl rfl (bs := [1, 2, 3, 4, 5, 6, 7, 8]) (rest := [9]) rfl rfl s⟩

/-- Encoding what was read from an open file gives the bytes of its elements. -/
theorem intoVec_bytes {M : Machine} (hM : M.Wf) {t : Ty} {f : NpyFile Src} {size : Nat} (ho : Opened M f.header)
    (hroom : Roomy t f.header.dtype) (hn : exactBytes f.header.dtype = some size) (hm : size ≤ M.isizeMax) (hb : f.src.pos ≤ f.src.data.length)
    {vs : List t.Val} (h : (f.intoVec M disk t).1 = .ok vs) :
    vs.length = f.header.nRecords ∧ encodeAll (encode t f.header.dtype) vs = some (dataBytes f size) ∧
      vs.map (readBack t f.header.dtype) = vs ∧ CanRead t f.header.dtype := by
  obtain ⟨hw, -, -, hi⟩ := opened ho
  have hno : ¬ HasObject f.header.dtype := fun h => by have := (exactBytes_none_iff _).mpr h; rw [hn] at this; cases this
  have hs : f.header.itemSize = some size := by
    rcases hi with ⟨h1, -⟩ | ⟨-, -, n, h1, h2⟩
    · exact absurd h1 hno
    · rw [hn] at h1; cases h1; exact h2
  obtain ⟨p, hp⟩ : ∃ p, t.reader M f.header.dtype = .ok p := by
    cases hd : f.data M t with
    | ok r => obtain ⟨-, p, hp, -⟩ := data_ok_iff.mp hd; exact ⟨p, hp⟩
    | err e => unfold NpyFile.intoVec at h; rw [hd] at h; cases h
    | panic => unfold NpyFile.intoVec at h; rw [hd] at h; cases h
  have hc := ((reader_ok_iff hM t _).mp ⟨p, hp⟩).1
  rcases C21_into_vec (t := t) ho hs hm hb with ⟨vs', h1, h2, h3, h4⟩ | ⟨e, h1, -⟩
  · rw [h1] at h
    cases h
    have hitem : ∀ i (hi : i < vs.length), decode t f.header.dtype ((f.src.data.drop (f.src.pos + i * size)).take size) = some vs[i] ∧
        ((f.src.data.drop (f.src.pos + i * size)).take size).length = size := by
      intro i hi
      have hx := h4 i hi
      unfold elementAt itemAt at hx
      split at hx
      · rename_i hle
        refine ⟨hx, ?_⟩
        rw [Nat.add_mul, Nat.one_mul] at hle
        rw [List.length_take, List.length_drop]
        omega
      · cases hx
    refine ⟨h2, ?_, ?_, hc⟩
    · unfold dataBytes
      rw [← h2]
      clear h1 h2 h3 h4
      generalize f.src.pos = pos at hitem
      induction vs generalizing pos with
      | nil => simp [encodeAll]
      | cons v vs ih =>
        obtain ⟨a1, a2⟩ := hitem 0 (Nat.zero_lt_succ _)
        rw [Nat.zero_mul, Nat.add_zero] at a1 a2
        have e1 := decode_encode t _ size v _ hc hroom hn a2 a1
        have e2 := ih (pos + size) (fun i hi => by
          have := hitem (i + 1) (Nat.succ_lt_succ hi)
          rw [Nat.add_mul, Nat.one_mul, Nat.add_comm (i * size) size, ← Nat.add_assoc] at this
          exact this)
        rw [encodeAll, e1, e2]
        show some (_ ++ _) = some _
        rw [List.length_cons, Nat.add_mul, Nat.one_mul, Nat.add_comm (vs.length * size) size, List.take_add, List.drop_drop]
    · apply List.ext_getElem (by simp)
      intro i _ hi
      obtain ⟨a1, a2⟩ := hitem i hi
      have e1 := decode_encode t _ size _ _ hc hroom hn a2 a1
      have e2 := (encode_decode t _ size _ _ hc hn e1).2
      rw [a1] at e2
      rw [List.getElem_map]
      exact (Option.some.inj e2).symm
  · rw [h1] at h
    cases h

theorem opened_of_new {M : Machine} {py : PyParser} {src : Src} {f : NpyFile Src} (h : (NpyFile.new M py disk src).1 = .ok f) :
    Opened M f.header ∧ f.src.pos ≤ f.src.data.length := by
  have h1 := (C89_new.2 f (NpyFile.new M py disk src).2 (Prod.ext h rfl)).1
  obtain ⟨h2, h3⟩ := C89_position h
  refine ⟨⟨py, src.rest, ((NpyHeader.fromReader M py).run src.rest).2,
    Prod.ext (show (disk.exec _ src).1 = _ from congrArg Prod.fst h1) rfl⟩, ?_⟩
  have h2 : f.src = { src with pos := src.pos + headerEnd src.rest } := h2
  rw [h2]
  exact h3

/-- C94: whatever file it was, written by whatever program: saving the elements that were read with the dtype and order of the
file, and its shape or an equivalent `begin_1d` or `begin_2d`, makes a file with the same dtype, order, shape, elements, and the
same bytes of data, on any machines. -/
theorem C94_copy {M₁ M₂ M₃ : Machine} (hM₁ : M₁.Wf) (hM₃ : M₃.Wf) {py py' : PyParser} (hpy : py'.ExtendsRef) {t : Ty} {src : Src}
    {f : NpyFile Src} {vs : List t.Val} (hf : (NpyFile.new M₁ py disk src).1 = .ok f) (hv : (f.intoVec M₁ disk t).1 = .ok vs)
    (hroom : Roomy t f.header.dtype) {size : Nat} (hn : exactBytes f.header.dtype = some size)
    (hm₁ : size ≤ M₁.isizeMax) (hm₂ : size ≤ M₂.isizeMax) (hm₃ : size ≤ M₃.isizeMax) (hfit₃ : AllFit M₃.usizeLim f.header.dtype)
    (hp₃ : ∃ p, t.reader M₃ f.header.dtype = .ok p) (hw : ∃ w, t.writer M₂ f.header.dtype = .ok w)
    {hint : ShapeHint} (hshape : finalShape f.header.order vs.length hint = f.header.shape) (hcount : CountFits vs.length hint)
    (hz : hint ≠ .twoD 0) (hdims : ∀ k ∈ f.header.shape, k < 2 ^ 64) (hprod : nonzeroProd f.header.shape < 2 ^ 64)
    (hlen : dictBytes f.header.dtype f.header.order hint ≤ 65525)
    (hmem : dictBytes f.header.dtype f.header.order hint + 76 ≤ M₃.isizeMax) {s : Sink}
    (hk : hint.seeks = true → s.seekable = true ∧ s.pos + dictBytes f.header.dtype f.header.order hint + 76 ≤ 2 ^ 64) :
    ∃ s' f', NpyWriter.save M₂ solid t f.header.dtype f.header.order hint vs s = (.ok (), s') ∧
      (NpyFile.new M₃ py' disk ⟨s'.data, s.pos⟩).1 = .ok f' ∧ f'.header.dtype = f.header.dtype ∧ f'.header.order = f.header.order ∧
      f'.header.shape = f.header.shape ∧ f'.header.nRecords = f.header.nRecords ∧ dataBytes f' size = dataBytes f size ∧
      (f'.intoVec M₃ disk t).1 = .ok vs := by
  obtain ⟨ho, hb⟩ := opened_of_new hf
  obtain ⟨hd, hlt, -, -⟩ := opened ho
  obtain ⟨h1, h2, h3, h4⟩ := intoVec_bytes hM₁ ho hroom hn hm₁ hb hv
  have hna : f.header.dtype.NotArray := by
    obtain ⟨py, bs, rest, hr⟩ := ho
    obtain ⟨v, r, k1, k2⟩ := RProg.run_bind_ok.mp hr
    cases v with
    | dict kvs =>
      simp only [RProg.run_lift, Prod.mk.injEq] at k2
      obtain ⟨_, b, vs, vd, shape, d, _, _, _, _, h5, h6⟩ := interpretHeader_ok_iff.mp k2.1
      rw [(fromParts_ok h6).1]
      exact (fromDescr_wf _ _ h5).2
    | _ => simp [interpretHeader] at k2
  have hc : vs.length < 2 ^ 64 := by rw [h1]; exact hlt
  have hnd : ∀ dims, hint = .nd dims → (∀ k ∈ dims, k < 2 ^ 64) ∧ nonzeroProd dims < 2 ^ 64 := by
    rintro dims rfl
    have : dims = f.header.shape := hshape
    rw [this]
    exact ⟨hdims, hprod⟩
  have hrows : ∀ r, hint = .twoD r → r < 2 ^ 64 := by
    rintro r rfl
    apply hdims
    rw [← hshape]
    cases f.header.order <;> simp [finalShape]
  have hh : hint.Fits := by
    cases hint with
    | nd dims => exact (hnd dims rfl).2
    | oneD => trivial
    | twoD r => trivial
  obtain ⟨s', hs'⟩ := C39_succeeds hd hn hm₂ hna hw hh hlen hz hc hcount
    (fun v hv he => by have := (encodeAll_none vs).mpr ⟨v, hv, he⟩; rw [h2] at this; cases this) hk
  obtain ⟨items, e1, e2, e3, e4, -⟩ := save_ok hd hn hm₂ hc (fun h => (hk h).2) hs'
  obtain ⟨p, hp⟩ := hp₃
  obtain ⟨f', a1, a2, a3, a4, a5⟩ := final_reads hM₃ hpy hd hp hn hm₃ hfit₃ hc hcount hnd hrows hmem e3 e4 e1 s
  rw [← e2] at a1
  rw [h3] at a5
  obtain ⟨ho', hb'⟩ := opened_of_new a1
  obtain ⟨b1, b2, -, -⟩ := intoVec_bytes hM₃ ho' (a2 ▸ hroom) (by rw [a2]; exact hn) hm₃ hb' a5
  rw [a2, h2] at b2
  exact ⟨s', f', hs', a1, a2, a4, a3.trans hshape, b1.symm.trans h1, (Option.some.inj b2).symm, a5⟩

/-- C94: a file written by this library, read and written again in the same way, is the same file, byte for byte. -/
theorem C94_again {M₁ M₂ M₃ : Machine} (hM₃ : M₃.Wf) {py : PyParser} (hpy : py.ExtendsRef) {t : Ty} {d : DType} {size : Nat}
    (hd : d.Wf) (hroom : Roomy t d) (hn : exactBytes d = some size) (hm₁ : size ≤ M₁.isizeMax) (hm₂ : size ≤ M₂.isizeMax)
    (hm₃ : size ≤ M₃.isizeMax) (hf : AllFit M₃.usizeLim d) (hp : ∃ p, t.reader M₃ d = .ok p) (hw : ∃ w, t.writer M₂ d = .ok w)
    {o : Order} {hint : ShapeHint} (hdims : ∀ dims, hint = .nd dims → (∀ k ∈ dims, k < 2 ^ 64) ∧ nonzeroProd dims < 2 ^ 64)
    (hr : ∀ r, hint = .twoD r → r < 2 ^ 64) (hlen : dictBytes d o hint ≤ 65525) (hmem : dictBytes d o hint + 76 ≤ M₃.isizeMax)
    {vs : List t.Val} (hc : vs.length < 2 ^ 64) {s s' : Sink}
    (hk : hint.seeks = true → s.seekable = true ∧ s.pos + dictBytes d o hint + 76 ≤ 2 ^ 64)
    (h : NpyWriter.save M₁ solid t d o hint vs s = (.ok (), s')) :
    ∃ vs', ReadsBack M₃ py t s'.data s.pos d (finalShape o vs.length hint) o vs' ∧
      NpyWriter.save M₂ solid t d o hint vs' s = (.ok (), s') := by
  obtain ⟨items, e1, e2, e3, e4, e5, e6, -⟩ := save_ok hd hn hm₁ hc (fun h => (hk h).2) h
  obtain ⟨p, hp⟩ := hp
  have hcr := ((reader_ok_iff hM₃ t d).mp ⟨p, hp⟩).1
  have hh : hint.Fits := by
    cases hint with
    | nd dims => exact (hdims dims rfl).2
    | oneD => trivial
    | twoD r => trivial
  have hz : hint ≠ .twoD 0 := by
    rintro rfl
    exact (e6 0 rfl).1 rfl
  have hfit : CountFits vs.length hint := by
    cases hint with
    | nd dims =>
      have h3 := e5 dims rfl
      rw [shapeProduct_exact (acc := 1) (by simpa using (hdims dims rfl).2), Out.ok.injEq, Nat.one_mul] at h3
      exact h3.symm
    | oneD => trivial
    | twoD r => exact (e6 r rfl).2
  have hback := final_reads hM₃ hpy hd hp hn hm₃ hf hc hfit hdims hr hmem e3 e4 e1 s
  rw [← e2] at hback
  refine ⟨vs.map (readBack t d), hback, ?_⟩
  have hsame : ∀ (l : List t.Val) (bs : Bytes), encodeAll (encode t d) l = some bs → encodeAll (encode t d) (l.map (readBack t d)) = some bs := by
    intro l
    induction l with
    | nil => intro bs h; exact h
    | cons v l ih =>
      intro bs h
      obtain ⟨b, bs', h1, h2, rfl⟩ := encodeAll_cons h
      obtain ⟨k1, k2⟩ := encode_decode t d size v b hcr hn h1
      have := decode_encode t d size _ b hcr hroom hn k1 k2
      rw [List.map_cons, encodeAll, this, ih _ h2]
      rfl
  have he := hsame vs items e1
  obtain ⟨s'', hs⟩ := C39_succeeds (M := M₂) (vs := vs.map (readBack t d)) (s := s) hd hn hm₂ (isArray_false.mp e3) hw hh hlen hz (by simpa using hc) (by simpa using hfit)
    (fun v hv hne => by have := (encodeAll_none _).mpr ⟨v, hv, hne⟩; rw [he] at this; cases this) hk
  obtain ⟨items', g1, g2, -⟩ := save_ok hd hn hm₂ (by simpa using hc) (fun h => (hk h).2) hs
  rw [he] at g1
  cases g1
  rw [List.length_map, ← e2] at g2
  rw [hs, g2]

def labels : List (Ty.arrayVecU8 3).Val := ([⟨[97], by decide⟩, ⟨[98, 0], by decide⟩] : List { l : Bytes // l.length ≤ 3 })

def labelType : DType := .plain ⟨.irrelevant, .byteStr, 3, none⟩

theorem labelType_wf : labelType.Wf := wf_of_parse (s := "|S3".toList) (by decide)

-- the file with `a` and `b\0` is the same after reading (`a`, `b`) and writing
example : ∃ vs' s', ReadsBack ⟨true, 32, false⟩ Py.parse (.arrayVecU8 3) s'.data 1 labelType [2] .c vs' ∧
    NpyWriter.save ⟨false, 64, true⟩ solid (.arrayVecU8 3) labelType .c .oneD labels ⟨[5], 1, true⟩ = (.ok (), s') ∧
    NpyWriter.save ⟨true, 32, true⟩ solid (.arrayVecU8 3) labelType .c .oneD vs' ⟨[5], 1, true⟩ = (.ok (), s') := by
  have h := of_succeeded (x := NpyWriter.save ⟨false, 64, true⟩ solid (.arrayVecU8 3) labelType .c .oneD labels ⟨[5], 1, true⟩) (by decide +kernel)
  obtain ⟨vs', h1, h2⟩ := C94_again (M₂ := ⟨true, 32, true⟩) (M₃ := ⟨true, 32, false⟩) (.inl rfl) (py := Py.parse) (fun _ _ h => h) labelType_wf
    (size := 3) (by simp [Roomy, labelType]) rfl (by decide) (by decide) (by decide) (by intro n hn; cases hn; decide)
    ((reader_ok_iff (.inl rfl) _ _).mpr ⟨show CanRead (.arrayVecU8 3) labelType from .inr rfl, fits (by decide)⟩)
    ((writer_ok_iff (.inl rfl) _ _).mpr ⟨canWrite_of_canRead _ _ (show CanRead (.arrayVecU8 3) labelType from .inr rfl), fits (by decide)⟩)
    (fun _ h => by cases h) (fun _ h => by cases h) (by decide +kernel) (by decide +kernel) (by decide) (fun _ => ⟨rfl, by decide +kernel⟩) h
  exact ⟨vs', _, h1, h, h2⟩

def byteLabels : List Ty.vecU8.Val := ([[97], [98, 0]] : List Bytes)

-- a copy of such a file, through `Vec<u8>`, to a stream that cannot seek
example : ∃ f vs s' f', (NpyFile.new ⟨false, 64, true⟩ Py.parse disk ⟨(NpyWriter.save ⟨false, 64, true⟩ solid .vecU8 labelType .c .oneD byteLabels
      ⟨[5], 1, true⟩).2.data, 1⟩).1 = .ok f ∧ (f.intoVec ⟨false, 64, true⟩ disk .vecU8).1 = .ok vs ∧
    NpyWriter.save ⟨true, 32, true⟩ solid .vecU8 f.header.dtype f.header.order (.nd f.header.shape) vs ⟨[], 0, false⟩ = (.ok (), s') ∧
    (NpyFile.new ⟨true, 32, false⟩ Py.parse disk ⟨s'.data, 0⟩).1 = .ok f' ∧ dataBytes f' 3 = dataBytes f 3 := by
  have h := of_succeeded (x := NpyWriter.save ⟨false, 64, true⟩ solid .vecU8 labelType .c .oneD byteLabels ⟨[5], 1, true⟩) (by decide +kernel)
  have hc : CanRead .vecU8 labelType := .inr rfl
  obtain ⟨-, f, h1, h2, h3, h4, h5⟩ := C40_round_trip (M' := ⟨false, 64, true⟩) (.inr rfl) (py := Py.parse) (fun _ _ h => h) labelType_wf (size := 3)
    rfl (by decide) (by decide) (by intro n hn; cases hn; decide) ((reader_ok_iff (.inr rfl) _ _).mpr ⟨hc, fits (by decide)⟩) (.inl rfl)
    (by decide +kernel) (by decide) (by decide +kernel) h
  obtain ⟨s', f', k1, k2, -, -, -, -, k3, -⟩ := C94_copy (M₂ := ⟨true, 32, true⟩) (M₃ := ⟨true, 32, false⟩) (.inr rfl) (.inl rfl) (py' := Py.parse)
    (fun _ _ h => h) h1 h5 (roomy_of_unbounded _ _ trivial) (size := 3) (by rw [h2]; rfl) (by decide) (by decide) (by decide)
    (by rw [h2]; intro n hn; cases hn; decide)
    (by rw [h2]; exact (reader_ok_iff (.inl rfl) _ _).mpr ⟨hc, fits (by decide)⟩)
    (by rw [h2]; exact (writer_ok_iff (.inl rfl) _ _).mpr ⟨canWrite_of_canRead _ _ hc, fits (by decide)⟩)
    (hint := .nd f.header.shape) rfl (by rw [h3]; rfl) (by simp) (by rw [h3]; decide) (by rw [h3]; decide)
    (by rw [h2, h3, h4]; decide +kernel) (by rw [h2, h3, h4]; decide +kernel) (s := ⟨[], 0, false⟩) (by intro h; cases h)
  exact ⟨f, _, s', f', h1, h5, k1, k2, k3⟩

end Npyz.Props
