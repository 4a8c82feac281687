import Verif.Props.Compose
import Verif.Props.Writer
/-!
C90: different arrays make different files.
-/
namespace Npyz.Props
set_option autoImplicit false
open Npyz.Spec

/-- C90: two sessions that leave the same bytes wrote the same array: the same dtype, order, shape and values; for any element
type, also a user-defined one, whose values come back from their bytes.  The sessions may have been on different machines and
may have been told the shape in different ways. -/
theorem C90_same_bytes {V : Type} {M₁ M₂ : Machine} {lim : Nat} {writer₁ writer₂ : DType → DRes (V → WProg Unit)}
    {enc : DType → V → Option Bytes} {reader : DType → DRes (RProg V)} {dec : DType → Bytes → Option V}
    (hw₁ : GoodWriter lim writer₁ enc) (hw₂ : GoodWriter lim writer₂ enc) (hr : GoodReader lim reader dec)
    (hrt₁ : RoundTrips writer₁ enc dec) (hrt₂ : RoundTrips writer₂ enc dec) {d₁ d₂ : DType} {size₁ size₂ : Nat} (hd₁ : d₁.Wf) (hd₂ : d₂.Wf)
    (hn₁ : exactBytes d₁ = some size₁) (hn₂ : exactBytes d₂ = some size₂) (hl₁ : size₁ ≤ lim) (hl₂ : size₂ ≤ lim)
    (hf₁ : AllFit (2 ^ 64) d₁) (hf₂ : AllFit (2 ^ 64) d₂) (hrd₁ : ∃ p, reader d₁ = .ok p) (hrd₂ : ∃ p, reader d₂ = .ok p) {o₁ o₂ : Order}
    {hint₁ hint₂ : ShapeHint} (hdims₁ : ∀ dims, hint₁ = .nd dims → (∀ k ∈ dims, k < 2 ^ 64) ∧ nonzeroProd dims < 2 ^ 64)
    (hdims₂ : ∀ dims, hint₂ = .nd dims → (∀ k ∈ dims, k < 2 ^ 64) ∧ nonzeroProd dims < 2 ^ 64) (hr₁ : ∀ r, hint₁ = .twoD r → r < 2 ^ 64)
    (hr₂ : ∀ r, hint₂ = .twoD r → r < 2 ^ 64) {vs₁ vs₂ : List V} (hc₁ : vs₁.length < 2 ^ 64) (hc₂ : vs₂.length < 2 ^ 64)
    {s₁ s₂ s₁' s₂' : Sink} (hm₁ : s₁.pos + dictBytes d₁ o₁ hint₁ + 76 < 2 ^ 63) (hm₂ : s₂.pos + dictBytes d₂ o₂ hint₂ + 76 < 2 ^ 63)
    (h₁ : NpyWriter.saveWith M₁ solid writer₁ d₁ o₁ hint₁ vs₁ s₁ = (.ok (), s₁'))
    (h₂ : NpyWriter.saveWith M₂ solid writer₂ d₂ o₂ hint₂ vs₂ s₂ = (.ok (), s₂'))
    (hs : s₁'.data = s₂'.data) (hp : s₁.pos = s₂.pos) :
    d₁ = d₂ ∧ o₁ = o₂ ∧ finalShape o₁ vs₁.length hint₁ = finalShape o₂ vs₂.length hint₂ ∧ vs₁ = vs₂ := by
  obtain ⟨p₁, hrd₁⟩ := hrd₁
  obtain ⟨p₂, hrd₂⟩ := hrd₂
  have hi : Machine.isizeMax ⟨false, 64, true⟩ = 2 ^ 63 - 1 := rfl
  obtain ⟨f₁, r₁, a1, a2, a3, a4, a5, a6⟩ := C88_round_trip (M' := ⟨false, 64, true⟩) (py := Py.parse) (fun _ _ h => h) hw₁ hr hrt₁ hd₁ hn₁ hl₁
    hf₁ hrd₁ hdims₁ hr₁ (by rw [hi]; omega) hc₁ (fun _ => by omega) h₁
  obtain ⟨f₂, r₂, b1, b2, b3, b4, b5, b6⟩ := C88_round_trip (M' := ⟨false, 64, true⟩) (py := Py.parse) (fun _ _ h => h) hw₂ hr hrt₂ hd₂ hn₂ hl₂
    hf₂ hrd₂ hdims₂ hr₂ (by rw [hi]; omega) hc₂ (fun _ => by omega) h₂
  rw [hs, hp, b1] at a1
  cases a1
  rw [b5] at a5
  cases a5
  rw [b6] at a6
  exact ⟨a2.symm.trans b2, a4.symm.trans b4, a3.symm.trans b3, (Out.ok.inj a6).symm⟩

/-- A session on machine `M` that succeeded and left `data`, with the array at `pos`. -/
structure Session (M : Machine) (t : Ty) (d : DType) (o : Order) (hint : ShapeHint) (vs : List t.Val) (pos : Nat) (data : Bytes) : Prop where
  dtype : d.Wf
  reads : CanRead t d
  size : ∃ n, exactBytes d = some n ∧ n ≤ M.isizeMax ∧ n < 2 ^ 63
  fits : AllFit (2 ^ 64) d
  dims : ∀ dims, hint = .nd dims → (∀ k ∈ dims, k < 2 ^ 64) ∧ nonzeroProd dims < 2 ^ 64
  rows : ∀ r, hint = .twoD r → r < 2 ^ 64
  count : vs.length < 2 ^ 64
  room : pos + dictBytes d o hint + 76 < 2 ^ 63
  done : ∃ s s', s.pos = pos ∧ s'.data = data ∧ NpyWriter.save M solid t d o hint vs s = (.ok (), s')

theorem Session.reads_back {M : Machine} {t : Ty} {d : DType} {o : Order} {hint : ShapeHint} {vs : List t.Val} {pos : Nat} {data : Bytes}
    (h : Session M t d o hint vs pos data) :
    ReadsBack ⟨false, 64, true⟩ Py.parse t data pos d (finalShape o vs.length hint) o (vs.map (readBack t d)) := by
  obtain ⟨s, s', rfl, rfl, hs⟩ := h.done
  obtain ⟨n, hn, hm, hm'⟩ := h.size
  have hM : Machine.Wf ⟨false, 64, true⟩ := .inr rfl
  have hi : Machine.isizeMax ⟨false, 64, true⟩ = 2 ^ 63 - 1 := rfl
  have hp := (reader_ok_iff hM t d).mpr ⟨h.reads, sizesFit_wf d h.dtype⟩
  have hroom := h.room
  cases hint with
  | nd dims =>
    obtain ⟨h1, h2⟩ := h.dims dims rfl
    exact (C39_round_trip hM (fun _ _ h => h) h.dtype hn hm (by rw [hi]; omega) h.fits hp h1 h2 (by rw [hi]; omega) h.count hs).2
  | oneD =>
    exact (C40_round_trip hM (fun _ _ h => h) h.dtype hn hm (by rw [hi]; omega) h.fits hp (.inl rfl) (by rw [hi]; omega) h.count (by omega) hs).2
  | twoD r =>
    exact (C40_round_trip hM (fun _ _ h => h) h.dtype hn hm (by rw [hi]; omega) h.fits hp (.inr ⟨r, rfl, h.rows r rfl⟩) (by rw [hi]; omega)
      h.count (by omega) hs).2

/-- C90: for the element types of the library; strings are equal up to the padding. -/
theorem C90_library {M₁ M₂ : Machine} {t : Ty} {d₁ d₂ : DType} {o₁ o₂ : Order} {hint₁ hint₂ : ShapeHint} {vs₁ vs₂ : List t.Val} {pos : Nat}
    {data : Bytes} (h₁ : Session M₁ t d₁ o₁ hint₁ vs₁ pos data) (h₂ : Session M₂ t d₂ o₂ hint₂ vs₂ pos data) :
    d₁ = d₂ ∧ o₁ = o₂ ∧ finalShape o₁ vs₁.length hint₁ = finalShape o₂ vs₂.length hint₂ ∧
      vs₁.map (readBack t d₁) = vs₂.map (readBack t d₂) := by
  obtain ⟨f₁, a1, a2, a3, a4, a5⟩ := h₁.reads_back
  obtain ⟨f₂, b1, b2, b3, b4, b5⟩ := h₂.reads_back
  rw [b1] at a1
  cases a1
  rw [b5] at a5
  exact ⟨a2.symm.trans b2, a4.symm.trans b4, a3.symm.trans b3, (Out.ok.inj a5).symm⟩

/-- C90: for element types without strings the values are the same. -/
theorem C90_exact {M₁ M₂ : Machine} {t : Ty} (hx : Exact t) {d₁ d₂ : DType} {o₁ o₂ : Order} {hint₁ hint₂ : ShapeHint} {vs₁ vs₂ : List t.Val} {pos : Nat}
    {data : Bytes} (h₁ : Session M₁ t d₁ o₁ hint₁ vs₁ pos data) (h₂ : Session M₂ t d₂ o₂ hint₂ vs₂ pos data) :
    d₁ = d₂ ∧ o₁ = o₂ ∧ finalShape o₁ vs₁.length hint₁ = finalShape o₂ vs₂.length hint₂ ∧ vs₁ = vs₂ := by
  obtain ⟨h1, h2, h3, h4⟩ := C90_library h₁ h₂
  have e : ∀ d (vs : List t.Val), vs.map (readBack t d) = vs := by
    intro d vs
    conv => rhs; rw [← List.map_id vs]
    exact List.map_congr_left fun v _ => readBack_exact t d v hx
  rw [e, e] at h4
  exact ⟨h1, h2, h3, h4⟩

def twoWords : List (Ty.num .u16).Val := ([300, 7] : List (Word 2))

theorem twoWords_sessions : ∃ data, Session ⟨false, 64, true⟩ (.num .u16) (.plain ⟨.big, .uint, 2, none⟩) .c .oneD twoWords 3 data ∧
    Session ⟨true, 32, false⟩ (.num .u16) (.plain ⟨.big, .uint, 2, none⟩) .c .oneD twoWords 3 data := by
  have key : ∀ M : Machine, 2 ≤ M.isizeMax → ∀ s', NpyWriter.save M solid (.num .u16) (.plain ⟨.big, .uint, 2, none⟩) .c .oneD twoWords ⟨[1, 2, 3], 3, true⟩ = (.ok (), s') →
      Session M (.num .u16) (.plain ⟨.big, .uint, 2, none⟩) .c .oneD twoWords 3 s'.data := fun M hM s' h =>
    { dtype := wf_of_parse (s := ">u2".toList) (by decide)
      reads := by simp [CanRead, scalarAccepts, numAccepts]
      size := ⟨2, rfl, hM, by decide⟩
      fits := by intro n hn; cases hn; decide
      dims := fun _ h => by cases h
      rows := fun _ h => by cases h
      count := by decide
      room := by decide +kernel
      done := ⟨_, s', rfl, rfl, h⟩ }
  have h1 := of_succeeded (x := NpyWriter.save ⟨false, 64, true⟩ solid (.num .u16) (.plain ⟨.big, .uint, 2, none⟩) .c .oneD twoWords ⟨[1, 2, 3], 3, true⟩)
    (by decide +kernel)
  have h2 := of_succeeded (x := NpyWriter.save ⟨true, 32, false⟩ solid (.num .u16) (.plain ⟨.big, .uint, 2, none⟩) .c .oneD twoWords ⟨[1, 2, 3], 3, true⟩)
    (by decide +kernel)
  have e : (NpyWriter.save ⟨false, 64, true⟩ solid (.num .u16) (.plain ⟨.big, .uint, 2, none⟩) .c .oneD twoWords ⟨[1, 2, 3], 3, true⟩).2.data =
    (NpyWriter.save ⟨true, 32, false⟩ solid (.num .u16) (.plain ⟨.big, .uint, 2, none⟩) .c .oneD twoWords ⟨[1, 2, 3], 3, true⟩).2.data := by decide +kernel
  exact ⟨_, key _ (by decide) _ h1, by rw [e]; exact key _ (by decide) _ h2⟩

/-- C90_library, C90_same_bytes: whatever else is written with these bytes as the result is the same array. -/
example : ∃ data, ∀ (M : Machine) (d : DType) (o : Order) (hint : ShapeHint) (vs : List (Ty.num .u16).Val), Session M (.num .u16) d o hint vs 3 data →
    .plain ⟨.big, .uint, 2, none⟩ = d ∧ .c = o ∧ [2] = finalShape o vs.length hint ∧ twoWords = vs := by
  obtain ⟨data, h, -⟩ := twoWords_sessions
  refine ⟨data, fun M d o hint vs h2 => ?_⟩
  obtain ⟨h3, h4, h5, -⟩ := C90_library h h2
  exact ⟨h3, h4, h5, (C90_exact (t := .num .u16) trivial h h2).2.2.2⟩

def wordsSave (M : Machine) (s : Sink) : Res Unit × Sink :=
  NpyWriter.saveWith M solid (Ty.writer M (.num .u16)) (.plain ⟨.big, .uint, 2, none⟩) .c .oneD twoWords s

/-- The hypotheses of `C90_same_bytes`, with the library's own type as the user's. -/
example (d : DType) (o : Order) (hint : ShapeHint) (vs : List (Ty.num .u16).Val) (size : Nat) (hd : d.Wf) (hn : exactBytes d = some size)
    (hl : size ≤ (⟨false, 64, true⟩ : Machine).isizeMax) (hf : AllFit (2 ^ 64) d) (hr : ∃ p, Ty.reader ⟨false, 64, true⟩ (.num .u16) d = .ok p)
    (hdims : ∀ dims, hint = .nd dims → (∀ k ∈ dims, k < 2 ^ 64) ∧ nonzeroProd dims < 2 ^ 64) (hrow : ∀ r, hint = .twoD r → r < 2 ^ 64)
    (hc : vs.length < 2 ^ 64) (hroom : 3 + dictBytes d o hint + 76 < 2 ^ 63) (s' : Sink)
    (hs : NpyWriter.saveWith ⟨false, 64, true⟩ solid (Ty.writer ⟨false, 64, true⟩ (.num .u16)) d o hint vs ⟨[1, 2, 3], 3, true⟩ = (.ok (), s'))
    (he : (wordsSave ⟨false, 64, true⟩ ⟨[1, 2, 3], 3, true⟩).2.data = s'.data) : twoWords = vs := by
  have h : (wordsSave ⟨false, 64, true⟩ ⟨[1, 2, 3], 3, true⟩).1 = .ok () := by decide +kernel
  rcases hx : wordsSave ⟨false, 64, true⟩ ⟨[1, 2, 3], 3, true⟩ with ⟨x, s1⟩
  rw [hx] at h he
  cases h
  have hM : (⟨false, 64, true⟩ : Machine).Wf := .inr rfl
  exact (C90_same_bytes (lim := (⟨false, 64, true⟩ : Machine).isizeMax) (C88_library _ _).2 (C88_library _ _).2 (C88_library _ _).1
    (C88_library_round_trip hM (t := .num .u16) trivial) (C88_library_round_trip hM (t := .num .u16) trivial) (show (DType.plain ⟨.big, .uint, 2, none⟩).Wf from wf_of_parse (s := ">u2".toList) (by decide)) hd rfl hn (by decide) hl
    (by intro n hn; cases hn; decide) hf ⟨_, rfl⟩ hr (by simp) hdims (by simp) hrow (by decide) hc (by decide +kernel) hroom hx hs he rfl).2.2.2

end Npyz.Props
