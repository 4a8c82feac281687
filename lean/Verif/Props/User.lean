import Verif.Proofs.User
/-!
Properties C84 and C85: arrays whose element type is defined by the user, with the user's own
implementations of `Deserialize` and `Serialize` (see Spec/User.lean for what these are here).
-/
namespace Npyz.Props
open Npyz Npyz.Spec Py
set_option autoImplicit false

/-! ### C84 -/

/-- C84: a user-defined type reads exactly those files that hold no Python objects and whose dtype it
accepts; it is given the dtype of the file. -/
theorem C84_accepts {V σ : Type} {reader : DType → DRes (RProg V)} {f : NpyFile σ} :
    (∃ r, f.dataWith reader = .ok r) ↔ f.header.usesPickled = false ∧ ∃ p, reader f.header.dtype = .ok p := by
  constructor
  · rintro ⟨r, h⟩
    obtain ⟨h1, p, h2, -⟩ := dataWith_ok_iff.mp h
    exact ⟨h1, p, h2⟩
  · rintro ⟨h1, p, h2⟩
    exact ⟨_, dataWith_ok_iff.mpr ⟨h1, p, h2, rfl⟩⟩

/-- C84: if `read_one` consumes one item and decodes it by `f`, then every call of every history of
in-range calls of `next`, `seek_to` and `read_at` returns what it should, up to and including the first item
that does not decode. -/
theorem C84_random_access {V : Type} {M : Machine} {reader : DType → DRes (RProg V)} {file : NpyFile Src} {r : NpyReader V Src}
    {size : Nat} {f : Bytes → Option V} (h : file.dataWith reader = .ok r) (hp : ∀ p, reader file.header.dtype = .ok p → Decodes p size f)
    (hf : Fits file.src.pos size file.header) (hb : file.src.pos ≤ file.src.data.length) (ops : List ROp)
    (hop : InRange file.header.nRecords ops)
    (hok : Seen.failed ∉ (expected (itemAt f file.src.data file.src.pos size) file.header.nRecords ops 0).dropLast) :
    (r.steps M disk ops).1.map seen =
      (expected (itemAt f file.src.data file.src.pos size) file.header.nRecords ops 0).map some := by
  obtain ⟨-, p, h1, rfl⟩ := dataWith_ok_iff.mp h
  exact steps_disk (hp p h1) hf ⟨Nat.zero_le _, by simp⟩ hb ops hop hok

/-- C84: collecting the reader returns all items, or an error because some item is incomplete or does
not decode. -/
theorem C84_collect {V : Type} {reader : DType → DRes (RProg V)} {file : NpyFile Src} {r : NpyReader V Src}
    {size : Nat} {f : Bytes → Option V} (h : file.dataWith reader = .ok r) (hp : ∀ p, reader file.header.dtype = .ok p → Decodes p size f)
    (hb : file.src.pos ≤ file.src.data.length) :
    (∃ vs, (r.collect disk).1 = .ok vs ∧ vs.length = file.header.nRecords ∧
      (∀ i (h : i < vs.length), itemAt f file.src.data file.src.pos size i = some vs[i])) ∨
    (∃ e, (r.collect disk).1 = .err e ∧ ∃ i, i < file.header.nRecords ∧ itemAt f file.src.data file.src.pos size i = none) := by
  obtain ⟨-, p, h1, rfl⟩ := dataWith_ok_iff.mp h
  have := collectLoop_disk (file.header.nRecords - 0 + 1) (r := ⟨file.header, p, file.src, 0⟩) (hp p h1)
    (base := file.src.pos) ⟨Nat.zero_le _, by simp⟩ hb rfl
  unfold NpyReader.collect
  rcases this with ⟨e, r', h1, i, -, h3, h4⟩ | ⟨vs, r', h1, h2, h3, -⟩
  · exact .inr ⟨e, by rw [h1], i, h3, h4⟩
  · refine .inl ⟨vs, by rw [h1], h2, fun i hi => ?_⟩
    have := h3 i hi
    rwa [Nat.zero_add] at this

/-- C84: whatever `read_one` does, and on any source, iterating runs it once for each element of the
array, each time where the last run stopped, and then ends; nothing else is read. -/
theorem C84_sequential {V σ : Type} {M : Machine} {S : Source σ} {reader : DType → DRes (RProg V)} {file : NpyFile σ}
    {r : NpyReader V σ} (h : file.dataWith reader = .ok r) :
    ∃ p, reader file.header.dtype = .ok p ∧
      (∀ j, (r.steps M S (List.replicate (file.header.nRecords + j) .next)).1 =
        (repeated S p file.header.nRecords file.src).map (fun x => ROut.item (some x)) ++ List.replicate j (.item none)) ∧
      (∀ vs, (r.collect S).1 = .ok vs ↔ allOk (repeated S p file.header.nRecords file.src) = some vs) := by
  obtain ⟨-, p, h1, rfl⟩ := dataWith_ok_iff.mp h
  refine ⟨p, h1, fun j => next_run _ j ⟨file.header, p, file.src, 0⟩ (by simp), fun vs => ?_⟩
  exact collectLoop_run file.header.nRecords ⟨file.header, p, file.src, 0⟩ (by simp) vs

/-- C84: on a source with short reads and interruptions, every history shows the same. -/
theorem C84_schedule {V : Type} {M : Machine} {reader : DType → DRes (RProg V)} {file : NpyFile FlakySrc} {r : NpyReader V FlakySrc}
    (h : file.dataWith reader = .ok r) (hev : NoFail file.src.evs) (ops : List ROp) :
    ∃ r', (⟨file.header, file.src.src⟩ : NpyFile Src).dataWith reader = .ok r' ∧
      (r.steps M flaky ops).1 = (r'.steps M disk ops).1 := by
  obtain ⟨h1, p, h2, rfl⟩ := dataWith_ok_iff.mp h
  exact ⟨_, dataWith_ok_iff.mpr ⟨h1, p, h2, rfl⟩, flaky_steps_nofail ops _ hev⟩

/-- A type that a user might define: a level from 0 to 9, stored in one byte. -/
def readLevel : RProg (Fin 10) := do
  let b ← RProg.readExact 1
  match b with
  | [x] => if h : x.toNat < 10 then pure ⟨x.toNat, h⟩ else RProg.lift (.err (.invalidData "not a level"))
  | _ => RProg.lift .panic

def levelOf : Bytes → Option (Fin 10)
  | [x] => if h : x.toNat < 10 then some ⟨x.toNat, h⟩ else none
  | _ => none

/-- The user's implementations of the traits. -/
def levelReader (d : DType) : DRes (RProg (Fin 10)) :=
  match plainOf d with
  | some ⟨_, .uint, 1, none⟩ => .ok readLevel
  | _ => .err (.expectedScalar [])

def levelWriter (d : DType) : DRes (Fin 10 → WProg Unit) :=
  match plainOf d with
  | some ⟨_, .uint, 1, none⟩ => .ok fun v => WProg.put [UInt8.ofNat v.val]
  | _ => .err (.expectedScalar [])

theorem readLevel_run (x : UInt8) (rest : Bytes) : readLevel.run ([x] ++ rest) =
    (if h : x.toNat < 10 then pure ⟨x.toNat, h⟩ else RProg.lift (.err (.invalidData "not a level")) : RProg (Fin 10)).run rest := by
  unfold readLevel
  rw [RProg.run_bind, show (RProg.readExact 1).run ([x] ++ rest) = (.ok [x], rest) from rfl]
  rfl

theorem readLevel_decodes : Decodes readLevel 1 levelOf where
  ok bs rest v hl hf := by
    obtain ⟨x, rfl⟩ : ∃ x, bs = [x] := List.length_eq_one_iff.mp hl
    rw [readLevel_run]
    simp only [levelOf] at hf
    by_cases h : x.toNat < 10
    · rw [dif_pos h] at hf ⊢
      cases hf; rfl
    · rw [dif_neg h] at hf; cases hf
  bad bs rest hl hf := by
    obtain ⟨x, rfl⟩ : ∃ x, bs = [x] := List.length_eq_one_iff.mp hl
    rw [readLevel_run]
    simp only [levelOf] at hf
    by_cases h : x.toNat < 10
    · rw [dif_pos h] at hf; cases hf
    · rw [dif_neg h]; exact ⟨_, rfl⟩
  short bs hl := by
    obtain rfl : bs = [] := List.length_eq_zero_iff.mp (by omega)
    exact ⟨_, rfl⟩

/-- Levels 3, 1, 4 and a malformed one. -/
def fourLevels : Bytes :=
  magicBytes ++ [1, 0, 56, 0] ++ encodeUtf8 "{'descr': '|u1', 'fortran_order': False, 'shape': (4, )}".toList ++ [3, 1, 4, 10]

theorem fourLevels_reader : ∃ (f : NpyFile Src) (r : NpyReader (Fin 10) Src),
    NpyFile.new ⟨false, 64, true⟩ Py.parse disk ⟨fourLevels, 0⟩ = (.ok f, f.src) ∧ f.dataWith levelReader = .ok r ∧
    (∀ p, levelReader f.header.dtype = .ok p → Decodes p 1 levelOf) ∧
    Fits f.src.pos 1 f.header ∧ f.header.nRecords = 4 ∧ f.src.data = fourLevels ∧ f.src.pos = 66 := by
  obtain ⟨f, r, h0, -, hd, hp, h2, h3⟩ := openAnd_ok (M := ⟨false, 64, true⟩) (t := .num .u8) (bytes := fourLevels)
    (P := fun r => r.header.nRecords == 4 && r.src.pos == 66 && decide (plainOf r.header.dtype = some ⟨.irrelevant, .uint, 1, none⟩) &&
      decide (r.header.itemSize = some 1)) (by decide +kernel)
  simp only [Bool.and_eq_true, beq_iff_eq, decide_eq_true_eq] at h3
  obtain ⟨hpk, p, -, hr⟩ := data_ok_iff.mp h2
  have hh : r.header = f.header := by rw [hr]
  have hs : r.src = f.src := by rw [hr]
  rw [hh, hs] at h3
  obtain ⟨⟨⟨h3, h4⟩, h5⟩, h6⟩ := h3
  have hl : fourLevels.length = 70 := by decide +kernel
  have hrd : levelReader f.header.dtype = .ok readLevel := by unfold levelReader; rw [h5]; rfl
  refine ⟨f, _, h0, dataWith_ok_iff.mpr ⟨hpk, _, hrd, rfl⟩, ?_, fits_of_complete h6 (by omega) ?_ ?_, h3, hd, h4⟩
  · intro p hp
    rw [hrd] at hp
    cases hp
    exact readLevel_decodes
  all_goals rw [hd]; omega

/-- C84_sequential. -/
example : ∃ (f : NpyFile Src) (r : NpyReader (Fin 10) Src), f.dataWith levelReader = .ok r ∧ ∃ p, levelReader f.header.dtype = .ok p ∧
    ∀ vs, (r.collect disk).1 = .ok vs ↔ allOk (repeated disk p 4 f.src) = some vs := by
  obtain ⟨f, r, h1, h2, h3, h4, h5, -⟩ := fourLevels_reader
  obtain ⟨p, a, -, b⟩ := C84_sequential (M := ⟨false, 64, true⟩) (S := disk) h2
  exact ⟨f, r, h2, p, a, by rw [← h5]; exact b⟩

example : ∃ (f : NpyFile Src) (r : NpyReader (Fin 10) Src), f.dataWith levelReader = .ok r ∧
    (r.steps ⟨false, 64, true⟩ disk [.readAt 2, .seekTo 0, .next, .next, .readAt 3]).1.map seen =
      [some (.value 4), some .moved, some (.value 3), some (.value 1), some .failed] ∧
    ∃ e, (r.collect disk).1 = .err e := by
  obtain ⟨f, r, h1, h2, h3, h4, h5, h6, h7⟩ := fourLevels_reader
  have e0 : itemAt levelOf fourLevels 66 1 0 = some 3 := by decide +kernel
  have e1 : itemAt levelOf fourLevels 66 1 1 = some 1 := by decide +kernel
  have e2 : itemAt levelOf fourLevels 66 1 2 = some 4 := by decide +kernel
  have e3 : itemAt levelOf fourLevels 66 1 3 = none := by decide +kernel
  have hb : f.src.pos ≤ f.src.data.length := by rw [h6, h7]; decide +kernel
  refine ⟨f, r, h2, ?_, ?_⟩
  · rw [C84_random_access (M := ⟨false, 64, true⟩) h2 h3 h4 hb [.readAt 2, .seekTo 0, .next, .next, .readAt 3]
      (by rw [h5]; intro op hop; simp at hop; rcases hop with rfl | rfl | rfl | rfl <;> simp)
      (by rw [h5, h6, h7]; simp [expected, look, e0, e1, e2, e3]), h5, h6, h7]
    simp [expected, look, e0, e1, e2, e3]
  · rcases C84_collect h2 h3 hb with ⟨vs, -, h9, h10⟩ | ⟨e, h8, -⟩
    · have := h10 3 (by omega)
      rw [h6, h7, e3] at this
      cases this
    · exact ⟨e, h8⟩

/-! ### C85 -/

/-- C85: if a session that writes values of a user-defined type succeeded, where `write_one` only
appends, then the number of values fits the shape, every `write_one` succeeded, and the file opens with
the dtype, shape and order it was given, followed by exactly the bytes that the `write_one` calls
appended, one after the other, where the stream then stands. -/
theorem C85_file {V : Type} {M M' : Machine} {py : PyParser} (hpy : py.ExtendsRef) {writer : DType → DRes (V → WProg Unit)}
    {d : DType} {size : Nat} (hd : d.Wf) (hn : exactBytes d = some size) (hf : AllFit M'.usizeLim d) {o : Order} {hint : ShapeHint}
    (hdims : ∀ dims, hint = .nd dims → (∀ k ∈ dims, k < 2 ^ 64) ∧ nonzeroProd dims < 2 ^ 64) (hr : ∀ r, hint = .twoD r → r < 2 ^ 64)
    (hmem : dictBytes d o hint + 76 ≤ M'.isizeMax) {s s' : Sink} {vs : List V}
    (hw : ∀ prog, writer d = .ok prog → ∀ v ∈ vs, OnlyAppends (prog v)) (hc : vs.length < 2 ^ 64)
    (hlt : hint.seeks = true → s.pos + dictBytes d o hint + 76 ≤ 2 ^ 64)
    (h : NpyWriter.saveWith M solid writer d o hint vs s = (.ok (), s')) :
    CountFits vs.length hint ∧ ∃ prog chunks f rest, writer d = .ok prog ∧ AllAppend prog vs chunks ∧
      NpyFile.new M' py disk ⟨s'.data, s.pos⟩ = (.ok f, f.src) ∧ f.header.dtype = d ∧ f.header.shape = finalShape o vs.length hint ∧
      f.header.order = o ∧ f.header.nRecords = vs.length ∧ f.header.itemSize = some size ∧ f.header.usesPickled = false ∧
      f.src.rest = chunks.flatten ++ rest ∧ s'.pos = f.src.pos + chunks.flatten.length := by
  obtain ⟨prog, chunks, h1, h2, rfl, h4, h5, h6, h7⟩ := saveWith_ok hw hc hlt h
  have hfit : CountFits vs.length hint := by
    cases hint with
    | nd dims =>
      have h3 := h6 dims rfl
      rw [shapeProduct_exact (acc := 1) (by simpa using (hdims dims rfl).2), Out.ok.injEq, Nat.one_mul] at h3
      exact h3.symm
    | oneD => trivial
    | twoD r => exact (h7 r rfl).2
  refine ⟨hfit, ?_⟩
  have hno : ¬ HasObject d := fun h => by have := (exactBytes_none_iff d).mpr h; rw [hn] at this; cases this
  have hpk : d.usesPickled = false := by
    cases h : d.usesPickled with
    | false => rfl
    | true => exact absurd ((usesPickled_iff d).mp h) hno
  obtain ⟨f1, f2⟩ := finalShape_fits (o := o) hfit hc hdims hr
  have hrun := run_final hpy h4 hd hc f1 h5 hmem
  rw [fromParts_eq f2 (itemSizeOf_ok_iff.mpr (.inr ⟨hno, hf, size, hn, rfl⟩))] at hrun
  have hne := headerBytes_ne_nil (finalDict d o hint vs.length)
  obtain ⟨rest, hdrop⟩ := Sink.put_drop s (headerBytes (finalDict d o hint vs.length) ++ chunks.flatten) (by simp [hne])
  rw [List.append_assoc] at hdrop
  obtain ⟨k1, k2, k3⟩ := open_of_run hrun hne hdrop
  refine ⟨prog, chunks, _, rest, h1, h2, k1, rfl, rfl, rfl, finalShape_prod hfit, rfl, hpk, k2, ?_⟩
  rw [Sink.put_pos]
  simp only [List.length_append]
  omega

/-- C85: if moreover `read_one` decodes what `write_one` wrote, and both agree with the item size of
the dtype, then the values come back. -/
theorem C85_round_trip {V : Type} {M M' : Machine} {py : PyParser} (hpy : py.ExtendsRef) {writer : DType → DRes (V → WProg Unit)}
    {reader : DType → DRes (RProg V)} {p : RProg V} {g : Bytes → Option V} {d : DType} {size : Nat} (hd : d.Wf)
    (hn : exactBytes d = some size) (hf : AllFit M'.usizeLim d) {o : Order} {hint : ShapeHint}
    (hdims : ∀ dims, hint = .nd dims → (∀ k ∈ dims, k < 2 ^ 64) ∧ nonzeroProd dims < 2 ^ 64) (hr : ∀ r, hint = .twoD r → r < 2 ^ 64)
    (hmem : dictBytes d o hint + 76 ≤ M'.isizeMax) {s s' : Sink} {vs : List V}
    (hw : ∀ prog, writer d = .ok prog → ∀ v ∈ vs, OnlyAppends (prog v)) (hc : vs.length < 2 ^ 64)
    (hlt : hint.seeks = true → s.pos + dictBytes d o hint + 76 ≤ 2 ^ 64)
    (hrd : reader d = .ok p) (hp : Decodes p size g)
    (hwr : ∀ prog, writer d = .ok prog → ∀ v ∈ vs, ∀ bs, Appends (prog v) bs → bs.length = size ∧ g bs = some v)
    (h : NpyWriter.saveWith M solid writer d o hint vs s = (.ok (), s')) :
    ∃ f r, (NpyFile.new M' py disk ⟨s'.data, s.pos⟩).1 = .ok f ∧ f.header.dtype = d ∧ f.header.shape = finalShape o vs.length hint ∧
      f.header.order = o ∧ f.dataWith reader = .ok r ∧ (r.collect disk).1 = .ok vs := by
  obtain ⟨-, prog, chunks, f, rest, h1, h2, h3, h4, h5, h6, h7, h8, h9, h10, -⟩ :=
    C85_file (py := py) hpy hd hn hf hdims hr hmem hw hc hlt h
  have hda : f.dataWith reader = .ok ⟨f.header, p, f.src, 0⟩ := dataWith_ok_iff.mpr ⟨h9, p, by rw [h4]; exact hrd, rfl⟩
  refine ⟨f, _, by rw [h3], h4, h5, h6, hda, ?_⟩
  have key : ∀ (vs : List V) (chunks : List Bytes) (src : Src) (rest : Bytes), AllAppend prog vs chunks →
      (∀ v ∈ vs, ∀ bs, Appends (prog v) bs → bs.length = size ∧ g bs = some v) → src.rest = chunks.flatten ++ rest →
      allOk (repeated disk p vs.length src) = some vs := by
    intro vs
    induction vs with
    | nil => intros; rfl
    | cons v vs ih =>
      intro chunks src rest hc hv hs
      cases chunks with
      | nil => cases hc
      | cons b bs =>
        obtain ⟨hl, hg⟩ := hv v List.mem_cons_self b hc.1
        have hok := hp.ok b (bs.flatten ++ rest) v hl hg
        rw [← List.append_assoc, ← List.flatten_cons, ← hs] at hok
        have he : disk.exec p src = (.ok v, { src with pos := src.pos + size }) := by
          have hsr : bs.flatten ++ rest = src.rest.drop size := by
            rw [hs, List.flatten_cons, List.append_assoc, ← hl, List.drop_left]
          have hle : size ≤ src.rest.length := by
            rw [hs, List.flatten_cons, ← hl]; simp only [List.length_append]; omega
          show ((p.run src.rest).1, src.leave (p.run src.rest).2) = _
          rw [hok, hsr, Src.leave_rest src size hle]
        rw [List.length_cons, repeated, he]
        simp only [allOk]
        rw [ih bs _ rest hc.2 (fun v hv' => hv v (List.mem_cons_of_mem _ hv')) ?_]
        · rfl
        · show src.data.drop (src.pos + size) = _
          rw [← List.drop_drop]
          show src.rest.drop size = _
          rw [hs, List.flatten_cons, List.append_assoc, ← hl, List.drop_left]
  obtain ⟨p', q1, -, q2⟩ := C84_sequential (M := M') (S := disk) hda
  rw [h4, hrd] at q1
  cases q1
  rw [q2, h7]
  exact key vs chunks f.src rest h2 (hwr prog h1) h10

/-- Did it succeed? -/
def succeeded : Res Unit → Bool
  | .ok () => true
  | _ => false

theorem of_succeeded {x : Res Unit × Sink} (h : succeeded x.1 = true) : x = (.ok (), x.2) := by
  rcases x with ⟨⟨⟩ | e | _, s⟩
  · rfl
  · cases h
  · cases h

/-- The dtype of levels. -/
def byteDType : DType := .plain ⟨.irrelevant, .uint, 1, none⟩

theorem levelWriter_byte : levelWriter byteDType = .ok fun v => WProg.put [UInt8.ofNat v.val] := rfl

/-- C85_file, C85_round_trip: three levels. -/
example : ∃ s s' f, NpyWriter.saveWith ⟨false, 64, true⟩ solid levelWriter byteDType .c .oneD [3, 1, 4] s = (.ok (), s') ∧
    NpyFile.new ⟨false, 32, false⟩ Py.parse disk ⟨s'.data, s.pos⟩ = (.ok f, f.src) ∧ f.header.shape = [3] ∧ f.header.itemSize = some 1 := by
  have h := of_succeeded (x := NpyWriter.saveWith ⟨false, 64, true⟩ solid levelWriter byteDType .c .oneD [3, 1, 4] ⟨[9, 9], 1, true⟩)
    (by decide +kernel)
  have happ : ∀ v : Fin 10, Appends (WProg.put [UInt8.ofNat v.val]) [UInt8.ofNat v.val] := fun v s => WProg.exec_put _ _
  obtain ⟨-, prog, chunks, f, rest, -, -, h1, -, h2, -, -, h3, -⟩ := C85_file (M' := ⟨false, 32, false⟩) (py := Py.parse) (fun _ _ h => h) (size := 1) (d := byteDType)
    (wf_of_parse (s := "|u1".toList) (by decide)) rfl (by intro n hn; cases hn; decide) (by simp) (by simp) (by decide +kernel)
    (fun prog hp v _ => by rw [levelWriter_byte] at hp; cases hp; exact ⟨_, _, happ v⟩) (by simp) (by decide +kernel) h
  exact ⟨_, _, f, h, h1, h2, h3⟩

example : ∃ s' f r, NpyWriter.saveWith ⟨false, 64, true⟩ solid levelWriter byteDType .c .oneD [3, 1, 4] ⟨[9, 9], 1, true⟩ = (.ok (), s') ∧
    (NpyFile.new ⟨false, 32, false⟩ Py.parse disk ⟨s'.data, 1⟩).1 = .ok f ∧ f.header.shape = [3] ∧ f.dataWith levelReader = .ok r ∧
    (r.collect disk).1 = .ok [3, 1, 4] := by
  have h := of_succeeded (x := NpyWriter.saveWith ⟨false, 64, true⟩ solid levelWriter byteDType .c .oneD [3, 1, 4] ⟨[9, 9], 1, true⟩)
    (by decide +kernel)
  have happ : ∀ v : Fin 10, Appends (WProg.put [UInt8.ofNat v.val]) [UInt8.ofNat v.val] := fun v s => WProg.exec_put _ _
  have hlev : ∀ v : Fin 10, levelOf [UInt8.ofNat v.val] = some v := by decide +kernel
  obtain ⟨f, r, h1, -, h2, -, h3, h4⟩ := C85_round_trip (M' := ⟨false, 32, false⟩) (py := Py.parse) (fun _ _ h => h) (reader := levelReader)
    (g := levelOf) (size := 1) (d := byteDType) (wf_of_parse (s := "|u1".toList) (by decide)) rfl (by intro n hn; cases hn; decide) (by simp) (by simp)
    (by decide +kernel)
    (fun prog hp v _ => by rw [levelWriter_byte] at hp; cases hp; exact ⟨_, _, happ v⟩) (by simp) (by decide +kernel) (p := readLevel) rfl readLevel_decodes
    (fun prog hp v _ bs hb => by
      rw [levelWriter_byte] at hp
      cases hp
      rw [appends_unique hb (happ v)]
      exact ⟨rfl, hlev v⟩) h
  exact ⟨_, f, r, h, h1, h2, h3, h4⟩

end Npyz.Props
