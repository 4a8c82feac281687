import Verif.Proofs.Compose
import Verif.Props.UserFaults
/-!
Properties C87 and C88: pointers, arrays and structs whose element types are defined by the user or by the library.
-/
namespace Npyz.Props
open Npyz Npyz.Spec Py
set_option autoImplicit false

/-! ### C87 -/

/-- C87: a pointer type is accepted for the same dtypes as what it points to, and refused with the same error. -/
theorem C87_accepts {U V : Type} (deref : U → V) (writer : DType → DRes (V → WProg Unit)) (d : DType) :
    ((∃ w, viaDeref deref writer d = .ok w) ↔ ∃ w, writer d = .ok w) ∧ ∀ e, viaDeref deref writer d = .err e ↔ writer d = .err e := by
  unfold viaDeref
  cases writer d <;> simp

/-- C87: writing pointers does to the stream what writing the values does, and returns the same. -/
theorem C87_session {U V σ : Type} {M : Machine} {T : Target σ} (hT : Lawful T) (deref : U → V) (writer : DType → DRes (V → WProg Unit))
    (d : DType) (o : Order) (hint : ShapeHint) (us : List U) (s : σ) :
    NpyWriter.saveWith M T (viaDeref deref writer) d o hint us s = NpyWriter.saveWith M T writer d o hint (us.map deref) s :=
  NpyWriter.saveWith_point hT deref writer d o hint us s

/-- C87: the streams of the model are such streams: reliable ones, ones with failures, buffered ones, and members of an archive. -/
theorem C87_streams : Lawful solid ∧ Lawful shaky ∧ (∀ cap, Lawful (buffered cap)) ∧ Lawful zipStream :=
  ⟨solid_lawful, shaky_lawful, buffered_lawful, zipStream_lawful⟩

/-- C87: a process that dies while writing pointers leaves what it leaves while writing the values. -/
theorem C87_crash {U V : Type} {M : Machine} (deref : U → V) (writer : DType → DRes (V → WProg Unit))
    (d : DType) (o : Order) (hint : ShapeHint) (us : List U) (n : Nat) (s : Sink) :
    (NpyWriter.sessionWith M (viaDeref deref writer) d o hint us).crash n s =
      (NpyWriter.sessionWith M writer d o hint (us.map deref)).crash n s := by
  rw [NpyWriter.sessionWith_point]
  exact WProg.crash_after _ _ _ _

/-- A reference-counted pointer: where it points to, how many others do, and the value. -/
structure Rc (V : Type) where
  addr : Nat
  count : Nat
  val : V

/-- `Cow<str>`: a borrowed or an owned string. -/
inductive CowStr where
  | borrowed (addr : Nat) (s : Text)
  | owned (s : Text)

/-- `Cow::deref`. -/
def CowStr.deref : CowStr → Text
  | .borrowed _ s => s
  | .owned s => s

example : NpyWriter.saveWith ⟨false, 64, true⟩ shaky (viaDeref Rc.val levelWriter) byteDType .c .oneD [⟨7, 1, 3⟩, ⟨9, 2, 1⟩, ⟨9, 2, 1⟩]
      (⟨[], 0, true⟩, [.short 3, .fail 5]) =
    NpyWriter.saveWith ⟨false, 64, true⟩ shaky levelWriter byteDType .c .oneD [3, 1, 1] (⟨[], 0, true⟩, [.short 3, .fail 5]) :=
  C87_session C87_streams.2.1 _ _ _ _ _ _ _

example : NpyWriter.saveWith ⟨false, 64, true⟩ (buffered 16) (viaDeref CowStr.deref (Ty.writer ⟨false, 64, true⟩ .string))
      (.plain ⟨.irrelevant, .byteStr, 4, none⟩) .c (.nd [2]) [.borrowed 5 "ab".toList, .owned "cde".toList] (fresh ⟨[], 0, false⟩ []) =
    NpyWriter.save ⟨false, 64, true⟩ (buffered 16) .string (.plain ⟨.irrelevant, .byteStr, 4, none⟩) .c (.nd [2]) ["ab".toList, "cde".toList]
      (fresh ⟨[], 0, false⟩ []) :=
  C87_session (C87_streams.2.2.1 16) CowStr.deref _ _ _ _ [.borrowed 5 "ab".toList, .owned "cde".toList] _

/-! ### C88 -/

/-- C88: the arrays and structs of the library's element types are arrays and structs of element types. -/
theorem C88_same {M : Machine} :
    (∀ n t, (Ty.array n t).reader M = arrayReader n (t.reader M)) ∧ (∀ n t, (Ty.array n t).writer M = arrayWriter n (t.writer M)) ∧
    (∀ fs, (Ty.record fs).reader M = StructReader.reader ⟨fs.names, fs.reader M⟩) ∧
    (∀ fs, (Ty.record fs).writer M = StructWriter.writer ⟨fs.names, fs.writer M⟩) ∧
    (∀ name t fs, (⟨(TFields.cons name t fs).names, (TFields.cons name t fs).reader M⟩ : StructReader (TFields.cons name t fs).Val) =
      StructReader.cons name (t.reader M) ⟨fs.names, fs.reader M⟩) ∧
    (∀ name t fs, (⟨(TFields.cons name t fs).names, (TFields.cons name t fs).writer M⟩ : StructWriter (TFields.cons name t fs).Val) =
      StructWriter.cons name (t.writer M) ⟨fs.names, fs.writer M⟩) := by
  refine ⟨fun _ _ => rfl, fun _ _ => rfl, fun _ => rfl, fun _ => rfl, fun _ _ _ => ?_, fun _ _ _ => ?_⟩
  · unfold StructReader.cons
    congr 1
    funext x
    cases x <;> rfl
  · unfold StructWriter.cons
    congr 1
    funext x
    cases x <;> rfl

theorem arrayInner_ok {n : Nat} {d d' : DType} : arrayInner n d = .ok d' ↔ d = .array n d' := by
  cases d with
  | plain t => simp [arrayInner]
  | record fs => simp [arrayInner]
  | array m d =>
    simp only [arrayInner]
    by_cases h : m = n
    · simp [h]
    · simp [h]

theorem extractFields_ok {names : List Text} {d : DType} {dfs : Fields} : extractFields names d = .ok dfs ↔ d = .record dfs ∧ dfs.names = names := by
  cases d with
  | plain t => simp [extractFields]
  | array m d => simp [extractFields]
  | record fs =>
    simp only [extractFields]
    by_cases h : fs.names = names
    · rw [if_pos h]
      exact ⟨fun h' => by cases h'; exact ⟨rfl, h⟩, fun h' => by rw [(DType.record.injEq _ _).mp h'.1]⟩
    · rw [if_neg h]
      exact ⟨fun h' => (by cases h'), fun ⟨h1, h2⟩ => (by cases h1; exact absurd h2 h)⟩

/-- C88: arrays accept exactly the array dtypes of their length whose item dtype the element type accepts. -/
theorem C88_array_accepts {V : Type} {n : Nat} {reader : DType → DRes (RProg V)} {writer : DType → DRes (V → WProg Unit)} {d : DType} :
    ((∃ p, arrayReader n reader d = .ok p) ↔ ∃ d' p, d = .array n d' ∧ reader d' = .ok p) ∧
    ((∃ w, arrayWriter n writer d = .ok w) ↔ ∃ d' w, d = .array n d' ∧ writer d' = .ok w) := by
  constructor
  · constructor
    · rintro ⟨p, h⟩
      simp only [arrayReader, Out.bind_eq_ok, arrayInner_ok] at h
      obtain ⟨d', h1, q, h2, -⟩ := h
      exact ⟨d', q, h1, h2⟩
    · rintro ⟨d', q, h1, h2⟩
      refine ⟨readMany q n, ?_⟩
      simp only [arrayReader, Out.bind_eq_ok, arrayInner_ok]
      exact ⟨d', h1, q, h2, rfl⟩
  · constructor
    · rintro ⟨p, h⟩
      simp only [arrayWriter, Out.bind_eq_ok, arrayInner_ok] at h
      obtain ⟨d', h1, q, h2, -⟩ := h
      exact ⟨d', q, h1, h2⟩
    · rintro ⟨d', q, h1, h2⟩
      refine ⟨fun v => writeMany q v.1, ?_⟩
      simp only [arrayWriter, Out.bind_eq_ok, arrayInner_ok]
      exact ⟨d', h1, q, h2, rfl⟩

/-- C88: structs accept exactly the record dtypes with their field names, in order, each of whose dtypes the type of the field
accepts. -/
theorem C88_struct_accepts {V W : Type} {name : Text} {reader : DType → DRes (RProg V)} {rest : StructReader W} {d : DType} :
    ((∃ p, StructReader.nil.reader d = .ok p) ↔ d = .record .nil) ∧
    ((∃ p, (StructReader.cons name reader rest).reader d = .ok p) ↔
      ∃ d' dfs p q, d = .record (.cons name d' dfs) ∧ reader d' = .ok p ∧ rest.reader (.record dfs) = .ok q) := by
  constructor
  · constructor
    · rintro ⟨p, h⟩
      simp only [StructReader.reader, Out.bind_eq_ok, extractFields_ok] at h
      obtain ⟨dfs, ⟨rfl, h1⟩, h2⟩ := h
      cases dfs with
      | nil => rfl
      | cons name d rest => cases h1
    · rintro rfl
      exact ⟨_, rfl⟩
  · constructor
    · rintro ⟨p, h⟩
      simp only [StructReader.reader, Out.bind_eq_ok, extractFields_ok] at h
      obtain ⟨dfs, ⟨rfl, h1⟩, h2⟩ := h
      cases dfs with
      | nil => cases h1
      | cons name' d' dfs =>
        simp only [StructReader.cons, Fields.names, List.cons.injEq] at h1
        obtain ⟨rfl, h1⟩ := h1
        simp only [StructReader.cons, Out.bind_eq_ok] at h2
        obtain ⟨p1, h3, q, h4, -⟩ := h2
        refine ⟨d', dfs, p1, q, rfl, h3, ?_⟩
        simp only [StructReader.reader, Out.bind_eq_ok, extractFields_ok]
        exact ⟨dfs, ⟨rfl, h1⟩, h4⟩
    · rintro ⟨d', dfs, p, q, rfl, h1, h2⟩
      simp only [StructReader.reader, Out.bind_eq_ok, extractFields_ok] at h2
      obtain ⟨dfs', ⟨h3, h4⟩, h5⟩ := h2
      cases h3
      refine ⟨do let x ← p; let xs ← q; pure (x, xs), ?_⟩
      simp only [StructReader.reader, Out.bind_eq_ok, extractFields_ok]
      refine ⟨_, ⟨rfl, ?_⟩, ?_⟩
      · simp only [StructReader.cons, Fields.names, h4]
      · simp only [StructReader.cons, Out.bind_eq_ok]
        exact ⟨p, h1, q, h5, rfl⟩

/-- C88: the same for writing. -/
theorem C88_struct_accepts_write {V W : Type} {name : Text} {writer : DType → DRes (V → WProg Unit)} {rest : StructWriter W} {d : DType} :
    ((∃ p, StructWriter.nil.writer d = .ok p) ↔ d = .record .nil) ∧
    ((∃ p, (StructWriter.cons name writer rest).writer d = .ok p) ↔
      ∃ d' dfs p q, d = .record (.cons name d' dfs) ∧ writer d' = .ok p ∧ rest.writer (.record dfs) = .ok q) := by
  constructor
  · constructor
    · rintro ⟨p, h⟩
      simp only [StructWriter.writer, Out.bind_eq_ok, extractFields_ok] at h
      obtain ⟨dfs, ⟨rfl, h1⟩, h2⟩ := h
      cases dfs with
      | nil => rfl
      | cons name d rest => cases h1
    · rintro rfl
      exact ⟨_, rfl⟩
  · constructor
    · rintro ⟨p, h⟩
      simp only [StructWriter.writer, Out.bind_eq_ok, extractFields_ok] at h
      obtain ⟨dfs, ⟨rfl, h1⟩, h2⟩ := h
      cases dfs with
      | nil => cases h1
      | cons name' d' dfs =>
        simp only [StructWriter.cons, Fields.names, List.cons.injEq] at h1
        obtain ⟨rfl, h1⟩ := h1
        simp only [StructWriter.cons, Out.bind_eq_ok] at h2
        obtain ⟨p1, h3, q, h4, -⟩ := h2
        refine ⟨d', dfs, p1, q, rfl, h3, ?_⟩
        simp only [StructWriter.writer, Out.bind_eq_ok, extractFields_ok]
        exact ⟨dfs, ⟨rfl, h1⟩, h4⟩
    · rintro ⟨d', dfs, p, q, rfl, h1, h2⟩
      simp only [StructWriter.writer, Out.bind_eq_ok, extractFields_ok] at h2
      obtain ⟨dfs', ⟨h3, h4⟩, h5⟩ := h2
      cases h3
      refine ⟨fun v => do p v.1; q v.2, ?_⟩
      simp only [StructWriter.writer, Out.bind_eq_ok, extractFields_ok]
      refine ⟨_, ⟨rfl, ?_⟩, ?_⟩
      · simp only [StructWriter.cons, Fields.names, h4]
      · simp only [StructWriter.cons, Out.bind_eq_ok]
        exact ⟨p, h1, q, h5, rfl⟩

/-- C88: if element types read and write their default dtypes, so do arrays and structs of them. -/
theorem C88_default {V W : Type} {name : Text} {reader : DType → DRes (RProg V)} {writer : DType → DRes (V → WProg Unit)} {d : DType}
    {rs : StructReader W} {ws : StructWriter W} {ds : List (Text × DType)} (hr : ∃ p, reader d = .ok p) (hw : ∃ w, writer d = .ok w)
    (hrs : ∃ p, rs.reader (.record (structDType ds)) = .ok p) (hws : ∃ w, ws.writer (.record (structDType ds)) = .ok w) (n : Nat) :
    (∃ p, arrayReader n reader (arrayDType n d) = .ok p) ∧ (∃ w, arrayWriter n writer (arrayDType n d) = .ok w) ∧
    (∃ p, (StructReader.cons name reader rs).reader (.record (structDType ((name, d) :: ds))) = .ok p) ∧
    (∃ w, (StructWriter.cons name writer ws).writer (.record (structDType ((name, d) :: ds))) = .ok w) ∧
    (∃ p, StructReader.nil.reader (.record (structDType [])) = .ok p) ∧ (∃ p, StructWriter.nil.writer (.record (structDType [])) = .ok p) := by
  obtain ⟨p, hr⟩ := hr
  obtain ⟨w, hw⟩ := hw
  obtain ⟨ps, hrs⟩ := hrs
  obtain ⟨vs, hws⟩ := hws
  exact ⟨C88_array_accepts (writer := writer).1.mpr ⟨d, p, rfl, hr⟩, C88_array_accepts (reader := reader).2.mpr ⟨d, w, rfl, hw⟩,
    C88_struct_accepts.2.mpr ⟨d, _, p, ps, rfl, hr, hrs⟩, C88_struct_accepts_write.2.mpr ⟨d, _, w, vs, rfl, hw, hws⟩, ⟨_, rfl⟩, ⟨_, rfl⟩⟩

/-- C88: every element type of the library reads and writes items. -/
theorem C88_library (M : Machine) (t : Ty) : GoodReader M.isizeMax (t.reader M) (decode t) ∧ GoodWriter M.isizeMax (t.writer M) (encode t) := by
  refine ⟨fun d n p hw hn hm h => (reader_reads t h hw hn hm).decodes, fun d n w hw hn hm h v => ?_⟩
  have := writer_writesAll h hw hn hm v
  cases he : encode t d v with
  | none =>
    rw [he] at this
    obtain ⟨bs, e, h⟩ := this
    exact ⟨bs, e, emits_written h⟩
  | some bs =>
    rw [he] at this
    exact ⟨this.1, emits_written this.2⟩

/-- C88: if an element type reads items, so do arrays of it: the items one after the other. -/
theorem C88_array_reader {V : Type} {lim : Nat} {reader : DType → DRes (RProg V)} {dec : DType → Bytes → Option V}
    (h : GoodReader lim reader dec) (n : Nat) : GoodReader lim (arrayReader n reader) (decodeArray n dec) := by
  intro d m P hw hn hm hP
  simp only [arrayReader, Out.bind_eq_ok, arrayInner_ok] at hP
  obtain ⟨d', rfl, p, hp, hP⟩ := hP
  cases hP
  simp only [exactBytes, Option.map_eq_some_iff] at hn
  obtain ⟨k, hk, rfl⟩ := hn
  refine decodes_congr (f := decodeMany (dec d') k n) (n := n * k) ?_ rfl (fun bs => by simp only [decodeArray, onArray, hk, Option.bind_some])
  cases n with
  | zero => exact decodes_congr (decodes_pure _) (by simp) (fun _ => rfl)
  | succ n =>
    refine decodes_many (h d' k p hw.2 hk ?_ hp) _
    rw [Nat.add_mul] at hm
    omega

/-- C88: if an element type writes items, so do arrays of it. -/
theorem C88_array_writer {V : Type} {lim : Nat} {writer : DType → DRes (V → WProg Unit)} {enc : DType → V → Option Bytes}
    (h : GoodWriter lim writer enc) (n : Nat) : GoodWriter lim (arrayWriter n writer) (encodeArray n enc) := by
  intro d m P hw hn hm hP v
  simp only [arrayWriter, Out.bind_eq_ok, arrayInner_ok] at hP
  obtain ⟨d', rfl, w, hp, hP⟩ := hP
  cases hP
  simp only [exactBytes, Option.map_eq_some_iff] at hn
  obtain ⟨k, hk, rfl⟩ := hn
  obtain ⟨l, rfl⟩ := v
  simp only [encodeArray, onArray]
  cases l with
  | nil => exact ⟨by simp, rfl⟩
  | cons v l =>
    refine writes_many (h d' k w hw.2 hk ?_ hp) (v :: l)
    rw [List.length_cons, Nat.add_mul] at hm
    omega

/-- C88: if the fields of a struct read items, so does the struct. -/
theorem C88_struct_reader {V : Type} {lim : Nat} {s : StructReader V} {dec : Fields → Bytes → Option V} (h : GoodFields lim s dec) :
    GoodReader lim s.reader (fun d bs => d |> onRecord fun dfs => dec dfs bs) := by
  intro d n p hw hn hm hp
  simp only [StructReader.reader, Out.bind_eq_ok, extractFields_ok] at hp
  obtain ⟨dfs, ⟨rfl, hnm⟩, hp⟩ := hp
  exact h dfs n p hnm hw hn hm hp

/-- C88: a struct without fields takes no bytes. -/
theorem C88_no_fields (lim : Nat) :
    GoodFields lim StructReader.nil (fun _ _ => some ()) ∧ GoodFieldWriters lim StructWriter.nil (fun _ _ => some []) ∧
    FieldsRoundTrip StructWriter.nil (fun _ _ => some []) (fun _ _ => some ()) := by
  refine ⟨fun dfs n p hnm hw hn hm hp => ?_, fun dfs n p hnm hw hn hm hp v => ?_, fun dfs n p hnm hp hn v bs hv => ?_⟩ <;>
  · cases dfs with
    | cons name d rest => cases hnm
    | nil =>
      cases hn
      cases hp
      first
      | exact decodes_pure _
      | exact ⟨rfl, rfl⟩
      | cases hv; exact ⟨rfl, rfl⟩

/-- C88: another field in front is decoded from the bytes in front. -/
theorem C88_struct_fields {V W : Type} {lim : Nat} (name : Text) {reader : DType → DRes (RProg V)} {dec : DType → Bytes → Option V}
    (h : GoodReader lim reader dec) {rest : StructReader W} {decs : Fields → Bytes → Option W} (hr : GoodFields lim rest decs) :
    GoodFields lim (StructReader.cons name reader rest) (decodeField dec decs) := by
  intro dfs n P hnm hw hn hm hP
  cases dfs with
  | nil => cases hP
  | cons name' d dfs =>
    simp only [StructReader.cons, Out.bind_eq_ok] at hP
    obtain ⟨p, hp, q, hq, hP⟩ := hP
    cases hP
    simp only [exactFieldBytes] at hn
    cases ha : exactBytes d with
    | none => rw [ha] at hn; cases hn
    | some a =>
      cases hb : exactFieldBytes dfs with
      | none => rw [ha, hb] at hn; cases hn
      | some b =>
        rw [ha, hb] at hn
        cases hn
        refine decodes_congr (decodes_pair (h d a p hw.1 ha (by omega) hp) (hr dfs b q (List.cons.inj hnm).2 hw.2 hb (by omega) hq)) rfl (fun bs => ?_)
        simp only [decodeField, ha, Option.bind_some]

/-- C88: the same for writing. -/
theorem C88_struct_writer {V : Type} {lim : Nat} {s : StructWriter V} {enc : Fields → V → Option Bytes} (h : GoodFieldWriters lim s enc) :
    GoodWriter lim s.writer (fun d v => d |> onRecord fun dfs => enc dfs v) := by
  intro d n p hw hn hm hp
  simp only [StructWriter.writer, Out.bind_eq_ok, extractFields_ok] at hp
  obtain ⟨dfs, ⟨rfl, hnm⟩, hp⟩ := hp
  exact h dfs n p hnm hw hn hm hp

/-- C88: the same for writing. -/
theorem C88_struct_field_writers {V W : Type} {lim : Nat} (name : Text) {writer : DType → DRes (V → WProg Unit)} {enc : DType → V → Option Bytes}
    (h : GoodWriter lim writer enc) {rest : StructWriter W} {encs : Fields → W → Option Bytes} (hr : GoodFieldWriters lim rest encs) :
    GoodFieldWriters lim (StructWriter.cons name writer rest) (encodeField enc encs) := by
  intro dfs n P hnm hw hn hm hP
  cases dfs with
  | nil => cases hP
  | cons name' d dfs =>
    simp only [StructWriter.cons, Out.bind_eq_ok] at hP
    obtain ⟨p, hp, q, hq, hP⟩ := hP
    cases hP
    simp only [exactFieldBytes] at hn
    cases ha : exactBytes d with
    | none => rw [ha] at hn; cases hn
    | some a =>
      cases hb : exactFieldBytes dfs with
      | none => rw [ha, hb] at hn; cases hn
      | some b =>
        rw [ha, hb] at hn
        cases hn
        exact writes_pair (h d a p hw.1 ha (by omega) hp) (hr dfs b q (List.cons.inj hnm).2 hw.2 hb (by omega) hq)

/-- C88: pointers write what they point to. -/
theorem C88_pointer_writer {U V : Type} {lim : Nat} {writer : DType → DRes (V → WProg Unit)} {enc : DType → V → Option Bytes}
    (h : GoodWriter lim writer enc) (deref : U → V) : GoodWriter lim (viaDeref deref writer) (fun d u => enc d (deref u)) := by
  intro d n w hw hn hm hP u
  simp only [viaDeref, Out.bind_eq_ok] at hP
  obtain ⟨w', hp, hP⟩ := hP
  cases hP
  exact h d n w' hw hn hm hp (deref u)

example : GoodWriter (⟨false, 64, true⟩ : Machine).isizeMax (viaDeref CowStr.deref (Ty.writer ⟨false, 64, true⟩ .string)) (fun d u => encode .string d (CowStr.deref u)) :=
  C88_pointer_writer (C88_library ⟨false, 64, true⟩ .string).2 _

mutual
theorem canRead_of_exact : (t : Ty) → (d : DType) → Exact t → CanWrite t d → CanRead t d
  | t, .plain s, hx, h => by
    rcases h with h | h
    · exact h
    · cases t <;> first | exact absurd h (fun h => h) | cases hx
  | t, .array n d, hx, h => by
    obtain ⟨t', rfl, h⟩ := h
    exact ⟨t', rfl, canRead_of_exact t' d hx h⟩
  | t, .record dfs, hx, h => by
    obtain ⟨fs, rfl, h⟩ := h
    exact ⟨fs, rfl, canReadFields_of_exact fs dfs hx h⟩
theorem canReadFields_of_exact : (fs : TFields) → (dfs : Fields) → FieldsExact fs → CanWriteFields fs dfs → CanReadFields fs dfs
  | fs, .nil, _, h => h
  | fs, .cons name d dfs, hx, h => by
    obtain ⟨t, rest, rfl, h1, h2⟩ := h
    exact ⟨t, rest, rfl, canRead_of_exact t d hx.1 h1, canReadFields_of_exact rest dfs hx.2 h2⟩
end

/-- C88: the values of the library's element types without strings come back. -/
theorem C88_library_round_trip {M : Machine} (hM : M.Wf) {t : Ty} (hx : Exact t) : RoundTrips (t.writer M) (encode t) (decode t) := by
  intro d n w hw hn v bs hv
  have hc := canRead_of_exact t d hx ((writer_ok_iff hM t d).mp ⟨w, hw⟩).1
  obtain ⟨h1, h2⟩ := encode_decode t d n v bs hc hn hv
  rw [readBack_exact t d v hx] at h2
  exact ⟨h1, h2⟩

/-- C88: if values of an element type come back, so do arrays of them. -/
theorem C88_array_round_trip {V : Type} {writer : DType → DRes (V → WProg Unit)} {enc : DType → V → Option Bytes} {dec : DType → Bytes → Option V}
    (h : RoundTrips writer enc dec) (n : Nat) : RoundTrips (arrayWriter n writer) (encodeArray n enc) (decodeArray n dec) := by
  intro d m P hP hn v bs hv
  simp only [arrayWriter, Out.bind_eq_ok, arrayInner_ok] at hP
  obtain ⟨d', rfl, w, hp, -⟩ := hP
  simp only [exactBytes, Option.map_eq_some_iff] at hn
  obtain ⟨k, hk, rfl⟩ := hn
  simp only [encodeArray, onArray] at hv
  simp only [decodeArray, onArray, hk, Option.bind_some]
  obtain ⟨l, rfl⟩ := v
  simp only at hv ⊢
  clear P
  induction l generalizing bs with
  | nil => cases hv; exact ⟨by simp, rfl⟩
  | cons v l ih =>
    simp only [encodeAll] at hv
    cases h1 : enc d' v with
    | none => rw [h1] at hv; cases hv
    | some a =>
      cases h2 : encodeAll (enc d') l with
      | none => rw [h1, h2] at hv; cases hv
      | some b =>
        rw [h1, h2] at hv
        cases hv
        obtain ⟨h3, h4⟩ := h d' k w hp hk v a h1
        obtain ⟨h5, h6⟩ := ih b h2
        refine ⟨by rw [List.length_append, h3, h5, List.length_cons, Nat.add_mul]; omega, ?_⟩
        simp only [List.length_cons, decodeMany]
        rw [List.take_left' h3, List.drop_left' h3, h4, h6]

/-- C88: if the values of the fields come back, so do structs of them. -/
theorem C88_struct_round_trip {V W : Type} (name : Text) {writer : DType → DRes (V → WProg Unit)} {enc : DType → V → Option Bytes}
    {dec : DType → Bytes → Option V} (h : RoundTrips writer enc dec) {rest : StructWriter W} {encs : Fields → W → Option Bytes}
    {decs : Fields → Bytes → Option W} (hr : FieldsRoundTrip rest encs decs) :
    FieldsRoundTrip (StructWriter.cons name writer rest) (encodeField enc encs) (decodeField dec decs) ∧
    RoundTrips rest.writer (fun d v => d |> onRecord fun dfs => encs dfs v) (fun d bs => d |> onRecord fun dfs => decs dfs bs) := by
  refine ⟨?_, ?_⟩
  · intro dfs n P hnm hP hn v bs hv
    cases dfs with
    | nil => cases hP
    | cons name' d dfs =>
      simp only [StructWriter.cons, Out.bind_eq_ok] at hP
      obtain ⟨p, hp, q, hq, hP⟩ := hP
      simp only [exactFieldBytes] at hn
      cases ha : exactBytes d with
      | none => rw [ha] at hn; cases hn
      | some a =>
        cases hb : exactFieldBytes dfs with
        | none => rw [ha, hb] at hn; cases hn
        | some b =>
          rw [ha, hb] at hn
          cases hn
          simp only [encodeField] at hv
          cases h1 : enc d v.1 with
          | none => rw [h1] at hv; cases hv
          | some x =>
            cases h2 : encs dfs v.2 with
            | none => rw [h1, h2] at hv; cases hv
            | some y =>
              rw [h1, h2] at hv
              cases hv
              obtain ⟨h3, h4⟩ := h d a p hp ha v.1 x h1
              obtain ⟨h5, h6⟩ := hr dfs b q (List.cons.inj hnm).2 hq hb v.2 y h2
              refine ⟨by rw [List.length_append, h3, h5], ?_⟩
              simp only [decodeField, ha, Option.bind_some, decodePair]
              rw [List.take_left' h3, List.drop_left' h3, h4, h6]
  · intro d n w hw hn v bs hv
    simp only [StructWriter.writer, Out.bind_eq_ok, extractFields_ok] at hw
    obtain ⟨dfs, ⟨rfl, hnm⟩, hp⟩ := hw
    exact hr dfs n w hnm hp hn v bs hv

/-- C88: a reader of a file with an element type that reads items, whatever it is made of, returns the items of the file at every
in-range history of calls, up to and including the first item that does not decode. -/
theorem C88_read {V : Type} {M : Machine} {lim : Nat} {reader : DType → DRes (RProg V)} {dec : DType → Bytes → Option V}
    (hg : GoodReader lim reader dec) {file : NpyFile Src} (ho : Opened M file.header) {r : NpyReader V Src} {size : Nat}
    (h : file.dataWith reader = .ok r) (hl : size ≤ lim) (hf : Fits file.src.pos size file.header) (hb : file.src.pos ≤ file.src.data.length)
    (ops : List ROp) (hop : InRange file.header.nRecords ops)
    (hok : Seen.failed ∉ (expected (itemAt (dec file.header.dtype) file.src.data file.src.pos size) file.header.nRecords ops 0).dropLast) :
    (r.steps M disk ops).1.map seen =
      (expected (itemAt (dec file.header.dtype) file.src.data file.src.pos size) file.header.nRecords ops 0).map some := by
  refine C84_random_access h (fun p hp => ?_) hf hb ops hop hok
  obtain ⟨hw, -, h1, h2⟩ := opened ho
  obtain ⟨hpk, -⟩ := dataWith_ok_iff.mp h
  rw [h1] at hpk
  rcases h2 with ⟨h2, -⟩ | ⟨-, -, n, h3, h4⟩
  · rw [(usesPickled_iff _).mpr h2] at hpk; cases hpk
  · have := hf.size
    rw [h4] at this
    cases this
    exact hg _ _ p hw h3 hl hp

/-- The file of C18, read as doubles. -/
example : ∃ (f : NpyFile Src) (r : NpyReader f64.Val Src), f.dataWith (f64.reader ⟨false, 64, true⟩) = .ok r ∧
    (r.steps ⟨false, 64, true⟩ disk [.readAt 1]).1.map seen =
      (expected (itemAt (decode f64 f.header.dtype) f.src.data f.src.pos 8) f.header.nRecords [.readAt 1] 0).map some := by
  obtain ⟨f, r, h0, h1, h2, h3, h4, h5, h6⟩ := twoFloats_reader
  refine ⟨f, r, h2, C88_read (lim := (⟨false, 64, true⟩ : Machine).isizeMax) (C88_library ⟨false, 64, true⟩ f64).1 h0 h2 (by decide) h3 (by omega) [.readAt 1] ?_ ?_⟩
  · rw [h4]; intro op hop; simp at hop; rcases hop with rfl; simp
  · simp [expected]

/-- C88: if an element type, whatever it is made of, reads and writes items and its values come back from their bytes, then the
values of an array come back from its file. -/
theorem C88_round_trip {V : Type} {M M' : Machine} {py : PyParser} (hpy : py.ExtendsRef) {lim : Nat} {writer : DType → DRes (V → WProg Unit)}
    {enc : DType → V → Option Bytes} {reader : DType → DRes (RProg V)} {dec : DType → Bytes → Option V} (hgw : GoodWriter lim writer enc)
    (hgr : GoodReader lim reader dec) (hrt : RoundTrips writer enc dec) {d : DType} {size : Nat} (hd : d.Wf) (hn : exactBytes d = some size)
    (hl : size ≤ lim) (hf : AllFit M'.usizeLim d) {p : RProg V} (hrd : reader d = .ok p) {o : Order} {hint : ShapeHint}
    (hdims : ∀ dims, hint = .nd dims → (∀ k ∈ dims, k < 2 ^ 64) ∧ nonzeroProd dims < 2 ^ 64) (hr : ∀ r, hint = .twoD r → r < 2 ^ 64)
    (hmem : dictBytes d o hint + 76 ≤ M'.isizeMax) {s s' : Sink} {vs : List V} (hc : vs.length < 2 ^ 64)
    (hlt : hint.seeks = true → s.pos + dictBytes d o hint + 76 ≤ 2 ^ 64)
    (h : NpyWriter.saveWith M solid writer d o hint vs s = (.ok (), s')) :
    ∃ f r, (NpyFile.new M' py disk ⟨s'.data, s.pos⟩).1 = .ok f ∧ f.header.dtype = d ∧ f.header.shape = finalShape o vs.length hint ∧
      f.header.order = o ∧ f.dataWith reader = .ok r ∧ (r.collect disk).1 = .ok vs := by
  have key : ∀ prog, writer d = .ok prog → ∀ v, OnlyAppends (prog v) ∧ ∀ bs, Appends (prog v) bs → enc d v = some bs := by
    intro prog hp v
    have h1 := hgw d size prog hd hn hl hp v
    cases he : enc d v with
    | none =>
      rw [he] at h1
      obtain ⟨b, e, h1⟩ := h1
      have h2 := fun s => (written_emits h1).exec s
      refine ⟨⟨_, b, h2⟩, fun bs hb => ?_⟩
      have := (h2 ⟨[], 0, true⟩).symm.trans (hb ⟨[], 0, true⟩)
      cases this
    | some b =>
      rw [he] at h1
      have h2 := fun s => (written_emits h1.2).exec s
      refine ⟨⟨_, b, h2⟩, fun bs hb => ?_⟩
      rw [appends_unique hb h2]
  refine C85_round_trip hpy hd hn hf hdims hr hmem (fun prog hp v _ => (key prog hp v).1) hc hlt hrd (hgr d size p hd hn hl hrd)
    (fun prog hp v _ bs hb => hrt d size prog hp hn v bs ((key prog hp v).2 bs hb)) h

theorem level_dtype {d : DType} {n : Nat} {e : Endianness} (h : plainOf d = some ⟨e, .uint, 1, none⟩) (hn : exactBytes d = some n) : n = 1 := by
  cases d with
  | plain t =>
    cases h
    cases hn
    rfl
  | array m d => cases h
  | record fs => cases h

theorem level_reader (lim : Nat) : GoodReader lim levelReader (fun _ => levelOf) := by
  intro d n p _ hn _ h
  unfold levelReader at h
  split at h
  · cases h
    rw [level_dtype (by assumption) hn]
    exact readLevel_decodes
  · cases h

theorem level_writer (lim : Nat) : GoodWriter lim levelWriter (fun _ => levelBytes) := by
  intro d n w _ hn _ h
  unfold levelWriter at h
  split at h
  · cases h
    rw [level_dtype (by assumption) hn]
    exact levelWriter_items _ rfl
  · cases h

theorem level_round_trips : RoundTrips levelWriter (fun _ => levelBytes) (fun _ => levelOf) := by
  intro d n w h hn v bs hv
  obtain ⟨h1, h2⟩ := levelBytes_levelOf v bs hv
  refine ⟨?_, h2⟩
  unfold levelWriter at h
  split at h
  · rw [level_dtype (by assumption) hn, h1]
  · cases h

/-- `#[derive(Deserialize)] struct Cell { top: Level, sides: [Level; 2], id: u16 }` -/
def cellReader (M : Machine) : StructReader (Fin 10 × { l : List (Fin 10) // l.length = 2 } × Word 2 × Unit) :=
  .cons "top".toList levelReader (.cons "sides".toList (arrayReader 2 levelReader) (.cons "id".toList (Ty.reader M (.num .u16)) .nil))

/-- `#[derive(Serialize)] struct Cell …` -/
def cellWriter (M : Machine) : StructWriter (Fin 10 × { l : List (Fin 10) // l.length = 2 } × Word 2 × Unit) :=
  .cons "top".toList levelWriter (.cons "sides".toList (arrayWriter 2 levelWriter) (.cons "id".toList (Ty.writer M (.num .u16)) .nil))

/-- `[('top', '|u1'), ('sides', '|u1', (2,)), ('id', '>u2')]` -/
def cellDType : DType :=
  .record (.cons "top".toList byteDType (.cons "sides".toList (.array 2 byteDType) (.cons "id".toList (.plain ⟨.big, .uint, 2, none⟩) .nil)))

example : ∃ s' f r, NpyWriter.saveWith ⟨false, 64, true⟩ solid (cellWriter ⟨false, 64, true⟩).writer cellDType .c .oneD
      [(3, ⟨[1, 4], rfl⟩, 300, ()), (5, ⟨[0, 9], rfl⟩, 7, ())] ⟨[], 0, true⟩ = (.ok (), s') ∧
    (NpyFile.new ⟨false, 32, false⟩ Py.parse disk ⟨s'.data, 0⟩).1 = .ok f ∧ f.header.shape = [2] ∧
    f.dataWith (cellReader ⟨false, 32, false⟩).reader = .ok r ∧
    (r.collect disk).1 = .ok [(3, ⟨[1, 4], rfl⟩, 300, ()), (5, ⟨[0, 9], rfl⟩, 7, ())] := by
  have hM : Machine.Wf ⟨false, 64, true⟩ := .inr rfl
  have h := of_succeeded (x := NpyWriter.saveWith ⟨false, 64, true⟩ solid (cellWriter ⟨false, 64, true⟩).writer cellDType .c .oneD
      [(3, ⟨[1, 4], rfl⟩, 300, ()), (5, ⟨[0, 9], rfl⟩, 7, ())] ⟨[], 0, true⟩) (by decide +kernel)
  have hlib := C88_library ⟨false, 64, true⟩ (.num .u16)
  have hr := C88_struct_reader (C88_struct_fields "top".toList (level_reader (Machine.isizeMax ⟨false, 32, false⟩))
    (C88_struct_fields "sides".toList (C88_array_reader (level_reader _) 2)
      (C88_struct_fields "id".toList (C88_library ⟨false, 32, false⟩ (.num .u16)).1 (C88_no_fields _).1)))
  have hw := C88_struct_writer (C88_struct_field_writers "top".toList (level_writer (Machine.isizeMax ⟨false, 32, false⟩))
    (C88_struct_field_writers "sides".toList (C88_array_writer (level_writer _) 2)
      (C88_struct_field_writers "id".toList (fun d n w h1 h2 h3 h4 => hlib.2 d n w h1 h2 (Nat.le_trans h3 (by decide)) h4) (C88_no_fields _).2.1)))
  have hrt := (C88_struct_round_trip [] level_round_trips (C88_struct_round_trip "top".toList level_round_trips
    (C88_struct_round_trip "sides".toList (C88_array_round_trip level_round_trips 2)
      (C88_struct_round_trip "id".toList (C88_library_round_trip hM (t := .num .u16) trivial) (C88_no_fields 0).2.2).1).1).1).2
  have ht : (⟨.big, .uint, 2, none⟩ : TypeStr).Wf := wf_of_parse (s := ">u2".toList) (by decide)
  have ht1 : (⟨.irrelevant, .uint, 1, none⟩ : TypeStr).Wf := wf_of_parse (s := "|u1".toList) (by decide)
  have hf1 : AllFit (Machine.usizeLim ⟨false, 32, false⟩) byteDType := by intro n hn; cases hn; decide +kernel
  obtain ⟨f, r, h1, -, h3, -, h5, h6⟩ := C88_round_trip (M' := ⟨false, 32, false⟩) (py := Py.parse) (fun _ _ h => h) hw hr hrt (d := cellDType) (size := 5)
    ⟨ht1, ⟨by decide, ht1⟩, ht, trivial⟩ (by decide) (by decide)
    ⟨⟨hf1, ⟨hf1, by decide +kernel, by intro k hk; cases hk; decide +kernel⟩, by intro n hn; cases hn; decide +kernel, trivial⟩,
      by intro k hk; cases hk; decide +kernel⟩ (p := _) rfl (fun _ h => by cases h) (fun _ h => by cases h) (by decide +kernel) (by decide +kernel) (by decide +kernel) h
  exact ⟨_, f, r, h, h1, h3, h5, h6⟩

example : (∃ p, arrayReader 3 (cellReader ⟨true, 32, false⟩).reader (arrayDType 3 cellDType) = .ok p) ∧
    (∃ w, arrayWriter 3 (cellWriter ⟨true, 32, false⟩).writer (arrayDType 3 cellDType) = .ok w) :=
  have h := C88_default (name := "x".toList) (n := 3) (d := cellDType) (reader := (cellReader ⟨true, 32, false⟩).reader)
    (writer := (cellWriter ⟨true, 32, false⟩).writer) ⟨_, rfl⟩ ⟨_, rfl⟩ (rs := .nil) (ws := .nil) (ds := []) ⟨_, rfl⟩ ⟨_, rfl⟩
  ⟨h.1, h.2.1⟩

end Npyz.Props
