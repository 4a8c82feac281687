import Verif.Proofs.Header
import Verif.Model.Write
/-! Output streams and header writing. -/
namespace Npyz
open Py

/-! ### Streams -/

theorem length_overwrite_head (data : Bytes) (pos : Nat) :
    ((data ++ List.replicate (pos - data.length) 0).take pos).length = pos := by
  simp; omega

theorem overwrite_overwrite (data : Bytes) (pos : Nat) (a b : Bytes) :
    overwrite (overwrite data pos a) (pos + a.length) b = overwrite data pos (a ++ b) := by
  unfold overwrite
  have hl := length_overwrite_head data pos
  generalize (data ++ List.replicate (pos - data.length) 0).take pos = hd at hl
  have h1 : (hd ++ a ++ data.drop (pos + a.length)).length ≥ pos + a.length := by simp; omega
  rw [Nat.sub_eq_zero_of_le h1, List.replicate_zero, List.append_nil,
    List.take_left' (by simp [hl]), ← List.drop_drop, List.drop_left' (by simp [hl]), List.drop_drop]
  simp [Nat.add_assoc]

theorem Sink.put_nil (s : Sink) : s.put [] = s := by simp [Sink.put]

theorem Sink.put_put (s : Sink) (a b : Bytes) : (s.put a).put b = s.put (a ++ b) := by
  by_cases ha : a = []
  · subst ha; simp [Sink.put_nil]
  · by_cases hb : b = []
    · subst hb; simp [Sink.put_nil]
    · simp only [Sink.put, if_neg ha, if_neg hb, overwrite_overwrite, List.append_eq_nil_iff, ha, false_and, if_false,
        List.length_append, Nat.add_assoc]

@[simp] theorem Sink.put_seekable (s : Sink) (b : Bytes) : (s.put b).seekable = s.seekable := by
  unfold Sink.put; split <;> rfl

@[simp] theorem Sink.put_pos (s : Sink) (b : Bytes) : (s.put b).pos = s.pos + b.length := by
  unfold Sink.put; split
  · simp [*]
  · rfl

/-- Writing at the end of a stream appends. -/
theorem Sink.put_end {data : Bytes} {sk : Bool} (b : Bytes) :
    (⟨data, data.length, sk⟩ : Sink).put b = ⟨data ++ b, (data ++ b).length, sk⟩ := by
  unfold Sink.put
  split
  · simp [*]
  · simp [overwrite]

namespace WProg

/-- Continue after a run. -/
def andThen {α β : Type} (x : Res α × Sink) (f : α → WProg β) : Res β × Sink :=
  match x with
  | (.ok a, s) => (f a).exec s
  | (.err e, s) => (.err e, s)
  | (.panic, s) => (.panic, s)

theorem exec_bind {α β : Type} (p : WProg α) (f : α → WProg β) (s : Sink) :
    (p >>= f).exec s = andThen (p.exec s) f := by
  show (p.bind f).exec s = _
  induction p generalizing s with
  | ret r => cases r <;> rfl
  | write b k ih => exact ih _
  | tell k ih =>
    simp only [WProg.bind, exec]
    split
    · exact ih _ _
    · rfl
  | seek p k ih =>
    simp only [WProg.bind, exec]
    split
    · exact ih _
    · rfl
  | flush k ih => exact ih _

@[simp] theorem exec_pure {α : Type} (a : α) (s : Sink) : (pure a : WProg α).exec s = (.ok a, s) := rfl
@[simp] theorem exec_lift {α : Type} (r : Res α) (s : Sink) : (lift r).exec s = (r, s) := rfl
@[simp] theorem exec_put (b : Bytes) (s : Sink) : (put b).exec s = (.ok (), s.put b) := rfl

theorem exec_bind_of_ok {α β : Type} {p : WProg α} {f : α → WProg β} {s s' : Sink} {a : α}
    (h : p.exec s = (.ok a, s')) : (p >>= f).exec s = (f a).exec s' := by
  rw [exec_bind, h]; rfl

theorem exec_bind_of_err {α β : Type} {p : WProg α} {f : α → WProg β} {s s' : Sink} {e : Err}
    (h : p.exec s = (.err e, s')) : (p >>= f).exec s = (.err e, s') := by
  rw [exec_bind, h]; rfl

theorem exec_bind_of_panic {α β : Type} {p : WProg α} {f : α → WProg β} {s s' : Sink}
    (h : p.exec s = (.panic, s')) : (p >>= f).exec s = (.panic, s') := by
  rw [exec_bind, h]; rfl

theorem exec_bind_ok {α β : Type} {p : WProg α} {f : α → WProg β} {s s' : Sink} {b : β} :
    (p >>= f).exec s = (.ok b, s') ↔ ∃ a s1, p.exec s = (.ok a, s1) ∧ (f a).exec s1 = (.ok b, s') := by
  rw [exec_bind]
  rcases h : p.exec s with ⟨(a | e | _), r⟩
  · simp only [andThen, Prod.mk.injEq, Out.ok.injEq]
    exact ⟨fun h => ⟨a, r, ⟨rfl, rfl⟩, h⟩, fun ⟨_, _, ⟨rfl, rfl⟩, h⟩ => h⟩
  · simp [andThen]
  · simp [andThen]

/-! Schedules of short writes and interruptions do not matter. -/

theorem writeLoop_nofail (evs : List RProg.Ev) (h : ∀ c, RProg.Ev.fail c ∉ evs) (b : Bytes) (s : Sink) :
    ∃ evs', (∀ c, RProg.Ev.fail c ∉ evs') ∧ writeLoop evs b s = (none, s.put b, evs') := by
  induction evs generalizing b s with
  | nil => exact ⟨[], by simp, rfl⟩
  | cons ev evs ih =>
    have h' : ∀ c, RProg.Ev.fail c ∉ evs := fun c hc => h c (by simp [hc])
    by_cases hb : b = []
    · subst hb
      exact ⟨ev :: evs, h, by simp [writeLoop, Sink.put_nil]⟩
    · cases ev with
      | interrupted =>
        obtain ⟨evs', h1, h2⟩ := ih h' b s
        exact ⟨evs', h1, by simp only [writeLoop, if_neg hb, h2]⟩
      | fail c => exact absurd (by simp) (h c)
      | short k =>
        obtain ⟨evs', h1, h2⟩ := ih h' (b.drop (k + 1)) (s.put (b.take (k + 1)))
        refine ⟨evs', h1, ?_⟩
        simp only [writeLoop, if_neg hb, h2, Sink.put_put, List.take_append_drop]

theorem opEvent_nofail (evs : List RProg.Ev) (h : ∀ c, RProg.Ev.fail c ∉ evs) :
    ∃ evs', (∀ c, RProg.Ev.fail c ∉ evs') ∧ opEvent evs = (none, evs') := by
  cases evs with
  | nil => exact ⟨[], by simp, rfl⟩
  | cons ev evs =>
    have h' : ∀ c, RProg.Ev.fail c ∉ evs := fun c hc => h c (by simp [hc])
    cases ev with
    | fail c => exact absurd (by simp) (h c)
    | interrupted => exact ⟨evs, h', rfl⟩
    | short k => exact ⟨evs, h', rfl⟩

theorem runSched_eq_exec {α : Type} (p : WProg α) (s : Sink) (evs : List RProg.Ev) (h : ∀ c, RProg.Ev.fail c ∉ evs) :
    ∃ evs', p.runSched s evs = ((p.exec s).1, (p.exec s).2, evs') := by
  induction p generalizing s evs with
  | ret r => exact ⟨evs, rfl⟩
  | write b k ih =>
    obtain ⟨evs', h1, h2⟩ := writeLoop_nofail evs h b s
    simp only [runSched, h2]
    exact ih _ _ h1
  | tell k ih =>
    obtain ⟨evs', h1, h2⟩ := opEvent_nofail evs h
    simp only [runSched, exec, h2]
    split
    · exact ih _ _ _ h1
    · exact ⟨evs, rfl⟩
  | seek p k ih =>
    obtain ⟨evs', h1, h2⟩ := opEvent_nofail evs h
    simp only [runSched, exec, h2]
    split
    · exact ih _ _ h1
    · exact ⟨evs, rfl⟩
  | flush k ih =>
    obtain ⟨evs', h1, h2⟩ := opEvent_nofail evs h
    simp only [runSched, exec, h2]
    exact ih _ _ h1

/-- What a write loop leaves behind: everything, or a prefix and the error. -/
theorem writeLoop_cases (evs : List RProg.Ev) (b : Bytes) (s : Sink) :
    (∃ evs', writeLoop evs b s = (none, s.put b, evs') ∧ ∀ e ∈ evs', e ∈ evs) ∨
    (∃ n c evs', n < b.length ∧ RProg.Ev.fail c ∈ evs ∧ writeLoop evs b s = (some c, s.put (b.take n), evs') ∧ ∀ e ∈ evs', e ∈ evs) := by
  induction evs generalizing b s with
  | nil => exact .inl ⟨[], rfl, by simp⟩
  | cons ev evs ih =>
    by_cases hb : b = []
    · subst hb
      exact .inl ⟨ev :: evs, by simp [writeLoop, Sink.put_nil], fun e h => h⟩
    · have hlen : 0 < b.length := List.length_pos_iff.mpr hb
      cases ev with
      | interrupted =>
        simp only [writeLoop, if_neg hb]
        rcases ih b s with ⟨evs', h1, h2⟩ | ⟨n, c, evs', h1, h2, h3, h4⟩
        · exact .inl ⟨evs', h1, fun e he => by simp [h2 e he]⟩
        · exact .inr ⟨n, c, evs', h1, by simp [h2], h3, fun e he => by simp [h4 e he]⟩
      | fail c => exact .inr ⟨0, c, evs, hlen, by simp, by simp [writeLoop, if_neg hb, Sink.put_nil], fun e he => by simp [he]⟩
      | short k =>
        simp only [writeLoop, if_neg hb]
        rcases ih (b.drop (k + 1)) (s.put (b.take (k + 1))) with ⟨evs', h1, h2⟩ | ⟨n, c, evs', h1, h2, h3, h4⟩
        · refine .inl ⟨evs', ?_, fun e he => by simp [h2 e he]⟩
          rw [h1, Sink.put_put, List.take_append_drop]
        · refine .inr ⟨k + 1 + n, c, evs', ?_, by simp [h2], ?_, fun e he => by simp [h4 e he]⟩
          · simp at h1; omega
          · rw [h3, Sink.put_put, ← List.take_add]

/-- A failing stream leaves behind what a crash at the same byte would, and the error is reported;
without a failure nothing changes. -/
theorem runSched_cases {α : Type} (p : WProg α) (s : Sink) (evs : List RProg.Ev) :
    ((p.runSched s evs).1 = (p.exec s).1 ∧ (p.runSched s evs).2.1 = (p.exec s).2) ∨
    (∃ c, RProg.Ev.fail c ∈ evs ∧ (p.runSched s evs).1 = .err (.source c)) := by
  induction p generalizing s evs with
  | ret r => exact .inl ⟨rfl, rfl⟩
  | write b k ih =>
    simp only [runSched, exec]
    rcases writeLoop_cases evs b s with ⟨evs', h1, h2⟩ | ⟨n, c, evs', h1, h2, h3, -⟩
    · rw [h1]
      rcases ih (s.put b) evs' with h | ⟨c, hc, h⟩
      · exact .inl h
      · exact .inr ⟨c, h2 _ hc, h⟩
    · rw [h3]; exact .inr ⟨c, h2, rfl⟩
  | tell k ih =>
    simp only [runSched, exec]
    split
    · rcases evs with _ | ⟨(_ | _ | c), evs⟩
      · exact ih _ _ _
      · rcases ih s.pos s evs with h | ⟨c, hc, h⟩
        · exact .inl h
        · exact .inr ⟨c, by simp [hc], h⟩
      · rcases ih s.pos s evs with h | ⟨c, hc, h⟩
        · exact .inl h
        · exact .inr ⟨c, by simp [hc], h⟩
      · exact .inr ⟨c, by simp, rfl⟩
    · exact .inl ⟨rfl, rfl⟩
  | seek p k ih =>
    simp only [runSched, exec]
    split
    · rcases evs with _ | ⟨(_ | _ | c), evs⟩
      · exact ih _ _
      · rcases ih { s with pos := p } evs with h | ⟨c, hc, h⟩
        · exact .inl h
        · exact .inr ⟨c, by simp [hc], h⟩
      · rcases ih { s with pos := p } evs with h | ⟨c, hc, h⟩
        · exact .inl h
        · exact .inr ⟨c, by simp [hc], h⟩
      · exact .inr ⟨c, by simp, rfl⟩
    · exact .inl ⟨rfl, rfl⟩
  | flush k ih =>
    simp only [runSched, exec]
    rcases evs with _ | ⟨(_ | _ | c), evs⟩
    · exact ih _ _
    · rcases ih s evs with h | ⟨c, hc, h⟩
      · exact .inl h
      · exact .inr ⟨c, by simp [hc], h⟩
    · rcases ih s evs with h | ⟨c, hc, h⟩
      · exact .inl h
      · exact .inr ⟨c, by simp [hc], h⟩
    · exact .inr ⟨c, by simp, rfl⟩

end WProg

/-! ### The header text is a literal -/

theorem txt_eq (s : String) : txt s = s.toList := rfl

/-- The dict written for a complete shape. -/
def headerDict (d : DType) (o : Order) (vs : List PyVal) : List (PyVal × PyVal) :=
  [(.str (txt "descr"), d.pyElem), (.str (txt "fortran_order"), .bool (o == .fortran)), (.str (txt "shape"), .tuple vs)]

theorem lit_key (s : Text) (h : ∀ c ∈ s, c ≠ '\\' ∧ c ≠ '\'' ∧ c ≠ '\r' ∧ c ≠ '\n') :
    Lit ('\'' :: (s ++ ['\''])) (.str s) := by
  have := lit_quoted s
  rwa [esc_of_plain h] at this

theorem lit_order (o : Order) : Lit (orderText o) (.bool (o == .fortran)) := by
  cases o
  · exact lit_false
  · exact lit_true

theorem lit_header {d : DType} (hn : d.NotArray) (o : Order) {t : Text} {vs : List PyVal} (ht : Items ')' t vs) :
    Lit (dictPrefix d o ++ (t ++ txt ", }")) (.dict (headerDict d o vs)) := by
  have h3 := entries_cons 1 1 (lit_key (txt "shape") (by decide)) (lit_tuple ht) entries_nil
  have h2 := entries_cons 1 1 (lit_key (txt "fortran_order") (by decide)) (lit_order o) h3
  have h1 := entries_cons 1 1 (lit_key (txt "descr") (by decide)) (lit_descr hn) h2
  have h := lit_dict h1
  simp only [List.cons_append, List.append_assoc, List.nil_append, List.replicate_one, List.singleton_append, txt] at h
  simpa [dictPrefix, txt, headerDict] using h

theorem items_shape (dims : List Nat) :
    Items ')' ((dims.flatMap fun n => Nat.toDigits 10 n ++ txt ", ") ++ [')']) (dims.map fun n : Nat => PyVal.int n) := by
  induction dims with
  | nil => exact items_nil ')' (by decide)
  | cons n ns ih =>
    have := items_cons 1 (.inl rfl) (lit_nat n) ih
    simpa [txt] using this

theorem lit_ndText {d : DType} (hn : d.NotArray) (o : Order) (dims : List Nat) :
    Lit (dictPrefix d o ++ shapeText dims) (.dict (headerDict d o (dims.map fun n : Nat => PyVal.int n))) := by
  have := lit_header hn o (items_shape dims)
  simpa [shapeText, txt] using this

theorem interpretHeader_headerDict {M : Machine} {d : DType} (hn : d.NotArray) (hw : d.Wf) (o : Order) {dims : List Nat}
    (hd : ∀ n ∈ dims, n < 2 ^ 64) :
    interpretHeader M (.dict (headerDict d o (dims.map fun n : Nat => PyVal.int n))) = NpyHeader.fromParts M d dims o := by
  have h1 : lookupLast (txt "fortran_order") [(txt "descr", d.pyElem), (txt "fortran_order", .bool (o == .fortran)),
      (txt "shape", .tuple (dims.map fun n : Nat => PyVal.int n))] = some (.bool (o == .fortran)) := by
    simp [lookupLast, txt]
  have h2 : lookupLast (txt "shape") [(txt "descr", d.pyElem), (txt "fortran_order", .bool (o == .fortran)),
      (txt "shape", .tuple (dims.map fun n : Nat => PyVal.int n))] = some (.tuple (dims.map fun n : Nat => PyVal.int n)) := by
    simp [lookupLast, txt]
  have h3 : lookupLast (txt "descr") [(txt "descr", d.pyElem), (txt "fortran_order", .bool (o == .fortran)),
      (txt "shape", .tuple (dims.map fun n : Nat => PyVal.int n))] = some d.pyElem := by
    simp [lookupLast, txt]
  have h4 : convertShape (.tuple (dims.map fun n : Nat => PyVal.int n)) = .ok dims :=
    convertShape_ok_iff.mpr ⟨.inl rfl, hd⟩
  simp only [interpretHeader, headerDict, stringKeys, Out.bind_ok, interpretDict, expectKey, h1, h2, h3, orderFromVal, h4,
    fromDescr_py hn hw]
  cases o <;> rfl

/-! ### Framing -/

theorem leBytes_length (w n : Nat) : (leBytes w n).length = w := by
  induction w generalizing n with
  | zero => rfl
  | succ w ih => simp [leBytes, ih]

theorem leNat_leBytes {w n : Nat} (h : n < 256 ^ w) : leNat (leBytes w n) = n := by
  induction w generalizing n with
  | zero => simp at h; simp [leBytes, leNat, h]
  | succ w ih =>
    simp only [leBytes, leNat]
    rw [ih (by rw [Nat.pow_succ] at h; omega)]
    simp; omega

/-- The bytes of a header. -/
def emitHeader (text : Bytes) (ver : UInt8 × UInt8) (props : VersionProps) : Bytes :=
  magic ++ [ver.1, ver.2] ++ leBytes props.width text.length ++ text

/-- Largest text length the length field can hold. -/
def VersionProps.maxLen (p : VersionProps) : Nat := 256 ^ p.width - 1

theorem length_emitHeader (text : Bytes) (ver : UInt8 × UInt8) (props : VersionProps) :
    (emitHeader text ver props).length = text.length + props.bytesBeforeText := by
  simp [emitHeader, magic, leBytes_length, bytesBeforeText_eq]; omega

theorem exec_writeHeaderLen (p : VersionProps) (n : Nat) (s : Sink) : (writeHeaderLen p n).exec s =
    if n ≤ p.maxLen then (.ok (), s.put (leBytes p.width n)) else (.panic, s) := by
  rcases p with ⟨_ | _, e⟩
  · simp only [writeHeaderLen]
    rw [WProg.exec_bind, WProg.exec_lift]
    by_cases h : n ≤ 65535
    · rw [if_pos (by simpa [VersionProps.maxLen, VersionProps.width] using h), assert, if_pos h]; rfl
    · rw [if_neg (by simpa [VersionProps.maxLen, VersionProps.width] using h), assert, if_neg h]; rfl
  · simp only [writeHeaderLen]
    rw [WProg.exec_bind, WProg.exec_lift]
    by_cases h : n ≤ 4294967295
    · rw [if_pos (by simpa [VersionProps.maxLen, VersionProps.width] using h), assert, if_pos h]; rfl
    · rw [if_neg (by simpa [VersionProps.maxLen, VersionProps.width] using h), assert, if_neg h]; rfl

theorem padHeader_mod (h : Bytes) (b : Nat) : ((padHeader h b).length + b) % 64 = 0 := by
  simp [padHeader]; omega

/-- The version properties actually used. -/
def usedProps (header : Bytes) : VersionProps :=
  if (requiredProps header).encoding = .utf8 then ⟨.u32, .utf8⟩
  else if (requiredProps header).sizeType = .u32 then ⟨.u32, .ascii⟩
  else ⟨.u16, .ascii⟩

theorem getVersionProps_minimal (header : Bytes) :
    getVersionProps (getMinimalVersion (requiredProps header)).1 (getMinimalVersion (requiredProps header)).2
      = .ok (usedProps header) := by
  unfold getMinimalVersion usedProps
  split
  · rfl
  · split <;> rfl

theorem determineVersion_eq (header : Bytes) : determineVersion header =
    .ok (padHeader header (usedProps header).bytesBeforeText, getMinimalVersion (requiredProps header), usedProps header) := by
  unfold determineVersion
  rw [getVersionProps_minimal]
  simp only
  rw [if_pos (padHeader_mod _ _)]

/-- The padded header text for a dict. -/
def headerText (dict : Text) : Bytes := padHeader (encodeUtf8 dict) (usedProps (encodeUtf8 dict)).bytesBeforeText

/-- The complete header for a dict. -/
def headerBytes (dict : Text) : Bytes :=
  emitHeader (headerText dict) (getMinimalVersion (requiredProps (encodeUtf8 dict))) (usedProps (encodeUtf8 dict))

theorem exec_writeHeader {M : Machine} {d : DType} {o : Order} {hint : ShapeHint} {dict : Text} {info : ShapeInfo}
    (ha : d.isArray = false) (hd : createDict M d o hint = .ok (dict, info)) (s : Sink) :
    (writeHeader M d o hint).exec s =
      if (headerText dict).length ≤ (usedProps (encodeUtf8 dict)).maxLen then
        (.ok (info, usedProps (encodeUtf8 dict)), s.put (headerBytes dict))
      else (.panic, s.put (magic ++ [(getMinimalVersion (requiredProps (encodeUtf8 dict))).1,
        (getMinimalVersion (requiredProps (encodeUtf8 dict))).2])) := by
  unfold writeHeader
  have e1 : assert (d.isArray = false) = .ok () := if_pos ha
  rw [e1, hd]
  rw [WProg.exec_bind_of_ok (WProg.exec_lift _ _), WProg.exec_bind_of_ok (WProg.exec_lift _ _), determineVersion_eq,
    WProg.exec_bind_of_ok (WProg.exec_lift _ _), WProg.exec_bind_of_ok (WProg.exec_put _ _),
    WProg.exec_bind_of_ok (WProg.exec_put _ _), WProg.exec_bind_of_ok (WProg.exec_put _ _)]
  simp only
  rw [show assert (((padHeader (encodeUtf8 dict) (usedProps (encodeUtf8 dict)).bytesBeforeText).length
      + (usedProps (encodeUtf8 dict)).bytesBeforeText) % 16 = 0) = .ok () from
    if_pos (by have := padHeader_mod (encodeUtf8 dict) (usedProps (encodeUtf8 dict)).bytesBeforeText; omega)]
  rw [WProg.exec_bind_of_ok (WProg.exec_lift _ _), WProg.exec_bind, exec_writeHeaderLen]
  have hm : [0x93] ++ encodeUtf8 (txt "NUMPY") = magic := by decide +kernel
  rw [Sink.put_put s [0x93] (encodeUtf8 (txt "NUMPY")), hm, Sink.put_put s magic [_, _]]
  by_cases h : (headerText dict).length ≤ (usedProps (encodeUtf8 dict)).maxLen
  · rw [if_pos h]
    unfold headerText at h
    rw [if_pos h]
    simp only [WProg.andThen]
    rw [WProg.exec_bind_of_ok (WProg.exec_put _ _), Sink.put_put, Sink.put_put, WProg.exec_pure]
    simp [headerBytes, emitHeader, headerText]
  · rw [if_neg h]
    unfold headerText at h
    rw [if_neg h]
    rfl

theorem usedProps_version (header : Bytes) : getVersionProps (getMinimalVersion (requiredProps header)).1
    (getMinimalVersion (requiredProps header)).2 = .ok (usedProps header) := getVersionProps_minimal header

theorem headerText_eq (dict : Text) : ∃ n, headerText dict = encodeUtf8 (dict ++ List.replicate n ' ') ++ [10] := by
  refine ⟨64 - 1 - ((encodeUtf8 dict).length + (usedProps (encodeUtf8 dict)).bytesBeforeText) % 64, ?_⟩
  rw [encodeUtf8_append, encodeUtf8_ascii (s := List.replicate _ ' ')]
  · simp [headerText, padHeader]
  · intro c hc
    rw [List.mem_replicate] at hc
    rw [hc.2]; decide

/-- Reading what `headerBytes` wrote. -/
theorem run_headerBytes {M : Machine} {py : PyParser} (hpy : py.ExtendsRef) {dict : Text} {v : PyVal} (hl : Lit dict v)
    (hlen : (headerText dict).length ≤ (usedProps (encodeUtf8 dict)).maxLen)
    (ha : (headerText dict).length ≤ M.isizeMax) (rest : Bytes) :
    (NpyHeader.fromReader M py).run (headerBytes dict ++ rest) = (interpretHeader M v, rest) := by
  have hfit : (headerText dict).length < 256 ^ (usedProps (encodeUtf8 dict)).width := by
    have : 0 < 256 ^ (usedProps (encodeUtf8 dict)).width := Nat.pow_pos (by omega)
    simp only [VersionProps.maxLen] at hlen
    omega
  unfold headerBytes emitHeader
  rw [fromReader_run (usedProps_version _) (leBytes_length _ _) (leNat_leBytes hfit) (if_pos ha)]
  obtain ⟨n, hn⟩ := headerText_eq dict
  rw [finishHeader, hn, parseHeaderText_append, hpy _ _ (parse_of_lit hl n)]
  rfl

end Npyz
