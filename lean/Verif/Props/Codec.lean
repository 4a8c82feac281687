import Verif.Proofs.CodecDefault
/-!
Properties C26-C38, C60: element types, their dtypes and their bytes.

`t.reader M d`, `t.writer M d` are `Deserialize::reader`, `Serialize::writer` for the Rust type `t` on
machine `M`.  `WritesItem`, `ReadsItem`, `RefusesItem`, `RejectsItem` (Spec/Codec.lean) describe one
`write_one`/`read_one`.  The hypothesis `n ≤ M.isizeMax` says that one item can be held in memory (std
panics on larger buffers).
-/
namespace Npyz.Props
open Spec

private theorem exact_of_numBytes {M : Machine} {d : DType} {n : Nat} (h : d.numBytes M = some n) : exactBytes d = some n :=
  ((numBytes_eq_some d M n).mp h).1

theorem fits {lim : Nat} {s : TypeStr} (h : s.size < lim) : SizesFit lim (.plain s) := h

/-- The two machines of the examples: 64-bit little-endian, 32-bit big-endian. -/
abbrev laptop : Machine := ⟨false, 64, true⟩
abbrev server : Machine := ⟨true, 32, true⟩

/-- For the examples: scalar types and a dtype they accept. -/
theorem has_reader {M : Machine} (hM : M.Wf) {t : Ty} {s : TypeStr} (h : scalarAccepts t s.typeChar s.size) (hs : s.size < M.usizeLim) :
    ∃ p, t.reader M (.plain s) = .ok p := (reader_ok_iff hM t (.plain s)).mpr ⟨h, fits hs⟩
theorem has_writer {M : Machine} (hM : M.Wf) {t : Ty} {s : TypeStr} (h : scalarAccepts t s.typeChar s.size) (hs : s.size < M.usizeLim) :
    ∃ w, t.writer M (.plain s) = .ok w := (writer_ok_iff hM t (.plain s)).mpr ⟨canWrite_of_canRead t (.plain s) h, fits hs⟩

/-! ### C26: sizes -/

/-- C26: a successful write emits exactly `num_bytes` bytes (the same for every stream). -/
theorem C26_write_size {M : Machine} {t : Ty} {d : DType} {n : Nat} {w : t.Val → WProg Unit}
    (hw : t.writer M d = .ok w) (hd : d.Wf) (hn : d.numBytes M = some n) (hm : n ≤ M.isizeMax)
    (v : t.Val) (s s' : Sink) (h : (w v).exec s = (.ok (), s')) :
    ∃ bs, bs.length = n ∧ s' = s.put bs ∧ WritesItem (w v) bs := by
  have hwr := writer_writes t hw hd (exact_of_numBytes hn) hm v
  cases he : encode t d v with
  | none =>
    rw [he] at hwr
    obtain ⟨bs, why, -, hx⟩ := hwr
    rw [hx.exec s] at h
    cases h
  | some bs =>
    rw [he] at hwr
    refine ⟨bs, hwr.1, ?_, hwr.item.2⟩
    rw [hwr.item.2 s] at h
    exact (Prod.mk.inj h).2.symm

/-- C26: a failed write emits at most `num_bytes` bytes and is an `InvalidData` error; there is no
panic. -/
theorem C26_write_total {M : Machine} {t : Ty} {d : DType} {n : Nat} {w : t.Val → WProg Unit}
    (hw : t.writer M d = .ok w) (hd : d.Wf) (hn : d.numBytes M = some n) (hm : n ≤ M.isizeMax) (v : t.Val) :
    (∃ bs, bs.length = n ∧ WritesItem (w v) bs) ∨
    (∃ bs why, bs.length ≤ n ∧ ∀ s, (w v).exec s = (.err (.invalidData why), s.put bs)) := by
  have hwr := writer_writes t hw hd (exact_of_numBytes hn) hm v
  cases he : encode t d v with
  | none =>
    rw [he] at hwr
    obtain ⟨bs, why, hl, hx⟩ := hwr
    exact .inr ⟨bs, why, hl, fun s => hx.exec s⟩
  | some bs =>
    rw [he] at hwr
    exact .inl ⟨bs, hwr.item⟩

/-- C26: a successful read consumes exactly `num_bytes` bytes, and the value depends on them only. -/
theorem C26_read_size {M : Machine} {t : Ty} {d : DType} {n : Nat} {p : RProg t.Val}
    (hp : t.reader M d = .ok p) (hd : d.Wf) (hn : d.numBytes M = some n) (hm : n ≤ M.isizeMax)
    (src rest : Bytes) (v : t.Val) (h : p.run src = (.ok v, rest)) :
    ∃ bs, bs.length = n ∧ src = bs ++ rest ∧ ReadsItem p bs v := by
  have hr := reader_reads t hp hd (exact_of_numBytes hn) hm
  by_cases hl : src.length < n
  · obtain ⟨e, r, he, -⟩ := hr.short src hl
    rw [he] at h; cases h
  · have hlen : (src.take n).length = n := by simp; omega
    have hsplit := (List.take_append_drop n src).symm
    cases hf : decode t d (src.take n) with
    | none =>
      obtain ⟨why, k, -, hb⟩ := hr.bad (src.take n) (src.drop n) hlen hf
      rw [← hsplit, h] at hb
      cases (Prod.mk.inj hb).1
    | some v' =>
      have hi := hr.item hlen hf
      have := hi (src.drop n)
      rw [← hsplit, h] at this
      obtain ⟨h1, rfl⟩ := Prod.mk.inj this
      cases h1
      exact ⟨_, hlen, hsplit, hi⟩

/-- C26: a failed read is an `InvalidData` error, or `UnexpectedEof` if fewer than `num_bytes` bytes
are left; there is no panic. -/
theorem C26_read_total {M : Machine} {t : Ty} {d : DType} {n : Nat} {p : RProg t.Val}
    (hp : t.reader M d = .ok p) (hd : d.Wf) (hn : d.numBytes M = some n) (hm : n ≤ M.isizeMax) (src : Bytes) :
    (∃ v, (p.run src).1 = .ok v) ∨ (∃ why, (p.run src).1 = .err (.invalidData why)) ∨
      (src.length < n ∧ (p.run src).1 = .err .unexpectedEof) := by
  have hr := reader_reads t hp hd (exact_of_numBytes hn) hm
  by_cases hl : src.length < n
  · obtain ⟨e, r, he, h | ⟨why, h⟩⟩ := hr.short src hl
    · subst h; exact .inr (.inr ⟨hl, by rw [he]⟩)
    · subst h; exact .inr (.inl ⟨why, by rw [he]⟩)
  · have hlen : (src.take n).length = n := by simp; omega
    have hsplit := (List.take_append_drop n src).symm
    cases hf : decode t d (src.take n) with
    | none =>
      obtain ⟨why, k, -, hb⟩ := hr.bad (src.take n) (src.drop n) hlen hf
      rw [← hsplit] at hb
      exact .inr (.inl ⟨why, by rw [hb]⟩)
    | some v' =>
      have := hr.item hlen hf (src.drop n)
      rw [← hsplit] at this
      exact .inl ⟨v', by rw [this]⟩

/-- A struct `{ a: [String; 2], b: Vec<u8> }` and its dtype. -/
def exampleTy : Ty := .record (.cons ['a'] (.array 2 .string) (.cons ['b'] .vecU8 .nil))
def exampleTyDType : DType := .record (.cons ['a'] (.array 2 (.plain ⟨.big, .unicodeStr, 5, none⟩))
  (.cons ['b'] (.plain ⟨.irrelevant, .byteStr, 7, none⟩) .nil))

theorem exampleTyDType_wf : exampleTyDType.Wf := by
  refine ⟨⟨by decide, ⟨⟨trivial, by simp, by simp⟩, by decide, by simp⟩⟩, ⟨⟨trivial, by simp [OrderMatters], by simp⟩, by decide, by simp⟩, trivial⟩

example : ∃ w p, exampleTy.writer ⟨false, 64, true⟩ exampleTyDType = .ok w ∧ exampleTy.reader ⟨true, 32, true⟩ exampleTyDType = .ok p ∧
    exampleTyDType.Wf ∧ exampleTyDType.numBytes ⟨false, 64, true⟩ = some 47 ∧ 47 ≤ (⟨true, 32, true⟩ : Machine).isizeMax := by
  have hc : CanRead exampleTy exampleTyDType :=
    ⟨_, rfl, _, _, rfl, ⟨_, rfl, Or.inr rfl⟩, _, _, rfl, Or.inr rfl, rfl⟩
  obtain ⟨w, hw⟩ := (writer_ok_iff (M := ⟨false, 64, true⟩) (Or.inr rfl) exampleTy exampleTyDType).mpr
    ⟨canWrite_of_canRead _ _ hc, fits (by decide), fits (by decide), trivial⟩
  obtain ⟨p, hp⟩ := (reader_ok_iff (M := ⟨true, 32, true⟩) (Or.inl rfl) exampleTy exampleTyDType).mpr
    ⟨hc, fits (by decide), fits (by decide), trivial⟩
  exact ⟨w, p, hw, hp, exampleTyDType_wf, by decide, by decide⟩

/-! ### Round trips (C27-C36) -/

/-- What a successful write says about the bytes. -/
private theorem encode_of_writes {M : Machine} {t : Ty} {d : DType} {n : Nat} {w : t.Val → WProg Unit}
    (hw : t.writer M d = .ok w) (hd : d.Wf) (hn : exactBytes d = some n) (hm : n ≤ M.isizeMax) {v : t.Val} {bs : Bytes}
    (h : WritesItem (w v) bs) : ∃ b, encode t d v = some b ∧ b = bs := by
  have hwr := writer_writes t hw hd hn hm v
  cases he : encode t d v with
  | none =>
    rw [he] at hwr
    obtain ⟨b, why, -, hx⟩ := hwr
    have := (h ⟨[], 0, true⟩).symm.trans (hx.exec _)
    cases (Prod.mk.inj this).1
  | some b =>
    rw [he] at hwr
    have := (h ⟨[], 0, true⟩).symm.trans (hwr.item.2 _)
    have := (Prod.mk.inj this).2
    refine ⟨b, rfl, ?_⟩
    have key : ∀ x : Bytes, (Sink.put ⟨[], 0, true⟩ x).data = x := by
      intro x
      unfold Sink.put
      split
      · simp_all
      · simp [overwrite]
    rw [← key b, ← key bs, this]

/-- C27-C36, all types at once: what was written on one machine is read back on any other, up to
trailing NULs of strings (`readBack`). -/
theorem C27_roundtrip_all {M M' : Machine} (hM' : M'.Wf) {t : Ty} {d : DType} {n : Nat} {w : t.Val → WProg Unit} {p : RProg t.Val}
    (hw : t.writer M d = .ok w) (hp : t.reader M' d = .ok p) (hd : d.Wf) (hn : exactBytes d = some n)
    (h1 : n ≤ M.isizeMax) (h2 : n ≤ M'.isizeMax) (v : t.Val) (bs : Bytes) (h : WritesItem (w v) bs) :
    bs.length = n ∧ ReadsItem p bs (readBack t d v) := by
  obtain ⟨b, he, rfl⟩ := encode_of_writes hw hd hn h1 h
  obtain ⟨hl, -, hr⟩ := round_trip hM' hw hp hd hn h1 h2 v he
  exact ⟨hl, hr⟩

/-- The string-free types never lose anything. -/
theorem C27_exact_roundtrip {M M' : Machine} (hM' : M'.Wf) {t : Ty} {d : DType} {n : Nat} {w : t.Val → WProg Unit} {p : RProg t.Val}
    (hx : Exact t) (hw : t.writer M d = .ok w) (hp : t.reader M' d = .ok p) (hd : d.Wf) (hn : exactBytes d = some n)
    (h1 : n ≤ M.isizeMax) (h2 : n ≤ M'.isizeMax) (v : t.Val) (bs : Bytes) (h : WritesItem (w v) bs) :
    ReadsItem p bs v := by
  have := (C27_roundtrip_all hM' hw hp hd hn h1 h2 v bs h).2
  rwa [readBack_exact t d v hx] at this

theorem small_isize {M : Machine} (hM : M.Wf) {n : Nat} (h : n ≤ 16) : n ≤ M.isizeMax := by
  unfold Machine.isizeMax
  rcases hM with h' | h' <;> rw [h'] <;> omega

/-- C27: integers and floats: every value is written, and read back with identical bits, whatever the
byte order of the dtype and of the two machines. -/
theorem C27_number {M M' : Machine} (hM : M.Wf) (hM' : M'.Wf) (q : Prim) {d : DType} {w p}
    (hw : (Ty.num q).writer M d = .ok w) (hp : (Ty.num q).reader M' d = .ok p) (hd : d.Wf) (v : Word q.size) :
    ∃ bs, bs.length = q.size ∧ WritesItem (w v) bs ∧ ReadsItem p bs v := by
  have hc := ((reader_ok_iff hM' _ _).mp ⟨p, hp⟩).1
  cases d with
  | plain s =>
    have hs := numSize (p := q) hc
    have hn : exactBytes (.plain s) = some q.size := by
      have := scalar_not_object (t := .num q) (Or.inl hc)
      simp [exactBytes, itemBytes, this, hs]
    have hsz : q.size ≤ 16 := by cases q <;> decide
    obtain ⟨h1, h2, h3⟩ := round_trip hM' hw hp hd hn (small_isize hM hsz) (small_isize hM' hsz) v
      (bs := wordBytes s.endianness q.size v.toNat) rfl
    exact ⟨_, h1, h2, h3⟩
  | array => obtain ⟨_, h, _⟩ := hc; cases h
  | record => obtain ⟨_, h, _⟩ := hc; cases h

/-- C27: booleans. -/
theorem C27_bool {M M' : Machine} (hM : M.Wf) (hM' : M'.Wf) {d : DType} {w p}
    (hw : Ty.bool.writer M d = .ok w) (hp : Ty.bool.reader M' d = .ok p) (hd : d.Wf) (v : Bool) :
    WritesItem (w v) [if v then 1 else 0] ∧ ReadsItem p [if v then 1 else 0] v := by
  have hc := ((reader_ok_iff hM' _ _).mp ⟨p, hp⟩).1
  cases d with
  | plain s =>
    have hs : s.typeChar = .bool ∧ s.size = 1 := hc
    have hn : exactBytes (.plain s) = some 1 := by simp [exactBytes, itemBytes, hs]
    obtain ⟨-, h2, h3⟩ := round_trip hM' hw hp hd hn (small_isize hM (by omega)) (small_isize hM' (by omega)) v
      (bs := [boolByte v]) rfl
    exact ⟨h2, h3⟩
  | array => obtain ⟨_, h, _⟩ := hc; cases h
  | record => obtain ⟨_, h, _⟩ := hc; cases h

/-- C27: complex numbers. -/
theorem C27_complex {M M' : Machine} (hM : M.Wf) (hM' : M'.Wf) (f : FloatTy) {d : DType} {w p}
    (hw : (Ty.complex f).writer M d = .ok w) (hp : (Ty.complex f).reader M' d = .ok p) (hd : d.Wf) (v : Word f.size × Word f.size) :
    ∃ bs, bs.length = 2 * f.size ∧ WritesItem (w v) bs ∧ ReadsItem p bs v := by
  have hc := ((reader_ok_iff hM' _ _).mp ⟨p, hp⟩).1
  cases d with
  | plain s =>
    have hs := (complexAccepts_iff f _ _).mp hc
    have hn : exactBytes (.plain s) = some (2 * f.size) := by simp [exactBytes, itemBytes, hs]
    have hsz : 2 * f.size ≤ 16 := by cases f <;> decide
    obtain ⟨h1, h2, h3⟩ := round_trip hM' hw hp hd hn (small_isize hM hsz) (small_isize hM' hsz) v
      (bs := wordBytes s.endianness f.size v.1.toNat ++ wordBytes s.endianness f.size v.2.toNat) rfl
    exact ⟨_, h1, h2, h3⟩
  | array => obtain ⟨_, h, _⟩ := hc; cases h
  | record => obtain ⟨_, h, _⟩ := hc; cases h

/-- Both byte orders are accepted, for every number type (so the theorems above are not vacuous). -/
theorem C27_both_orders {M : Machine} (hM : M.Wf) (q : Prim) (e : Endianness) :
    (∃ p, (Ty.num q).reader M (.plain ⟨e, q.mainTy, q.size, none⟩) = .ok p) ∧
    (∃ w, (Ty.num q).writer M (.plain ⟨e, q.mainTy, q.size, none⟩) = .ok w) := by
  have hc : scalarAccepts (.num q) q.mainTy q.size := by cases q <;> simp [scalarAccepts, numAccepts, Prim.mainTy, Prim.size]
  exact ⟨(reader_ok_iff hM _ _).mpr ⟨hc, prim_size_lt hM q⟩, (writer_ok_iff hM _ _).mpr ⟨Or.inl hc, prim_size_lt hM q⟩⟩

example : (DType.plain ⟨.big, Prim.f64.mainTy, Prim.f64.size, none⟩).Wf ∧
    (DType.plain ⟨.little, Prim.f64.mainTy, Prim.f64.size, none⟩).Wf :=
  ⟨⟨⟨by simp [SizeAllowed, Prim.mainTy, Prim.size], by simp, by simp [Prim.mainTy]⟩, by decide, by decide⟩,
   ⟨⟨by simp [SizeAllowed, Prim.mainTy, Prim.size], by simp, by simp [Prim.mainTy]⟩, by decide, by decide⟩⟩

/-! ### C28: bytes on disk -/

/-- C28: the bytes of a number are its big-endian digits (base 256) under a `>` dtype and its
little-endian digits otherwise (`wordBytes`), on every machine. -/
theorem C28_number_bytes {M : Machine} (hM : M.Wf) (q : Prim) {s : TypeStr} {w}
    (hw : (Ty.num q).writer M (.plain s) = .ok w) (hd : s.Wf) (v : Word q.size) :
    WritesItem (w v) (wordBytes s.endianness q.size v.toNat) := by
  have hc := ((writer_ok_iff hM _ _).mp ⟨w, hw⟩).1
  have hc : numAccepts q s.typeChar s.size := by
    rcases hc with h | h
    · exact h
    · exact h.elim
  have hs := numSize hc
  have hn : exactBytes (.plain s) = some q.size := by
    have := scalar_not_object (t := .num q) (Or.inl hc)
    simp [exactBytes, itemBytes, this, hs]
  have hsz : q.size ≤ 16 := by cases q <;> decide
  exact (writer_writes _ hw hd hn (small_isize hM hsz) v).item.2

/-- C28: and every sequence of that many bytes is read as the number with these digits. -/
theorem C28_number_value {M : Machine} (hM : M.Wf) (q : Prim) {s : TypeStr} {p}
    (hp : (Ty.num q).reader M (.plain s) = .ok p) (hd : s.Wf) (bs : Bytes) (hl : bs.length = q.size) :
    ∃ v : Word q.size, v.toNat = wordValue s.endianness bs ∧ ReadsItem p bs v := by
  have hc : numAccepts q s.typeChar s.size := ((reader_ok_iff hM _ _).mp ⟨p, hp⟩).1
  have hs := numSize hc
  have hn : exactBytes (.plain s) = some q.size := by
    have := scalar_not_object (t := .num q) (Or.inl hc)
    simp [exactBytes, itemBytes, this, hs]
  have hsz : q.size ≤ 16 := by cases q <;> decide
  refine ⟨BitVec.ofNat _ (wordValue s.endianness bs), ofNat_word ?_, (reader_reads _ hp hd hn (small_isize hM hsz)).item hl rfl⟩
  rw [← hl]; exact wordValue_lt _ _

/-- C28: complex numbers store the real part first. -/
theorem C28_complex_bytes {M : Machine} (hM : M.Wf) (f : FloatTy) {s : TypeStr} {w}
    (hw : (Ty.complex f).writer M (.plain s) = .ok w) (hd : s.Wf) (re im : Word f.size) :
    WritesItem (w (re, im)) (wordBytes s.endianness f.size re.toNat ++ wordBytes s.endianness f.size im.toNat) := by
  have hc := ((writer_ok_iff hM _ _).mp ⟨w, hw⟩).1
  have hs : s.typeChar = .complex ∧ s.size = 2 * f.size := by
    rcases hc with h | h
    · exact (complexAccepts_iff f _ _).mp h
    · exact h.elim
  have hn : exactBytes (.plain s) = some (2 * f.size) := by simp [exactBytes, itemBytes, hs]
  have hsz : 2 * f.size ≤ 16 := by cases f <;> decide
  exact (writer_writes _ hw hd hn (small_isize hM hsz) (re, im)).item.2

/-- C28: more generally, no type's bytes depend on the machine. -/
theorem C28_machine_independent {M M' : Machine} {t : Ty} {d : DType} {n : Nat} {w w' : t.Val → WProg Unit}
    (hw : t.writer M d = .ok w) (hw' : t.writer M' d = .ok w') (hd : d.Wf) (hn : exactBytes d = some n)
    (h1 : n ≤ M.isizeMax) (h2 : n ≤ M'.isizeMax) (v : t.Val) (bs : Bytes) : WritesItem (w v) bs ↔ WritesItem (w' v) bs := by
  constructor
  · intro h
    obtain ⟨b, he, rfl⟩ := encode_of_writes hw hd hn h1 h
    have := writer_writes t hw' hd hn h2 v
    rw [he] at this
    exact this.item.2
  · intro h
    obtain ⟨b, he, rfl⟩ := encode_of_writes hw' hd hn h2 h
    have := writer_writes t hw hd hn h1 v
    rw [he] at this
    exact this.item.2

/-- C28: nor does the value read from given bytes. -/
theorem C28_machine_independent_read {M M' : Machine} {t : Ty} {d : DType} {n : Nat} {p p' : RProg t.Val}
    (hp : t.reader M d = .ok p) (hp' : t.reader M' d = .ok p') (hd : d.Wf) (hn : exactBytes d = some n)
    (h1 : n ≤ M.isizeMax) (h2 : n ≤ M'.isizeMax) (bs : Bytes) (hl : bs.length = n) (v : t.Val) :
    ReadsItem p bs v ↔ ReadsItem p' bs v := by
  have r := reader_reads t hp hd hn h1
  have r' := reader_reads t hp' hd hn h2
  have key : ∀ {q : RProg t.Val}, Reads q n (decode t d) → (ReadsItem q bs v ↔ decode t d bs = some v) := by
    intro q hq
    constructor
    · intro h
      cases hf : decode t d bs with
      | none =>
        obtain ⟨why, k, -, hb⟩ := hq.bad bs [] hl hf
        rw [h []] at hb
        cases (Prod.mk.inj hb).1
      | some v' =>
        have := (h []).symm.trans (hq.ok bs [] v' hl hf)
        have := (Prod.mk.inj this).1
        injection this with this
        rw [this]
    · exact hq.item hl
  rw [key r, key r']

/-- C26_write_size, C26_write_total, C26_read_size, C27_roundtrip_all, C27_exact_roundtrip, C27_number,
C28_number_bytes, C28_number_value: 0x0102 as `>u2`, written on one machine and read on the other. -/
example : ∃ w p, (Ty.num .u16).writer laptop (.plain ⟨.big, .uint, 2, none⟩) = .ok w ∧
    (Ty.num .u16).reader server (.plain ⟨.big, .uint, 2, none⟩) = .ok p ∧
    WritesItem (w (0x0102#16 : Word 2)) [1, 2] ∧ ReadsItem p [1, 2] (0x0102#16 : Word 2) ∧
    (∃ v : Word 2, v.toNat = 0x0304 ∧ ReadsItem p [3, 4] v) ∧
    (∀ s, ∃ bs, bs.length = 2 ∧ s.put [1, 2] = Sink.put s bs) ∧
    ∃ bs : Bytes, bs.length = 2 ∧ [1, 2, 9] = bs ++ [9] := by
  have hd : TypeStr.Wf ⟨.big, .uint, 2, none⟩ := wf_of_parse (s := ">u2".toList) (by decide)
  obtain ⟨w, hw⟩ := has_writer (M := laptop) (t := .num .u16) (s := ⟨.big, .uint, 2, none⟩) (.inr rfl) ⟨rfl, rfl⟩ (by decide)
  obtain ⟨p, hp⟩ := has_reader (M := server) (t := .num .u16) (s := ⟨.big, .uint, 2, none⟩) (.inl rfl) ⟨rfl, rfl⟩ (by decide)
  have h := C28_number_bytes (.inr rfl) .u16 hw hd (0x0102#16 : Word 2)
  have hr := C27_exact_roundtrip (t := .num .u16) (.inl rfl) trivial hw hp hd (n := 2) rfl (by decide) (by decide) _ _ h
  refine ⟨w, p, hw, hp, h, hr, ?_, fun s => ?_, ?_⟩
  · exact C28_number_value (.inl rfl) .u16 hp hd [3, 4] rfl
  · obtain ⟨bs, hl, hb, -⟩ := C26_write_size (t := .num .u16) hw hd (n := 2) (by decide) (by decide) _ s _ (h s)
    exact ⟨bs, hl, hb⟩
  · obtain ⟨bs, hl, hb, -⟩ := C26_read_size (t := .num .u16) hp hd (n := 2) (by decide) (by decide) _ [9] _ (hr [9])
    exact ⟨bs, hl, hb⟩

/-- C27_bool. -/
example : ∃ w p, Ty.bool.writer laptop (.plain ⟨.irrelevant, .bool, 1, none⟩) = .ok w ∧
    Ty.bool.reader server (.plain ⟨.irrelevant, .bool, 1, none⟩) = .ok p ∧ WritesItem (w true) [1] ∧ ReadsItem p [1] true := by
  obtain ⟨w, hw⟩ := has_writer (M := laptop) (t := .bool) (s := ⟨.irrelevant, .bool, 1, none⟩) (.inr rfl) ⟨rfl, rfl⟩ (by decide)
  obtain ⟨p, hp⟩ := has_reader (M := server) (t := .bool) (s := ⟨.irrelevant, .bool, 1, none⟩) (.inl rfl) ⟨rfl, rfl⟩ (by decide)
  exact ⟨w, p, hw, hp, C27_bool (.inr rfl) (.inl rfl) hw hp (wf_of_parse (s := "|b1".toList) (by decide)) true⟩

/-- C27_complex, C28_complex_bytes, C28_machine_independent, C28_machine_independent_read: `1 - 2i` as `<c8`. -/
example : ∃ w w' p p', (Ty.complex .f32).writer laptop (.plain ⟨.little, .complex, 8, none⟩) = .ok w ∧
    (Ty.complex .f32).writer server (.plain ⟨.little, .complex, 8, none⟩) = .ok w' ∧
    (Ty.complex .f32).reader laptop (.plain ⟨.little, .complex, 8, none⟩) = .ok p ∧
    (Ty.complex .f32).reader server (.plain ⟨.little, .complex, 8, none⟩) = .ok p' ∧
    WritesItem (w ((0x3f800000#32 : Word 4), (0xc0000000#32 : Word 4))) [0, 0, 0x80, 0x3f, 0, 0, 0, 0xc0] ∧
    WritesItem (w' ((0x3f800000#32 : Word 4), (0xc0000000#32 : Word 4))) [0, 0, 0x80, 0x3f, 0, 0, 0, 0xc0] ∧
    (∃ bs, bs.length = 8 ∧ ReadsItem p' bs ((0x3f800000#32 : Word 4), (0xc0000000#32 : Word 4)) ∧
      ReadsItem p bs ((0x3f800000#32 : Word 4), (0xc0000000#32 : Word 4))) := by
  have hd : TypeStr.Wf ⟨.little, .complex, 8, none⟩ := wf_of_parse (s := "<c8".toList) (by decide)
  have ha : scalarAccepts (.complex .f32) .complex 8 := ⟨rfl, rfl⟩
  obtain ⟨w, hw⟩ := has_writer (M := laptop) (s := ⟨.little, .complex, 8, none⟩) (.inr rfl) ha (by decide)
  obtain ⟨w', hw'⟩ := has_writer (M := server) (s := ⟨.little, .complex, 8, none⟩) (.inl rfl) ha (by decide)
  obtain ⟨p, hp⟩ := has_reader (M := laptop) (s := ⟨.little, .complex, 8, none⟩) (.inr rfl) ha (by decide)
  obtain ⟨p', hp'⟩ := has_reader (M := server) (s := ⟨.little, .complex, 8, none⟩) (.inl rfl) ha (by decide)
  have h := C28_complex_bytes (.inr rfl) .f32 hw hd (0x3f800000#32 : Word 4) (0xc0000000#32 : Word 4)
  refine ⟨w, w', p, p', hw, hw', hp, hp', h, ?_, ?_⟩
  · exact (C28_machine_independent (t := .complex .f32) hw hw' hd (n := 8) rfl (by decide) (by decide) _ _).mp h
  · obtain ⟨bs, hl, -, hr⟩ := C27_complex (.inr rfl) (.inl rfl) .f32 hw hp' hd ((0x3f800000#32 : Word 4), (0xc0000000#32 : Word 4))
    exact ⟨bs, hl, hr, (C28_machine_independent_read (t := .complex .f32) hp hp' hd (n := 8) rfl (by decide) (by decide) bs hl _).mpr hr⟩

example : wordBytes .little 4 0x01020304 = [4, 3, 2, 1] ∧ wordBytes .big 4 0x01020304 = [1, 2, 3, 4] ∧
    wordValue .little [4, 3, 2, 1] = 0x01020304 ∧ wordValue .big [1, 2, 3, 4] = 0x01020304 := by decide

/-! ### C29: booleans -/

/-- C29: 0 is false, 1 is true, every other byte is an `InvalidData` error. -/
theorem C29_bool_strict {M : Machine} (hM : M.Wf) {s : TypeStr} {p} (hp : Ty.bool.reader M (.plain s) = .ok p) (hd : s.Wf) :
    ReadsItem p [0] false ∧ ReadsItem p [1] true ∧ ∀ b : UInt8, b ≠ 0 → b ≠ 1 → RejectsItem p [b] := by
  have hs : s.typeChar = .bool ∧ s.size = 1 := ((reader_ok_iff hM _ _).mp ⟨p, hp⟩).1
  have hn : exactBytes (.plain s) = some 1 := by simp [exactBytes, itemBytes, hs]
  have hr := reader_reads _ hp hd hn (small_isize hM (by omega))
  refine ⟨hr.item rfl rfl, hr.item rfl rfl, fun b h0 h1 => hr.rejects rfl ?_⟩
  show (if [b] = [0] then some false else if [b] = [1] then some true else none) = none
  rw [if_neg (by simpa using h0), if_neg (by simpa using h1)]

example : ∃ p, Ty.bool.reader ⟨false, 64, true⟩ (.plain ⟨.irrelevant, .bool, 1, none⟩) = .ok p :=
  (reader_ok_iff (Or.inr rfl) _ _).mpr ⟨⟨rfl, rfl⟩, fits (by decide)⟩

/-! ### C30: byte strings -/

/-- C30: `|Sn`: at most `n` bytes fit; they are padded with NULs and come back without trailing NULs;
any stored item is read as its bytes without trailing NULs. -/
theorem C30_byte_str {M : Machine} {s : TypeStr} {w p} (hw : Ty.vecU8.writer M (.plain s) = .ok w)
    (hp : Ty.vecU8.reader M (.plain s) = .ok p) (hd : s.Wf) (hc : s.typeChar = .byteStr) (hm : s.size ≤ M.isizeMax) :
    (∀ v : Bytes, v.length ≤ s.size → WritesItem (w v) (v ++ List.replicate (s.size - v.length) 0) ∧
      ReadsItem p (v ++ List.replicate (s.size - v.length) 0) (trimEnd (· == 0) v)) ∧
    (∀ v : Bytes, s.size < v.length → RefusesItem (w v)) ∧
    (∀ bs : Bytes, bs.length = s.size → ReadsItem p bs (trimEnd (· == 0) bs)) := by
  have hn : exactBytes (.plain s) = some s.size := by simp [exactBytes, itemBytes, hc]
  have hr := reader_reads _ hp hd hn hm
  have hw' := writer_writes _ hw hd hn hm
  have h3 : ∀ bs : Bytes, bs.length = s.size → ReadsItem p bs (trimEnd (· == 0) bs) := fun bs hl =>
    hr.item hl (congrArg some (if_pos hc))
  refine ⟨fun v hv => ?_, fun v hv => ?_, h3⟩
  · constructor
    · have := hw' v
      rw [show encode .vecU8 (.plain s) v = encodeBytes s v from rfl, encodeBytes, if_pos hc, padBytes, if_pos hv] at this
      exact this.item.2
    · have := h3 (v ++ List.replicate (s.size - v.length) 0) (by simp; omega)
      rwa [trimEnd_replicate (by rfl)] at this
  · have := hw' v
    rw [show encode .vecU8 (.plain s) v = encodeBytes s v from rfl, encodeBytes, if_pos hc, padBytes, if_neg (by omega)] at this
    exact this.refuses

/-- C30: `|Vn`: exactly `n` bytes, unchanged. -/
theorem C30_raw {M : Machine} {s : TypeStr} {w p} (hw : Ty.vecU8.writer M (.plain s) = .ok w)
    (hp : Ty.vecU8.reader M (.plain s) = .ok p) (hd : s.Wf) (hc : s.typeChar = .rawData) (hm : s.size ≤ M.isizeMax) :
    (∀ v : Bytes, v.length = s.size → WritesItem (w v) v ∧ ReadsItem p v v) ∧
    (∀ v : Bytes, v.length ≠ s.size → RefusesItem (w v)) := by
  have hn : exactBytes (.plain s) = some s.size := by simp [exactBytes, itemBytes, hc]
  have hr := reader_reads _ hp hd hn hm
  have hw' := writer_writes _ hw hd hn hm
  have hb : s.typeChar ≠ .byteStr := by simp [hc]
  refine ⟨fun v hv => ?_, fun v hv => ?_⟩
  · constructor
    · have := hw' v
      rw [show encode .vecU8 (.plain s) v = encodeBytes s v from rfl, encodeBytes, if_neg hb, if_pos hv] at this
      exact this.item.2
    · exact hr.item hv (congrArg some (if_neg hb))
  · have := hw' v
    rw [show encode .vecU8 (.plain s) v = encodeBytes s v from rfl, encodeBytes, if_neg hb, if_neg hv] at this
    exact this.refuses

/-- C30_byte_str, C30_raw: `[1, 0, 2]` as `|S5` and as `|V3`. -/
example : ∃ w p w' p', Ty.vecU8.writer laptop (.plain ⟨.irrelevant, .byteStr, 5, none⟩) = .ok w ∧
    Ty.vecU8.reader laptop (.plain ⟨.irrelevant, .byteStr, 5, none⟩) = .ok p ∧
    Ty.vecU8.writer laptop (.plain ⟨.irrelevant, .rawData, 3, none⟩) = .ok w' ∧
    Ty.vecU8.reader laptop (.plain ⟨.irrelevant, .rawData, 3, none⟩) = .ok p' ∧
    WritesItem (w ([1, 0, 2] : Bytes)) [1, 0, 2, 0, 0] ∧ ReadsItem p [1, 0, 2, 0, 0] ([1, 0, 2] : Bytes) ∧
    RefusesItem (w ([1, 2, 3, 4, 5, 6] : Bytes)) ∧
    WritesItem (w' ([1, 0, 0] : Bytes)) [1, 0, 0] ∧ ReadsItem p' [1, 0, 0] ([1, 0, 0] : Bytes) ∧ RefusesItem (w' ([1] : Bytes)) := by
  have hd : TypeStr.Wf ⟨.irrelevant, .byteStr, 5, none⟩ := wf_of_parse (s := "|S5".toList) (by decide)
  have hd' : TypeStr.Wf ⟨.irrelevant, .rawData, 3, none⟩ := wf_of_parse (s := "|V3".toList) (by decide)
  obtain ⟨w, hw⟩ := has_writer (M := laptop) (t := .vecU8) (s := ⟨.irrelevant, .byteStr, 5, none⟩) (.inr rfl) (.inr rfl) (by decide)
  obtain ⟨p, hp⟩ := has_reader (M := laptop) (t := .vecU8) (s := ⟨.irrelevant, .byteStr, 5, none⟩) (.inr rfl) (.inr rfl) (by decide)
  obtain ⟨w', hw'⟩ := has_writer (M := laptop) (t := .vecU8) (s := ⟨.irrelevant, .rawData, 3, none⟩) (.inr rfl) (.inl rfl) (by decide)
  obtain ⟨p', hp'⟩ := has_reader (M := laptop) (t := .vecU8) (s := ⟨.irrelevant, .rawData, 3, none⟩) (.inr rfl) (.inl rfl) (by decide)
  have h := C30_byte_str hw hp hd rfl (by decide)
  have h' := C30_raw hw' hp' hd' rfl (by decide)
  exact ⟨w, p, w', p', hw, hp, hw', hp', (h.1 [1, 0, 2] (by decide)).1, (h.1 [1, 0, 2] (by decide)).2, h.2.1 _ (by decide),
    (h'.1 [1, 0, 0] rfl).1, (h'.1 [1, 0, 0] rfl).2, h'.2 _ (by decide)⟩

example : (∃ w, Ty.vecU8.writer ⟨false, 64, true⟩ (.plain ⟨.irrelevant, .byteStr, 5, none⟩) = .ok w) ∧
    (∃ w, Ty.vecU8.reader ⟨false, 64, true⟩ (.plain ⟨.irrelevant, .rawData, 5, none⟩) = .ok w) ∧
    trimEnd (· == (0 : UInt8)) [1, 0, 2, 0, 0] = [1, 0, 2] :=
  ⟨(writer_ok_iff (Or.inr rfl) _ _).mpr ⟨Or.inl (Or.inr rfl), fits (by decide)⟩,
   (reader_ok_iff (Or.inr rfl) _ _).mpr ⟨Or.inl rfl, fits (by decide)⟩, by decide⟩

/-! ### C31: Unicode strings -/

/-- The bytes of `n` code points of four bytes each. -/
def unitsBytes (e : Endianness) (units : List Nat) : Bytes := units.flatMap (wordBytes e 4)

private theorem exact_u {s : TypeStr} (hc : s.typeChar = .unicodeStr) : exactBytes (.plain s) = some (4 * s.size) := by
  simp [exactBytes, itemBytes, hc]

/-- C31: `String` in `Un`: at most `n` code points fit; they are padded with NULs and come back
without trailing NULs. -/
theorem C31_string {M : Machine} {s : TypeStr} {w p} (hw : Ty.string.writer M (.plain s) = .ok w)
    (hp : Ty.string.reader M (.plain s) = .ok p) (hd : s.Wf) (hc : s.typeChar = .unicodeStr) (hm : 4 * s.size ≤ M.isizeMax) :
    (∀ v : Text, v.length ≤ s.size →
      WritesItem (w v) (unitsBytes s.endianness (v.map Char.toNat ++ List.replicate (s.size - v.length) 0)) ∧
      ReadsItem p (unitsBytes s.endianness (v.map Char.toNat ++ List.replicate (s.size - v.length) 0)) (trimEnd (· == '\x00') v)) ∧
    (∀ v : Text, s.size < v.length → RefusesItem (w v)) := by
  have hr := reader_reads _ hp hd (exact_u hc) hm
  have hw' := writer_writes _ hw hd (exact_u hc) hm
  have he : ∀ v : Text, encode .string (.plain s) v = encodeChars s v := fun v => by
    show encodeText s v = _
    rw [encodeText, if_pos hc]
  refine ⟨fun v hv => ?_, fun v hv => ?_⟩
  · have hev : encode .string (.plain s) v =
        some (unitsBytes s.endianness (v.map Char.toNat ++ List.replicate (s.size - v.length) 0)) := by
      rw [he, encodeChars, padUnits, List.length_map, if_pos hv]
      rfl
    have h := hw' v
    rw [hev] at h
    obtain ⟨hl, hdc⟩ := encode_decode .string (.plain s) _ v _ (Or.inr hc) (exact_u hc) hev
    exact ⟨h.item.2, hr.item hl hdc⟩
  · have h := hw' v
    rw [he, encodeChars, padUnits, List.length_map, if_neg (by omega)] at h
    exact h.refuses

/-- The code points of an item. -/
def itemUnits (e : Endianness) (n : Nat) (bs : Bytes) : List Nat := (List.range n).map fun i => wordValue e ((bs.drop (4 * i)).take 4)

theorem decodeMany_iff {α : Type} {f : Bytes → Option α} {g : Bytes → Nat} {ok : Nat → Prop} {val : Nat → α}
    (h1 : ∀ b, ok (g b) → f b = some (val (g b))) (h2 : ∀ b, ¬ ok (g b) → f b = none) (n : Nat) (bs : Bytes) :
    ((∀ u ∈ (List.range n).map fun i => g ((bs.drop (4 * i)).take 4), ok u) →
      (decodeMany f 4 n bs).map (·.1) = some (((List.range n).map fun i => g ((bs.drop (4 * i)).take 4)).map val)) ∧
    ((∃ u ∈ (List.range n).map fun i => g ((bs.drop (4 * i)).take 4), ¬ ok u) → decodeMany f 4 n bs = none) := by
  induction n generalizing bs with
  | zero => simp [decodeMany]
  | succ n ih =>
    have hd : ∀ i, ((bs.drop 4).drop (4 * i)).take 4 = (bs.drop (4 * (i + 1))).take 4 := by
      intro i; rw [List.drop_drop]; congr 2; omega
    have hr : (List.range (n + 1)).map (fun i => g ((bs.drop (4 * i)).take 4)) =
        g (bs.take 4) :: (List.range n).map (fun i => g (((bs.drop 4).drop (4 * i)).take 4)) := by
      rw [List.range_succ_eq_map]
      simp only [List.map_cons, List.map_map, Nat.mul_zero, List.drop_zero]
      congr 1
      apply List.map_congr_left
      intro i _
      simp only [Function.comp, hd]
    rw [hr]
    obtain ⟨ih1, ih2⟩ := ih (bs.drop 4)
    constructor
    · intro h
      have ha := h1 _ (h _ List.mem_cons_self)
      have hb := ih1 fun u hu => h u (List.mem_cons_of_mem _ hu)
      simp only [decodeMany, ha]
      obtain ⟨xs, hxs, hx⟩ := Option.map_eq_some_iff.mp hb
      rw [hxs]
      simp [hx]
    · rintro ⟨u, hu, hn⟩
      rcases List.mem_cons.mp hu with rfl | hu
      · simp [decodeMany, h2 _ hn]
      · have := ih2 ⟨u, hu, hn⟩
        simp only [decodeMany, this]
        split <;> simp_all

/-- C31: decoding to `String` accepts exactly the items all of whose code points are Unicode scalar
values (below 0x110000 and no surrogates). -/
theorem C31_string_decode {M : Machine} {s : TypeStr} {p}
    (hp : Ty.string.reader M (.plain s) = .ok p) (hd : s.Wf) (hc : s.typeChar = .unicodeStr) (hm : 4 * s.size ≤ M.isizeMax)
    (bs : Bytes) (hl : bs.length = 4 * s.size) :
    ((∀ u ∈ itemUnits s.endianness s.size bs, u.isValidChar) →
      ReadsItem p bs (trimEnd (· == '\x00') ((itemUnits s.endianness s.size bs).map Char.ofNat))) ∧
    ((∃ u ∈ itemUnits s.endianness s.size bs, ¬ u.isValidChar) → RejectsItem p bs) := by
  have hr := reader_reads _ hp hd (exact_u hc) hm
  have he : decode .string (.plain s) bs =
      (decodeMany (Spec.decodeChar s.endianness) 4 s.size bs).map (fun l => trimEnd (· == '\x00') l.1) := if_pos hc
  obtain ⟨k1, k2⟩ := decodeMany_iff (f := Spec.decodeChar s.endianness) (g := wordValue s.endianness) (ok := Nat.isValidChar)
    (val := Char.ofNat) (fun b h => by
      rw [Spec.decodeChar, charOfNat?_eq_some]
      simp [Char.ofNat, h, Char.ofNatAux, Char.toNat]) (fun b h => by
      rw [Spec.decodeChar]
      cases hx : charOfNat? (wordValue s.endianness b) with
      | none => rfl
      | some c =>
        exfalso; apply h
        rw [charOfNat?_eq_some] at hx
        rw [← hx]
        exact c.valid) s.size bs
  constructor
  · intro h
    obtain ⟨xs, hxs, hx⟩ := Option.map_eq_some_iff.mp (k1 h)
    refine hr.item hl ?_
    rw [he, hxs, Option.map_some, hx]
    rfl
  · intro h
    refine hr.rejects hl ?_
    rw [he, k2 h]
    rfl

/-- C31: decoding to `Vec<u32>` accepts surrogates too, and refuses exactly the items with a code
point out of range. -/
theorem C31_u32_decode {M : Machine} {s : TypeStr} {p}
    (hp : Ty.vecU32.reader M (.plain s) = .ok p) (hd : s.Wf) (hc : s.typeChar = .unicodeStr) (hm : 4 * s.size ≤ M.isizeMax)
    (bs : Bytes) (hl : bs.length = 4 * s.size) :
    ((∀ u ∈ itemUnits s.endianness s.size bs, u < 0x110000) →
      ReadsItem p bs (trimEnd (· == 0) ((itemUnits s.endianness s.size bs).map (BitVec.ofNat _)))) ∧
    ((∃ u ∈ itemUnits s.endianness s.size bs, ¬ u < 0x110000) → RejectsItem p bs) := by
  have hr := reader_reads _ hp hd (exact_u hc) hm
  have he : decode .vecU32 (.plain s) bs =
      (decodeMany (decodeUnit s.endianness) 4 s.size bs).map (fun l => trimEnd (· == 0) l.1) := rfl
  obtain ⟨k1, k2⟩ := decodeMany_iff (f := decodeUnit s.endianness) (g := wordValue s.endianness) (ok := (· < 0x110000))
    (val := BitVec.ofNat _) (fun b h => by simp only [decodeUnit, if_pos h]) (fun b h => by
      simp only [decodeUnit, if_neg h]) s.size bs
  constructor
  · intro h
    obtain ⟨xs, hxs, hx⟩ := Option.map_eq_some_iff.mp (k1 h)
    refine hr.item hl ?_
    rw [he, hxs, Option.map_some, hx]
    rfl
  · intro h
    refine hr.rejects hl ?_
    rw [he, k2 h]
    rfl

/-- C31: writing code points as `u32`: at most `n`, all in range (surrogates are fine). -/
theorem C31_u32_write {M : Machine} {s : TypeStr} {w} (hw : Ty.vecU32.writer M (.plain s) = .ok w)
    (hd : s.Wf) (hc : s.typeChar = .unicodeStr) (hm : 4 * s.size ≤ M.isizeMax) (v : List (Word 4)) :
    (v.length ≤ s.size ∧ (∀ x ∈ v, x.toNat < 0x110000) →
      WritesItem (w v) (unitsBytes s.endianness (v.map (·.toNat) ++ List.replicate (s.size - v.length) 0))) ∧
    (¬ (v.length ≤ s.size ∧ (∀ x ∈ v, x.toNat < 0x110000)) → RefusesItem (w v)) := by
  have h := writer_writes _ hw hd (exact_u hc) hm v
  rw [show encode .vecU32 (.plain s) v = encodeUnits s v from rfl, encodeUnits, padUnits, List.length_map] at h
  constructor
  · rintro ⟨h1, h2⟩
    rw [if_pos h2, if_pos h1] at h
    exact h.item.2
  · intro hn
    by_cases h2 : ∀ x ∈ v, x.toNat < 0x110000
    · rw [if_pos h2, if_neg (fun h1 => hn ⟨h1, h2⟩)] at h
      exact h.refuses
    · rw [if_neg h2] at h
      exact h.refuses

/-- C31_string, C31_string_decode: `"é"` as `>U2`; a surrogate is an error. -/
example : ∃ w p, Ty.string.writer laptop (.plain ⟨.big, .unicodeStr, 2, none⟩) = .ok w ∧
    Ty.string.reader laptop (.plain ⟨.big, .unicodeStr, 2, none⟩) = .ok p ∧
    WritesItem (w ['é']) [0, 0, 0, 0xe9, 0, 0, 0, 0] ∧ ReadsItem p [0, 0, 0, 0xe9, 0, 0, 0, 0] ['é'] ∧
    RefusesItem (w ['a', 'b', 'c']) ∧ RejectsItem p [0, 0, 0, 0x41, 0, 0, 0xd8, 0] := by
  have hd : TypeStr.Wf ⟨.big, .unicodeStr, 2, none⟩ := wf_of_parse (s := ">U2".toList) (by decide)
  obtain ⟨w, hw⟩ := has_writer (M := laptop) (t := .string) (s := ⟨.big, .unicodeStr, 2, none⟩) (.inr rfl) (.inr rfl) (by decide)
  obtain ⟨p, hp⟩ := has_reader (M := laptop) (t := .string) (s := ⟨.big, .unicodeStr, 2, none⟩) (.inr rfl) (.inr rfl) (by decide)
  have h := C31_string hw hp hd rfl (by decide)
  have h1 := h.1 ['é'] (by decide)
  exact ⟨w, p, hw, hp, h1.1, h1.2, h.2 _ (by decide),
    (C31_string_decode hp hd rfl (by decide) _ rfl).2 ⟨0xd800, by decide, by decide⟩⟩

/-- C31_u32_decode, C31_u32_write: as `Vec<u32>` the surrogate is fine, `0x110000` is not. -/
example : ∃ w p, Ty.vecU32.writer laptop (.plain ⟨.little, .unicodeStr, 2, none⟩) = .ok w ∧
    Ty.vecU32.reader laptop (.plain ⟨.little, .unicodeStr, 2, none⟩) = .ok p ∧
    WritesItem (w ([0xd800#32] : List (Word 4))) [0, 0xd8, 0, 0, 0, 0, 0, 0] ∧
    ReadsItem p [0, 0xd8, 0, 0, 0, 0, 0, 0] ([0xd800#32] : List (Word 4)) ∧
    RefusesItem (w ([0x110000#32] : List (Word 4))) ∧ RejectsItem p [0, 0, 0x11, 0, 0, 0, 0, 0] := by
  have hd : TypeStr.Wf ⟨.little, .unicodeStr, 2, none⟩ := wf_of_parse (s := "<U2".toList) (by decide)
  obtain ⟨w, hw⟩ := has_writer (M := laptop) (t := .vecU32) (s := ⟨.little, .unicodeStr, 2, none⟩) (.inr rfl) rfl (by decide)
  obtain ⟨p, hp⟩ := has_reader (M := laptop) (t := .vecU32) (s := ⟨.little, .unicodeStr, 2, none⟩) (.inr rfl) rfl (by decide)
  exact ⟨w, p, hw, hp, (C31_u32_write hw hd rfl (by decide) [0xd800#32]).1 ⟨by decide, fun x hx => by cases List.mem_singleton.mp hx; simp⟩,
    (C31_u32_decode hp hd rfl (by decide) _ rfl).1 (by decide),
    (C31_u32_write hw hd rfl (by decide) [0x110000#32]).2 (fun h => absurd (h.2 _ (List.mem_singleton.mpr rfl)) (by simp)),
    (C31_u32_decode hp hd rfl (by decide) _ rfl).2 ⟨0x110000, by decide, by decide⟩⟩

example : itemUnits .little 2 [0x00, 0xd8, 0, 0, 0x41, 0, 0, 0] = [0xd800, 0x41] ∧ ¬ Nat.isValidChar 0xd800 ∧
    unitsBytes .big [0x1f600] = [0, 1, 0xf6, 0] := by decide
example : ∃ p, Ty.string.reader ⟨false, 64, true⟩ (.plain ⟨.big, .unicodeStr, 3, none⟩) = .ok p :=
  (reader_ok_iff (Or.inr rfl) _ _).mpr ⟨Or.inr rfl, fits (by decide)⟩

/-! ### C32: UTF-8 in `|Sn` -/

/-- C32: a string fits if its UTF-8 form has at most `n` bytes, and comes back without trailing NULs. -/
theorem C32_utf8 {M : Machine} {s : TypeStr} {w p} (hw : Ty.string.writer M (.plain s) = .ok w)
    (hp : Ty.string.reader M (.plain s) = .ok p) (hd : s.Wf) (hc : s.typeChar = .byteStr) (hm : s.size ≤ M.isizeMax) :
    (∀ v : Text, (encodeUtf8 v).length ≤ s.size →
      WritesItem (w v) (encodeUtf8 v ++ List.replicate (s.size - (encodeUtf8 v).length) 0) ∧
      ReadsItem p (encodeUtf8 v ++ List.replicate (s.size - (encodeUtf8 v).length) 0) (trimEnd (· == '\x00') v)) ∧
    (∀ v : Text, s.size < (encodeUtf8 v).length → RefusesItem (w v)) := by
  have hn : exactBytes (.plain s) = some s.size := by simp [exactBytes, itemBytes, hc]
  have hr := reader_reads _ hp hd hn hm
  have hw' := writer_writes _ hw hd hn hm
  have hu : s.typeChar ≠ .unicodeStr := by simp [hc]
  have he : ∀ v : Text, encode .string (.plain s) v = padBytes s.size (encodeUtf8 v) := fun v => by
    show encodeText s v = _
    rw [encodeText, if_neg hu]
  refine ⟨fun v hv => ?_, fun v hv => ?_⟩
  · have hev : encode .string (.plain s) v =
        some (encodeUtf8 v ++ List.replicate (s.size - (encodeUtf8 v).length) 0) := by
      rw [he, padBytes, if_pos hv]
    have h := hw' v
    rw [hev] at h
    obtain ⟨hl, hdc⟩ := encode_decode .string (.plain s) _ v _ (Or.inl hc) hn hev
    exact ⟨h.item.2, hr.item hl hdc⟩
  · have h := hw' v
    rw [he, padBytes, if_neg (by omega)] at h
    exact h.refuses

/-- C32: an item is read exactly if what is left after removing trailing NULs is the UTF-8 form of
some text. -/
theorem C32_decode {M : Machine} {s : TypeStr} {p}
    (hp : Ty.string.reader M (.plain s) = .ok p) (hd : s.Wf) (hc : s.typeChar = .byteStr) (hm : s.size ≤ M.isizeMax)
    (bs : Bytes) (hl : bs.length = s.size) :
    (∀ v : Text, trimEnd (· == 0) bs = encodeUtf8 v → ReadsItem p bs v) ∧
    ((∀ v : Text, trimEnd (· == 0) bs ≠ encodeUtf8 v) → RejectsItem p bs) := by
  have hn : exactBytes (.plain s) = some s.size := by simp [exactBytes, itemBytes, hc]
  have hr := reader_reads _ hp hd hn hm
  have hu : s.typeChar ≠ .unicodeStr := by simp [hc]
  have he : decode .string (.plain s) bs = decodeUtf8 (trimEnd (· == 0) bs) := if_neg hu
  constructor
  · intro v hv
    exact hr.item hl (by rw [he, hv, decodeUtf8_encode]; rfl)
  · intro h
    refine hr.rejects hl ?_
    rw [he]
    cases hx : decodeUtf8 (trimEnd (· == 0) bs) with
    | none => rfl
    | some v => exact absurd ((decodeUtf8_eq_some_iff _ _).mp hx) (h v)

/-- C32_utf8, C32_decode: `"é"` as `|S3`; `[0xff, 0, 0]` is no UTF-8. -/
example : ∃ w p, Ty.string.writer laptop (.plain ⟨.irrelevant, .byteStr, 3, none⟩) = .ok w ∧
    Ty.string.reader laptop (.plain ⟨.irrelevant, .byteStr, 3, none⟩) = .ok p ∧
    WritesItem (w ['é']) [0xc3, 0xa9, 0] ∧ ReadsItem p [0xc3, 0xa9, 0] ['é'] ∧ RefusesItem (w ['é', 'é']) ∧
    ReadsItem p [0x41, 0, 0] ['A'] := by
  have hd : TypeStr.Wf ⟨.irrelevant, .byteStr, 3, none⟩ := wf_of_parse (s := "|S3".toList) (by decide)
  obtain ⟨w, hw⟩ := has_writer (M := laptop) (t := .string) (s := ⟨.irrelevant, .byteStr, 3, none⟩) (.inr rfl) (.inl rfl) (by decide)
  obtain ⟨p, hp⟩ := has_reader (M := laptop) (t := .string) (s := ⟨.irrelevant, .byteStr, 3, none⟩) (.inr rfl) (.inl rfl) (by decide)
  have h := C32_utf8 hw hp hd rfl (by decide)
  have h1 := h.1 ['é'] (by decide)
  exact ⟨w, p, hw, hp, h1.1, h1.2, h.2 _ (by decide), (C32_decode hp hd rfl (by decide) _ rfl).1 ['A'] (by decide)⟩

example : ∃ p, Ty.string.reader ⟨false, 64, true⟩ (.plain ⟨.irrelevant, .byteStr, 3, none⟩) = .ok p :=
  (reader_ok_iff (Or.inr rfl) _ _).mpr ⟨Or.inl rfl, fits (by decide)⟩

/-! ### C33: FixedSizeBytes -/

/-- C33: accepted exactly for `|VN` … -/
theorem C33_accepts {M : Machine} (hM : M.Wf) (N : Nat) (hN : N < M.usizeLim) (d : DType) :
    ((∃ p, (Ty.fixedBytes N).reader M d = .ok p) ↔ ∃ s, d = .plain s ∧ s.typeChar = .rawData ∧ s.size = N) ∧
    ((∃ w, (Ty.fixedBytes N).writer M d = .ok w) ↔ ∃ s, d = .plain s ∧ s.typeChar = .rawData ∧ s.size = N) := by
  rw [reader_ok_iff hM, writer_ok_iff hM, canRead_scalar (t := .fixedBytes N) (by simp) (by simp),
    canWrite_scalar (t := .fixedBytes N) (by simp) (by simp)]
  simp only [scalarAccepts, writeOnly, or_false]
  have : (∃ s, d = .plain s ∧ s.size < M.usizeLim ∧ s.typeChar = .rawData ∧ s.size = N) ↔
      ∃ s, d = .plain s ∧ s.typeChar = .rawData ∧ s.size = N :=
    ⟨fun ⟨s, a, _, b⟩ => ⟨s, a, b⟩, fun ⟨s, a, b⟩ => ⟨s, a, by omega, b⟩⟩
  exact ⟨this, this⟩

/-- C33: … and all bytes come back unchanged. -/
theorem C33_roundtrip {M M' : Machine} {N : Nat} {s : TypeStr} {w p} (hw : (Ty.fixedBytes N).writer M (.plain s) = .ok w)
    (hM' : M'.Wf) (hp : (Ty.fixedBytes N).reader M' (.plain s) = .ok p) (hd : s.Wf) (hm : N ≤ M.isizeMax) (hm' : N ≤ M'.isizeMax)
    (v : Bytes) (hv : v.length = N) : WritesItem (w ⟨v, hv⟩) v ∧ ReadsItem p v ⟨v, hv⟩ := by
  have hs : s.typeChar = .rawData ∧ s.size = N := ((reader_ok_iff hM' _ _).mp ⟨p, hp⟩).1
  have hn : exactBytes (.plain s) = some N := by simp [exactBytes, itemBytes, hs]
  obtain ⟨-, h2, h3⟩ := round_trip hM' hw hp hd hn hm hm' ⟨v, hv⟩ (bs := v) rfl
  exact ⟨h2, h3⟩

/-- C33_accepts, C33_roundtrip: `FixedSizeBytes<3>` and `|V3`, not `|V4`. -/
example : (¬ ∃ p, (Ty.fixedBytes 3).reader laptop (.plain ⟨.irrelevant, .rawData, 4, none⟩) = .ok p) ∧
    ∃ w p, (Ty.fixedBytes 3).writer laptop (.plain ⟨.irrelevant, .rawData, 3, none⟩) = .ok w ∧
    (Ty.fixedBytes 3).reader server (.plain ⟨.irrelevant, .rawData, 3, none⟩) = .ok p ∧
    WritesItem (w ⟨[7, 0, 0], rfl⟩) [7, 0, 0] ∧ ReadsItem p [7, 0, 0] ⟨[7, 0, 0], rfl⟩ := by
  constructor
  · rw [(C33_accepts (M := laptop) (.inr rfl) 3 (by decide) _).1]
    rintro ⟨s, h, -, h3⟩
    cases h
    exact absurd h3 (by decide)
  · obtain ⟨w, hw⟩ := (C33_accepts (M := laptop) (.inr rfl) 3 (by decide) (.plain ⟨.irrelevant, .rawData, 3, none⟩)).2.mpr ⟨_, rfl, rfl, rfl⟩
    obtain ⟨p, hp⟩ := (C33_accepts (M := server) (.inl rfl) 3 (by decide) (.plain ⟨.irrelevant, .rawData, 3, none⟩)).1.mpr ⟨_, rfl, rfl, rfl⟩
    exact ⟨w, p, hw, hp, C33_roundtrip hw (.inl rfl) hp (wf_of_parse (s := "|V3".toList) (by decide)) (by decide) (by decide) _ rfl⟩

example : (DType.plain ⟨.irrelevant, .rawData, 9, none⟩).Wf := ⟨⟨trivial, by simp [OrderMatters], by simp⟩, by decide, by simp⟩

/-! ### C34: bounded strings -/

/-- C34 fails: reading the `|V1` item `[7]` as `ArrayVec<u8, 2>` gives `[7, 0]`, two bytes, not the
stored one. -/
theorem C34_raw_violated : ∃ (M : Machine) (s : TypeStr) (p : RProg (Ty.arrayVecU8 2).Val), M.Wf ∧ s.Wf ∧
    (Ty.arrayVecU8 2).reader M (.plain s) = .ok p ∧ ReadsItem p [7] ⟨[7, 0], by decide⟩ := by
  have hM : Machine.Wf ⟨false, 64, true⟩ := Or.inr rfl
  obtain ⟨p, hp⟩ := (reader_ok_iff hM (.arrayVecU8 2) (.plain ⟨.irrelevant, .rawData, 1, none⟩)).mpr
    ⟨Or.inl ⟨rfl, by decide⟩, fits (by decide)⟩
  have hd : TypeStr.Wf ⟨.irrelevant, .rawData, 1, none⟩ := ⟨⟨trivial, by simp [OrderMatters], by simp⟩, by decide, by simp⟩
  exact ⟨_, _, p, hM, hd, hp, (reader_reads _ hp hd (n := 1) rfl (by decide)).item rfl rfl⟩

/-- C34 for `ArrayVec<u8, cap>`: a `|Sn` item gives its first `cap` bytes without trailing NULs; a
`|Vn` item gives its bytes followed by zeros up to the capacity (which is the item itself only for
`n = cap`). -/
theorem C34_array_vec_u8_partial {M : Machine} (hM : M.Wf) {cap : Nat} {s : TypeStr} {p}
    (hp : (Ty.arrayVecU8 cap).reader M (.plain s) = .ok p) (hd : s.Wf) (hm : s.size ≤ M.isizeMax)
    (bs : Bytes) (hl : bs.length = s.size) :
    (s.typeChar = .byteStr → ∃ v, v.1 = trimEnd (· == 0) (bs.take cap) ∧ ReadsItem p bs v) ∧
    (s.typeChar = .rawData → s.size ≤ cap ∧ ∃ v, v.1 = bs ++ List.replicate (cap - s.size) 0 ∧ ReadsItem p bs v) := by
  have hc : (s.typeChar = .rawData ∧ s.size ≤ cap) ∨ s.typeChar = .byteStr := ((reader_ok_iff hM _ _).mp ⟨p, hp⟩).1
  have hn : exactBytes (.plain s) = some s.size := by rcases hc with h | h <;> simp [exactBytes, itemBytes, h]
  have hr := reader_reads _ hp hd hn hm
  have hi : ReadsItem p bs (arrayVecBytes cap s bs) := hr.item hl rfl
  constructor
  · intro h
    exact ⟨_, by rw [arrayVecBytes, if_pos h], hi⟩
  · intro h
    have hle : s.size ≤ cap := by
      rcases hc with h' | h'
      · exact h'.2
      · simp [h] at h'
    refine ⟨hle, _, ?_, hi⟩
    rw [arrayVecBytes, if_neg (by simp [h])]
    show List.take cap _ = _
    rw [List.take_of_length_le (by simp; omega), hl]

/-- C34 for `ArrayVec<char, cap>`: the first `cap` characters of the item without trailing NULs, and
exactly what a `Vec<char>` reader gives when it fits. -/
theorem C34_array_vec_char {M : Machine} (hM : M.Wf) {cap : Nat} {s : TypeStr} {p}
    (hp : (Ty.arrayVecChar cap).reader M (.plain s) = .ok p) (hd : s.Wf) (hm : 4 * s.size ≤ M.isizeMax)
    (bs : Bytes) (hl : bs.length = 4 * s.size) :
    ((∀ u ∈ itemUnits s.endianness s.size bs, u.isValidChar) → ∃ v,
      v.1 = trimEnd (· == '\x00') (((itemUnits s.endianness s.size bs).map Char.ofNat).take cap) ∧ ReadsItem p bs v) ∧
    ((∃ u ∈ itemUnits s.endianness s.size bs, ¬ u.isValidChar) → RejectsItem p bs) := by
  have hc : s.typeChar = .unicodeStr := ((reader_ok_iff hM _ _).mp ⟨p, hp⟩).1
  have hr := reader_reads _ hp hd (exact_u hc) hm
  obtain ⟨k1, k2⟩ := decodeMany_iff (f := Spec.decodeChar s.endianness) (g := wordValue s.endianness) (ok := Nat.isValidChar)
    (val := Char.ofNat) (fun b h => by
      rw [Spec.decodeChar, charOfNat?_eq_some]
      simp [Char.ofNat, h, Char.ofNatAux, Char.toNat]) (fun b h => by
      rw [Spec.decodeChar]
      cases hx : charOfNat? (wordValue s.endianness b) with
      | none => rfl
      | some c =>
        exfalso; apply h
        rw [charOfNat?_eq_some] at hx
        rw [← hx]
        exact c.valid) s.size bs
  have he : decode (.arrayVecChar cap) (.plain s) bs =
      (decodeMany (Spec.decodeChar s.endianness) 4 s.size bs).map (fun l =>
        (⟨trimEnd (· == '\x00') (l.1.take cap), trimEnd_take_le _ _ _⟩ : { l : Text // l.length ≤ cap })) := rfl
  constructor
  · intro h
    obtain ⟨xs, hxs, hx⟩ := Option.map_eq_some_iff.mp (k1 h)
    refine ⟨⟨trimEnd (· == '\x00') (xs.1.take cap), trimEnd_take_le _ _ _⟩, ?_, hr.item hl ?_⟩
    · rw [hx]; rfl
    · rw [he, hxs, Option.map_some]; rfl
  · intro h
    refine hr.rejects hl ?_
    rw [he, k2 h]
    rfl

/-- C34 for `ArrayVec<u32, cap>`. -/
theorem C34_array_vec_u32 {M : Machine} (hM : M.Wf) {cap : Nat} {s : TypeStr} {p}
    (hp : (Ty.arrayVecU32 cap).reader M (.plain s) = .ok p) (hd : s.Wf) (hm : 4 * s.size ≤ M.isizeMax)
    (bs : Bytes) (hl : bs.length = 4 * s.size) :
    ((∀ u ∈ itemUnits s.endianness s.size bs, u < 0x110000) → ∃ v,
      v.1 = trimEnd (· == 0) (((itemUnits s.endianness s.size bs).map (BitVec.ofNat _)).take cap) ∧ ReadsItem p bs v) ∧
    ((∃ u ∈ itemUnits s.endianness s.size bs, ¬ u < 0x110000) → RejectsItem p bs) := by
  have hc : s.typeChar = .unicodeStr := ((reader_ok_iff hM _ _).mp ⟨p, hp⟩).1
  have hr := reader_reads _ hp hd (exact_u hc) hm
  obtain ⟨k1, k2⟩ := decodeMany_iff (f := decodeUnit s.endianness) (g := wordValue s.endianness) (ok := (· < 0x110000))
    (val := BitVec.ofNat _) (fun b h => by simp only [decodeUnit, if_pos h]) (fun b h => by
      simp only [decodeUnit, if_neg h]) s.size bs
  have he : decode (.arrayVecU32 cap) (.plain s) bs =
      (decodeMany (decodeUnit s.endianness) 4 s.size bs).map (fun l =>
        (⟨trimEnd (· == 0) (l.1.take cap), trimEnd_take_le _ _ _⟩ : { l : List (Word 4) // l.length ≤ cap })) := rfl
  constructor
  · intro h
    obtain ⟨xs, hxs, hx⟩ := Option.map_eq_some_iff.mp (k1 h)
    refine ⟨⟨trimEnd (· == 0) (xs.1.take cap), trimEnd_take_le _ _ _⟩, ?_, hr.item hl ?_⟩
    · rw [hx]; rfl
    · rw [he, hxs, Option.map_some]; rfl
  · intro h
    refine hr.rejects hl ?_
    rw [he, k2 h]
    rfl

/-- `fitPrefix n s` is the longest prefix of `s` of at most `n` UTF-8 bytes. -/
theorem C34_fitPrefix_longest (n : Nat) (s : Text) : fitPrefix n s <+: s ∧ (encodeUtf8 (fitPrefix n s)).length ≤ n ∧
    ∀ t, t <+: s → (encodeUtf8 t).length ≤ n → t <+: fitPrefix n s := by
  refine ⟨?_, encode_fitPrefix_le n s, ?_⟩
  · induction s generalizing n with
    | nil => exact List.prefix_refl _
    | cons c cs ih =>
      simp only [fitPrefix]
      split
      · exact (List.prefix_cons_inj c).mpr (ih _)
      · exact List.nil_prefix
  · induction s generalizing n with
    | nil => intro t ht _; simpa [fitPrefix] using ht
    | cons c cs ih =>
      intro t ht hl
      cases t with
      | nil => exact List.nil_prefix
      | cons c' t =>
        obtain ⟨rfl, ht'⟩ := List.cons_prefix_cons.mp ht
        rw [encodeUtf8_cons, List.length_append] at hl
        have hc : (String.utf8EncodeChar c').length = c'.utf8Size := by simp
        simp only [fitPrefix]
        rw [if_pos (by omega)]
        exact (List.prefix_cons_inj c').mpr (ih _ t ht' (by omega))

/-- C34 for `ArrayString<cap>`: the longest prefix of the stored text (without trailing NULs) with at
most `cap` bytes; invalid UTF-8 is refused. -/
theorem C34_array_string {M : Machine} (hM : M.Wf) {cap : Nat} {s : TypeStr} {p}
    (hp : (Ty.arrayString cap).reader M (.plain s) = .ok p) (hd : s.Wf) (hm : s.size ≤ M.isizeMax)
    (bs : Bytes) (hl : bs.length = s.size) :
    (∀ text : Text, trimEnd (· == 0) bs = encodeUtf8 text → ∃ v, v.1 = fitPrefix cap text ∧ ReadsItem p bs v) ∧
    ((∀ text : Text, trimEnd (· == 0) bs ≠ encodeUtf8 text) → RejectsItem p bs) := by
  have hc : s.typeChar = .byteStr := ((reader_ok_iff hM _ _).mp ⟨p, hp⟩).1
  have hn : exactBytes (.plain s) = some s.size := by simp [exactBytes, itemBytes, hc]
  have hr := reader_reads _ hp hd hn hm
  have he : decode (.arrayString cap) (.plain s) bs =
      (decodeUtf8 (trimEnd (· == 0) bs)).map (fun l => (⟨fitPrefix cap l, encode_fitPrefix_le _ _⟩ :
        { l : Text // (encodeUtf8 l).length ≤ cap })) := rfl
  constructor
  · intro text ht
    exact ⟨⟨fitPrefix cap text, encode_fitPrefix_le _ _⟩, rfl, hr.item hl (by rw [he, ht, decodeUtf8_encode, Option.map_some]; rfl)⟩
  · intro h
    refine hr.rejects hl ?_
    rw [he]
    cases hx : decodeUtf8 (trimEnd (· == 0) bs) with
    | none => rfl
    | some v => exact absurd ((decodeUtf8_eq_some_iff _ _).mp hx) (h v)

/-- C34_array_vec_u8_partial: `|S4` items are cut to the capacity, `|V1` items are padded. -/
example : ∃ p p', (Ty.arrayVecU8 2).reader laptop (.plain ⟨.irrelevant, .byteStr, 4, none⟩) = .ok p ∧
    (Ty.arrayVecU8 2).reader laptop (.plain ⟨.irrelevant, .rawData, 1, none⟩) = .ok p' ∧
    (∃ v, v.1 = [1] ∧ ReadsItem p [1, 0, 3, 4] v) ∧ ∃ v, v.1 = [7, 0] ∧ ReadsItem p' [7] v := by
  obtain ⟨p, hp⟩ := has_reader (M := laptop) (t := .arrayVecU8 2) (s := ⟨.irrelevant, .byteStr, 4, none⟩) (.inr rfl) (.inr rfl) (by decide)
  obtain ⟨p', hp'⟩ := has_reader (M := laptop) (t := .arrayVecU8 2) (s := ⟨.irrelevant, .rawData, 1, none⟩) (.inr rfl)
    (.inl ⟨rfl, by decide⟩) (by decide)
  exact ⟨p, p', hp, hp',
    (C34_array_vec_u8_partial (.inr rfl) hp (wf_of_parse (s := "|S4".toList) (by decide)) (by decide) [1, 0, 3, 4] rfl).1 rfl,
    ((C34_array_vec_u8_partial (.inr rfl) hp' (wf_of_parse (s := "|V1".toList) (by decide)) (by decide) [7] rfl).2 rfl).2⟩

/-- C34_array_vec_char, C34_array_vec_u32: two code points cut to one. -/
example : ∃ p p', (Ty.arrayVecChar 1).reader laptop (.plain ⟨.little, .unicodeStr, 2, none⟩) = .ok p ∧
    (Ty.arrayVecU32 1).reader laptop (.plain ⟨.little, .unicodeStr, 2, none⟩) = .ok p' ∧
    (∃ v, v.1 = ['A'] ∧ ReadsItem p [0x41, 0, 0, 0, 0x42, 0, 0, 0] v) ∧ RejectsItem p [0x41, 0, 0, 0, 0, 0xd8, 0, 0] ∧
    (∃ v, v.1 = [0x41#32] ∧ ReadsItem p' [0x41, 0, 0, 0, 0, 0xd8, 0, 0] v) ∧ RejectsItem p' [0x41, 0, 0, 0, 0, 0, 0x11, 0] := by
  have hd : TypeStr.Wf ⟨.little, .unicodeStr, 2, none⟩ := wf_of_parse (s := "<U2".toList) (by decide)
  obtain ⟨p, hp⟩ := has_reader (M := laptop) (t := .arrayVecChar 1) (s := ⟨.little, .unicodeStr, 2, none⟩) (.inr rfl) rfl (by decide)
  obtain ⟨p', hp'⟩ := has_reader (M := laptop) (t := .arrayVecU32 1) (s := ⟨.little, .unicodeStr, 2, none⟩) (.inr rfl) rfl (by decide)
  exact ⟨p, p', hp, hp', (C34_array_vec_char (.inr rfl) hp hd (by decide) [0x41, 0, 0, 0, 0x42, 0, 0, 0] rfl).1 (by decide),
    (C34_array_vec_char (.inr rfl) hp hd (by decide) _ rfl).2 ⟨0xd800, by decide, by decide⟩,
    (C34_array_vec_u32 (.inr rfl) hp' hd (by decide) [0x41, 0, 0, 0, 0, 0xd8, 0, 0] rfl).1 (by decide),
    (C34_array_vec_u32 (.inr rfl) hp' hd (by decide) _ rfl).2 ⟨0x110000, by decide, by decide⟩⟩

/-- C34_array_string: `"aé"` cut to two bytes is `"a"`. -/
example : ∃ p, (Ty.arrayString 2).reader laptop (.plain ⟨.irrelevant, .byteStr, 3, none⟩) = .ok p ∧
    ∃ v, v.1 = ['a'] ∧ ReadsItem p [0x61, 0xc3, 0xa9] v := by
  obtain ⟨p, hp⟩ := has_reader (M := laptop) (t := .arrayString 2) (s := ⟨.irrelevant, .byteStr, 3, none⟩) (.inr rfl) rfl (by decide)
  exact ⟨p, hp, (C34_array_string (.inr rfl) hp (wf_of_parse (s := "|S3".toList) (by decide)) (by decide) _ rfl).1 ['a', 'é'] (by decide)⟩

example : ∃ p, (Ty.arrayString 2).reader ⟨false, 64, true⟩ (.plain ⟨.irrelevant, .byteStr, 3, none⟩) = .ok p :=
  (reader_ok_iff (Or.inr rfl) _ _).mpr ⟨rfl, fits (by decide)⟩
example : fitPrefix 3 ['é', 'é'] = ['é'] := by decide

/-! ### C35, C36: arrays and structs -/

/-- C35: `[T; N]` accepts exactly the array dtypes of length `N` whose element dtype `T` accepts. -/
theorem C35_accepts {M : Machine} (hM : M.Wf) (N : Nat) (t : Ty) (d : DType) :
    ((∃ p, (Ty.array N t).reader M d = .ok p) ↔ ∃ d', d = .array N d' ∧ ∃ p, t.reader M d' = .ok p) ∧
    ((∃ w, (Ty.array N t).writer M d = .ok w) ↔ ∃ d', d = .array N d' ∧ ∃ w, t.writer M d' = .ok w) := by
  simp only [reader_ok_iff hM, writer_ok_iff hM]
  constructor
  · constructor
    · rintro ⟨hc, hs⟩
      cases d with
      | plain s => exact hc.elim
      | array n d' => obtain ⟨t', h, hc⟩ := hc; cases h; exact ⟨d', rfl, hc, hs⟩
      | record fs => obtain ⟨_, h, _⟩ := hc; cases h
    · rintro ⟨d', rfl, hc, hs⟩
      exact ⟨⟨t, rfl, hc⟩, hs⟩
  · constructor
    · rintro ⟨hc, hs⟩
      cases d with
      | plain s => exact (hc.elim id id : False).elim
      | array n d' => obtain ⟨t', h, hc⟩ := hc; cases h; exact ⟨d', rfl, hc, hs⟩
      | record fs => obtain ⟨_, h, _⟩ := hc; cases h
    · rintro ⟨d', rfl, hc, hs⟩
      exact ⟨⟨t, rfl, hc⟩, hs⟩

/-- C35: the elements are stored one after the other in index order: if each element `x` is written as
`f x`, the array is written as the concatenation. -/
theorem C35_layout {M : Machine} {N : Nat} {t : Ty} {d : DType} {n : Nat} {w : t.Val → WProg Unit} {wa}
    (hw : t.writer M d = .ok w) (hwa : (Ty.array N t).writer M (.array N d) = .ok wa) (v : (Ty.array N t).Val)
    (f : t.Val → Bytes) (hf : ∀ x ∈ v.1, WritesItem (w x) (f x)) : WritesItem (wa v) (v.1.flatMap f) := by
  have hwa' : wa = fun v => writeMany w v.1 := by
    simp only [Ty.writer, arrayInner, ne_eq, not_true_eq_false, if_false, Out.bind_ok, hw] at hwa
    cases hwa; rfl
  subst hwa'
  intro s
  show (writeMany w v.1).exec s = _
  revert hf s
  generalize v.1 = l
  intro hf s
  induction l generalizing s with
  | nil => simp [writeMany, Sink.put_nil]
  | cons x xs ih =>
    simp only [writeMany, List.flatMap_cons]
    rw [WProg.exec_bind_of_ok (hf x (by simp) s), ih (fun y hy => hf y (by simp [hy])), Sink.put_put]

/-- C35: what is read back from an array is what is read back from each element. -/
theorem C35_readback (N : Nat) (t : Ty) (d : DType) (v : (Ty.array N t).Val) :
    (readBack (.array N t) (.array N d) v).1 = v.1.map (readBack t d) := rfl

/-- C35_accepts, C35_layout: `[u16; 2]` in an array of `>u2`. -/
example : ∃ w, (Ty.array 2 (.num .u16)).writer laptop (.array 2 (.plain ⟨.big, .uint, 2, none⟩)) = .ok w ∧
    WritesItem (w ⟨([0x0102#16, 0x0304#16] : List (Word 2)), rfl⟩) [1, 2, 3, 4] := by
  obtain ⟨w, hw⟩ := has_writer (M := laptop) (t := .num .u16) (s := ⟨.big, .uint, 2, none⟩) (.inr rfl) ⟨rfl, rfl⟩ (by decide)
  obtain ⟨wa, hwa⟩ := ((C35_accepts (M := laptop) (.inr rfl) 2 (.num .u16) (.array 2 (.plain ⟨.big, .uint, 2, none⟩))).2).mpr ⟨_, rfl, w, hw⟩
  exact ⟨wa, hwa, C35_layout (n := 2) hw hwa ⟨([0x0102#16, 0x0304#16] : List (Word 2)), rfl⟩ (fun x : Word 2 => wordBytes .big 2 x.toNat)
    fun x _ => C28_number_bytes (.inr rfl) .u16 hw (wf_of_parse (s := ">u2".toList) (by decide)) x⟩

/-- C36: a struct accepts exactly the record dtypes with its field names in its order, each field
type accepting its dtype. -/
theorem C36_accepts {M : Machine} (hM : M.Wf) (fs : TFields) (d : DType) :
    ((∃ p, (Ty.record fs).reader M d = .ok p) ↔ ∃ dfs, d = .record dfs ∧ CanReadFields fs dfs ∧ FieldSizesFit M.usizeLim dfs) ∧
    ((∃ w, (Ty.record fs).writer M d = .ok w) ↔ ∃ dfs, d = .record dfs ∧ CanWriteFields fs dfs ∧ FieldSizesFit M.usizeLim dfs) := by
  simp only [reader_ok_iff hM, writer_ok_iff hM]
  constructor
  · constructor
    · rintro ⟨hc, hs⟩
      cases d with
      | plain s => exact hc.elim
      | record dfs => obtain ⟨t', h, hc⟩ := hc; cases h; exact ⟨dfs, rfl, hc, hs⟩
      | array => obtain ⟨_, h, _⟩ := hc; cases h
    · rintro ⟨d', rfl, hc, hs⟩
      exact ⟨⟨fs, rfl, hc⟩, hs⟩
  · constructor
    · rintro ⟨hc, hs⟩
      cases d with
      | plain s => exact (hc.elim id id : False).elim
      | record dfs => obtain ⟨t', h, hc⟩ := hc; cases h; exact ⟨dfs, rfl, hc, hs⟩
      | array => obtain ⟨_, h, _⟩ := hc; cases h
    · rintro ⟨d', rfl, hc, hs⟩
      exact ⟨⟨fs, rfl, hc⟩, hs⟩

/-- C36: a struct whose names differ from the record's in any way (spelling, order, number) is
refused, for reading and for writing. -/
theorem C36_names {M : Machine} (hM : M.Wf) (fs : TFields) (dfs : Fields) (h : dfs.names ≠ fs.names) :
    (∃ e, (Ty.record fs).reader M (.record dfs) = .err e) ∧ (∃ e, (Ty.record fs).writer M (.record dfs) = .err e) := by
  constructor
  · cases hr : (Ty.record fs).reader M (.record dfs) with
    | ok p =>
      obtain ⟨dfs', hd, hc⟩ := ((C36_accepts hM fs _).1).mp ⟨p, hr⟩
      cases hd
      exact absurd ((fields_reader_ok_iff hM fs dfs).mpr hc).1 h
    | err e => exact ⟨e, rfl⟩
    | panic => exact absurd hr (reader_np M _ _)
  · cases hr : (Ty.record fs).writer M (.record dfs) with
    | ok p =>
      obtain ⟨dfs', hd, hc⟩ := ((C36_accepts hM fs _).2).mp ⟨p, hr⟩
      cases hd
      exact absurd ((fields_writer_ok_iff hM fs dfs).mpr hc).1 h
    | err e => exact ⟨e, rfl⟩
    | panic => exact absurd hr (writer_np M _ _)

/-- C36: the first field's bytes come first, directly followed by those of the remaining fields. -/
theorem C36_layout {M : Machine} {name : Text} {t : Ty} {rest : TFields} {d : DType} {dfs : Fields} {w wr wa}
    (hw : t.writer M d = .ok w) (hwr : (Ty.record rest).writer M (.record dfs) = .ok wr)
    (hwa : (Ty.record (.cons name t rest)).writer M (.record (.cons name d dfs)) = .ok wa)
    (x : t.Val) (xs : rest.Val) (b bs : Bytes) (hb : WritesItem (w x) b) (hbs : WritesItem (wr xs) bs) :
    WritesItem (wa (x, xs)) (b ++ bs) := by
  obtain ⟨dfs', he, hwr'⟩ := (Out.bind_eq_ok (x := extractFields rest.names (.record dfs)) (f := fun dfs => rest.writer M dfs)).mp hwr
  obtain ⟨hd, hn⟩ := extractFields_ok.mp he
  cases hd
  have hwa' : wa = (fun v : t.Val × rest.Val => (do w v.1; wr v.2 : WProg Unit)) := by
    obtain ⟨dfs'', he', hwa'⟩ := (Out.bind_eq_ok (x := extractFields (TFields.cons name t rest).names (.record (.cons name d dfs)))
      (f := fun dfs => (TFields.cons name t rest).writer M dfs)).mp hwa
    obtain ⟨hd', -⟩ := extractFields_ok.mp he'
    cases hd'
    simp only [TFields.writer, hw, hwr', Out.bind_ok] at hwa'
    cases hwa'; rfl
  subst hwa'
  intro s
  show (w x >>= fun _ => wr xs).exec s = _
  rw [WProg.exec_bind_of_ok (hb s), hbs, Sink.put_put]

/-- C36_names: a struct with field `x`, a dtype with field `y`. -/
example : (∃ e, (Ty.record (.cons ['x'] .bool .nil)).reader laptop (.record (.cons ['y'] (.plain ⟨.irrelevant, .bool, 1, none⟩) .nil)) = .err e) :=
  (C36_names (M := laptop) (.inr rfl) _ _ (by decide)).1

/-- C36_layout: `{ x: bool, y: u16 }`. -/
example : ∃ w, (Ty.record (.cons ['x'] .bool (.cons ['y'] (.num .u16) .nil))).writer laptop
      (.record (.cons ['x'] (.plain ⟨.irrelevant, .bool, 1, none⟩) (.cons ['y'] (.plain ⟨.big, .uint, 2, none⟩) .nil))) = .ok w ∧
    WritesItem (w (true, (0x0102#16 : Word 2), ())) [1, 1, 2] := by
  obtain ⟨w1, h1⟩ := has_writer (M := laptop) (t := .bool) (s := ⟨.irrelevant, .bool, 1, none⟩) (.inr rfl) ⟨rfl, rfl⟩ (by decide)
  obtain ⟨w2, h2⟩ := has_writer (M := laptop) (t := .num .u16) (s := ⟨.big, .uint, 2, none⟩) (.inr rfl) ⟨rfl, rfl⟩ (by decide)
  obtain ⟨w3, h3⟩ := (C36_accepts (M := laptop) (.inr rfl) .nil (.record .nil)).2.mpr ⟨.nil, rfl, rfl, trivial⟩
  obtain ⟨w4, h4⟩ := (C36_accepts (M := laptop) (.inr rfl) (.cons ['y'] (.num .u16) .nil)
    (.record (.cons ['y'] (.plain ⟨.big, .uint, 2, none⟩) .nil))).2.mpr ⟨_, rfl, ⟨_, _, rfl, .inl ⟨rfl, rfl⟩, rfl⟩, fits (by decide), trivial⟩
  obtain ⟨w5, h5⟩ := (C36_accepts (M := laptop) (.inr rfl) (.cons ['x'] .bool (.cons ['y'] (.num .u16) .nil))
    (.record (.cons ['x'] (.plain ⟨.irrelevant, .bool, 1, none⟩) (.cons ['y'] (.plain ⟨.big, .uint, 2, none⟩) .nil)))).2.mpr
    ⟨_, rfl, ⟨_, _, rfl, .inl ⟨rfl, rfl⟩, _, _, rfl, .inl ⟨rfl, rfl⟩, rfl⟩, fits (by decide), fits (by decide), trivial⟩
  have h0 : WritesItem (w3 ()) [] := by cases h3; exact fun s => by simp [Sink.put]
  have hy := C36_layout h2 h3 h4 (0x0102#16 : Word 2) () _ _
    (C28_number_bytes (.inr rfl) .u16 h2 (wf_of_parse (s := ">u2".toList) (by decide)) (0x0102#16 : Word 2)) h0
  exact ⟨w5, h5, C36_layout h1 h4 h5 true ((0x0102#16 : Word 2), ()) [1] _
    ((writer_writes .bool h1 (wf_of_parse (s := "|b1".toList) (by decide)) (n := 1) rfl (by decide) true).item.2) hy⟩

example : (∃ w, exampleTy.writer ⟨false, 64, true⟩ exampleTyDType = .ok w) :=
  ((C36_accepts (M := ⟨false, 64, true⟩) (Or.inr rfl) _ _).2).mpr ⟨_, rfl,
    ⟨_, _, rfl, ⟨_, rfl, Or.inl (Or.inr rfl)⟩, _, _, rfl, Or.inl (Or.inr rfl), rfl⟩, fits (by decide), fits (by decide), trivial⟩

/-! ### C37: the support table -/

/-- C37: readers accept exactly the documented pairs (`CanRead`, Spec/Codec.lean) whose sizes are
`usize`s. -/
theorem C37_reader {M : Machine} (hM : M.Wf) (t : Ty) (d : DType) :
    (∃ p, t.reader M d = .ok p) ↔ CanRead t d ∧ SizesFit M.usizeLim d := reader_ok_iff hM t d

/-- C37: and writers those of `CanWrite`. -/
theorem C37_writer {M : Machine} (hM : M.Wf) (t : Ty) (d : DType) :
    (∃ w, t.writer M d = .ok w) ↔ CanWrite t d ∧ SizesFit M.usizeLim d := writer_ok_iff hM t d

mutual
theorem sizesFit_wf : (d : DType) → d.Wf → SizesFit (2 ^ 64) d
  | .plain _, h => h.size_lt
  | .array _ d, h => sizesFit_wf d h.2
  | .record fs, h => fieldSizesFit_wf fs h
theorem fieldSizesFit_wf : (fs : Fields) → fs.Wf → FieldSizesFit (2 ^ 64) fs
  | .nil, _ => trivial
  | .cons _ d rest, h => ⟨sizesFit_wf d h.1, fieldSizesFit_wf rest h.2⟩
end

/-- C37: on 64-bit machines the documented pairs are exactly the accepted ones. -/
theorem C37_64bit {M : Machine} (hM : M.usizeBits = 64) (t : Ty) (d : DType) (hd : d.Wf) :
    ((∃ p, t.reader M d = .ok p) ↔ CanRead t d) ∧ ((∃ w, t.writer M d = .ok w) ↔ CanWrite t d) := by
  have hl : M.usizeLim = 2 ^ 64 := by rw [Machine.usizeLim, hM]
  rw [C37_reader (Or.inr hM), C37_writer (Or.inr hM), hl]
  simp [sizesFit_wf d hd]

/-- C37: everything else is an `Err`; no combination of type and dtype panics. -/
theorem C37_no_panic (M : Machine) (t : Ty) (d : DType) : t.reader M d ≠ .panic ∧ t.writer M d ≠ .panic :=
  ⟨reader_np M t d, writer_np M t d⟩

/-- C37: what can be read can be written. -/
theorem C37_read_write {M : Machine} (hM : M.Wf) (t : Ty) (d : DType) (h : ∃ p, t.reader M d = .ok p) :
    ∃ w, t.writer M d = .ok w := by
  rw [C37_reader hM] at h
  exact (C37_writer hM t d).mpr ⟨canWrite_of_canRead _ _ h.1, h.2⟩

/-- C37: for scalar types other than `ArrayString` what can be written can be read. -/
theorem C37_write_read {M : Machine} (hM : M.Wf) (t : Ty) (s : TypeStr) (ht : ∀ n, t ≠ .arrayString n)
    (h : ∃ w, t.writer M (.plain s) = .ok w) : ∃ p, t.reader M (.plain s) = .ok p := by
  rw [C37_writer hM] at h
  rw [C37_reader hM]
  refine ⟨?_, h.2⟩
  rcases h.1 with h | h
  · exact h
  · cases t <;> first | exact h.elim | exact absurd rfl (ht _)

/-- C37: Python objects have no Rust counterpart: no type reads or writes a dtype containing `O`. -/
theorem C37_no_objects {M : Machine} (hM : M.Wf) (t : Ty) (d : DType) (h : HasObject d) :
    (∃ e, t.reader M d = .err e) ∧ (∃ e, t.writer M d = .err e) := by
  have hx : ¬ CanWrite t d := fun hc => by
    obtain ⟨n, hn⟩ := canWrite_exact t d hc
    rw [(exactBytes_none_iff d).mpr h] at hn; cases hn
  constructor
  · cases hr : t.reader M d with
    | ok p => exact absurd (canWrite_of_canRead _ _ ((reader_ok_iff hM t d).mp ⟨p, hr⟩).1) hx
    | err e => exact ⟨e, rfl⟩
    | panic => exact absurd hr (reader_np M t d)
  · cases hr : t.writer M d with
    | ok p => exact absurd ((writer_ok_iff hM t d).mp ⟨p, hr⟩).1 hx
    | err e => exact ⟨e, rfl⟩
    | panic => exact absurd hr (writer_np M t d)

/-- C37_reader, C37_writer, C37_64bit, C37_read_write, C37_write_read: `String` and `<U4` on both machines. -/
example : (∃ p, Ty.string.reader server (.plain ⟨.little, .unicodeStr, 4, none⟩) = .ok p) ∧
    (∃ w, Ty.string.writer server (.plain ⟨.little, .unicodeStr, 4, none⟩) = .ok w) ∧
    (∃ w, Ty.string.writer laptop (.plain ⟨.little, .unicodeStr, 4, none⟩) = .ok w) ∧
    (∃ p, Ty.string.reader laptop (.plain ⟨.little, .unicodeStr, 4, none⟩) = .ok p) := by
  have h := (C37_reader (M := server) (.inl rfl) .string (.plain ⟨.little, .unicodeStr, 4, none⟩)).mpr ⟨.inr rfl, fits (by decide)⟩
  have h' := (C37_64bit (M := laptop) rfl .string (.plain ⟨.little, .unicodeStr, 4, none⟩) (wf_of_parse (s := "<U4".toList) (by decide))).2.mpr
    (.inl (.inr rfl))
  exact ⟨h, C37_read_write (.inl rfl) _ _ h, h', C37_write_read (.inr rfl) _ _ (by simp) h'⟩

example : CanWrite (.arrayString 3) (.plain ⟨.little, .unicodeStr, 4, none⟩) ∧
    ¬ CanRead (.arrayString 3) (.plain ⟨.little, .unicodeStr, 4, none⟩) :=
  ⟨Or.inr rfl, by simp [CanRead, scalarAccepts]⟩

/-! ### C38, C60: default dtypes -/

/-- C38: `default_dtype` never panics, is the documented default in the machine's byte order, is
valid, and is accepted by the type's reader and writer. -/
theorem C38_default {M : Machine} (hM : M.Wf) (t : Ty) (hc : ConstsFit M.usizeLim t) (r : DRes DType)
    (h : t.defaultDType M = some r) :
    ∃ d, r = .ok d ∧ d.Wf ∧ DefaultFor M.bigEndian t d ∧ (∃ p, t.reader M d = .ok p) ∧ (∃ w, t.writer M d = .ok w) := by
  obtain ⟨d, h1, h2, h3, h4⟩ := default_ok hM t r hc h
  have hr := default_canRead _ t d h3
  exact ⟨d, h1, h2, h3, (reader_ok_iff hM t d).mpr ⟨hr, h4⟩, (writer_ok_iff hM t d).mpr ⟨canWrite_of_canRead _ _ hr, h4⟩⟩

example : ∃ r, (Ty.record (.cons ['x'] (.array 3 (.num .f64)) (.cons ['y'] (.arrayString 8) .nil))).defaultDType ⟨true, 32, true⟩ = some r ∧
    ConstsFit (2 ^ 32) (Ty.record (.cons ['x'] (.array 3 (.num .f64)) (.cons ['y'] (.arrayString 8) .nil))) :=
  ⟨_, rfl, ⟨by decide, trivial⟩, by simp [ConstsFit], trivial⟩

/-- C60 fails: the documentation lists the default dtype `VN` for `FixedSizeBytes<N>`, but the type
has none. -/
theorem C60_violated : ∃ (M : Machine) (t : Ty), M.Wf ∧ documentedDefault t ≠ none ∧ t.defaultDType M = none :=
  ⟨⟨false, 64, true⟩, .fixedBytes 4, Or.inr rfl, by simp [documentedDefault], rfl⟩

/-- C60 for all other scalar types: a default exists exactly where the documentation lists one. -/
theorem C60_documented_defaults_partial (M : Machine) (t : Ty) (hs : (∀ n t', t ≠ .array n t') ∧ (∀ fs, t ≠ .record fs))
    (hf : ∀ n, t ≠ .fixedBytes n) : (∃ r, t.defaultDType M = some r) ↔ ∃ x, documentedDefault t = some x := by
  cases t with
  | num p => cases p <;> simp [Ty.defaultDType, documentedDefault]
  | complex f => cases f <;> simp [Ty.defaultDType, documentedDefault]
  | fixedBytes n => exact absurd rfl (hf n)
  | array n t => exact absurd rfl (hs.1 n t)
  | record fs => exact absurd rfl (hs.2 fs)
  | _ => simp [Ty.defaultDType, documentedDefault]

/-- C60_documented_defaults_partial: `f32` has one, `String` has none. -/
example : (∃ r, (Ty.num .f32).defaultDType laptop = some r) ∧ ¬ ∃ r, Ty.string.defaultDType laptop = some r := by
  rw [C60_documented_defaults_partial laptop (.num .f32) ⟨by simp, by simp⟩ (by simp),
    C60_documented_defaults_partial laptop .string ⟨by simp, by simp⟩ (by simp)]
  exact ⟨⟨_, rfl⟩, by simp [documentedDefault]⟩

end Npyz.Props
