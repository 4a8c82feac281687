import Verif.Proofs.Header
/-!
Properties C10–C14: reading headers from arbitrary byte streams.
`NpyHeader.fromReader M py` is `NpyHeader::from_reader` (and the header part of `NpyFile::new`) on
machine `M` with Python-literal parser `py`; `run bs` yields its outcome and the unread bytes.
-/
namespace Npyz.Props
open Spec

/-- `{'descr': '<f8', 'fortran_order': False, 'shape': (2, 3, ), }` as a version 1.0 file, with `data`
following. -/
def exampleFile (data : Bytes) : Bytes :=
  magicBytes ++ [1, 0, 59, 0] ++
    encodeUtf8 "{'descr': '<f8', 'fortran_order': False, 'shape': (2, 3, )}".toList ++ data

def isOkShape (r : Res NpyHeader) (shape : List Nat) : Bool :=
  match r with
  | .ok h => h.shape == shape
  | _ => false

theorem isOkShape_iff {r : Res NpyHeader} {shape : List Nat} : isOkShape r shape = true ↔ ∃ h, r = .ok h ∧ h.shape = shape := by
  cases r <;> simp [isOkShape]

theorem exampleFile_reads : ∃ h, (NpyHeader.fromReader ⟨false, 64, true⟩ Py.parse).run (exampleFile [7, 8, 9]) = (.ok h, [7, 8, 9]) ∧
    h.shape = [2, 3] := by
  obtain ⟨h, hr, hs⟩ := isOkShape_iff.mp (show isOkShape
    ((NpyHeader.fromReader ⟨false, 64, true⟩ Py.parse).run (exampleFile [7, 8, 9])).1 [2, 3] = true by decide +kernel)
  have h2 : ((NpyHeader.fromReader ⟨false, 64, true⟩ Py.parse).run (exampleFile [7, 8, 9])).2 = [7, 8, 9] := by decide +kernel
  exact ⟨h, Prod.ext hr h2, hs⟩

example : isOkShape ((NpyHeader.fromReader ⟨false, 64, true⟩ Py.parse).run (exampleFile [7, 8, 9])).1 [2, 3] = true ∧
    ((NpyHeader.fromReader ⟨false, 64, true⟩ Py.parse).run (exampleFile [7, 8, 9])).2 = [7, 8, 9] ∧
    headerEnd (exampleFile [7, 8, 9]) = 69 := by decide +kernel

/-- C10: a successful header read consumes exactly the preamble and the declared number of bytes. -/
theorem C10_consumes_header (M : Machine) (py : PyParser) (bs rest : Bytes) (h : NpyHeader)
    (hr : (NpyHeader.fromReader M py).run bs = (.ok h, rest)) :
    GoodPreamble bs ∧ headerEnd bs ≤ bs.length ∧ rest = bs.drop (headerEnd bs) := by
  rcases fromReader_cases M py bs with ⟨_, h1⟩ | ⟨_, _, _, _, _, _, h1⟩ | ⟨_, _, _, _, _, _, _, h1⟩ |
    ⟨_, _, _, _, _, _, _, _, _, h1⟩ | ⟨_, _, _, _, _, _, _, _, _, _, h1⟩ |
    ⟨maj, min, p, szb, text, rest', rfl, hp, hw, hs, _, h1⟩
  any_goals (rw [hr] at h1; cases h1; done)
  rw [hr] at h1
  obtain rfl : rest = rest' := (Prod.mk.inj h1).2
  refine ⟨goodPreamble_iff.mpr ⟨maj, min, p, szb ++ text ++ rest, by simp, hp⟩, ?_⟩
  have he : headerEnd (magic ++ [maj, min] ++ szb ++ text ++ rest) = 8 + p.width + leNat szb := by
    have := headerEnd_eq (r := text ++ rest) hp hw
    simpa using this
  rw [he, hs]
  constructor
  · simp [magic, hw]; omega
  · rw [List.drop_left']
    simp [magic, hw]; omega

/-- C10: whatever follows the header neither changes the outcome nor is touched. -/
theorem C10_local (M : Machine) (py : PyParser) (bs rest : Bytes) (h : NpyHeader)
    (hr : (NpyHeader.fromReader M py).run bs = (.ok h, rest)) (rest' : Bytes) :
    (NpyHeader.fromReader M py).run (bs.take (headerEnd bs) ++ rest') = (.ok h, rest') := by
  obtain ⟨_, hle, hrest⟩ := C10_consumes_header M py bs rest h hr
  obtain ⟨used, hu, hl⟩ := RProg.run_ok_local hr
  have : bs.take (headerEnd bs) = used := by
    have e : used.length = headerEnd bs := by
      have h1 := congrArg List.length hu
      have h2 := congrArg List.length hrest
      simp only [List.length_append, List.length_drop] at h1 h2; omega
    generalize headerEnd bs = n at e
    rw [hu]
    exact List.take_left' e
  rw [this]; exact hl rest'

/-- C10_consumes_header, C10_local: the header of `exampleFile` followed by other bytes. -/
example : GoodPreamble (exampleFile [7, 8, 9]) ∧ ∃ h, (NpyHeader.fromReader ⟨false, 64, true⟩ Py.parse).run
    ((exampleFile [7, 8, 9]).take (headerEnd (exampleFile [7, 8, 9])) ++ [5]) = (.ok h, [5]) := by
  obtain ⟨h, hr, -⟩ := exampleFile_reads
  exact ⟨(C10_consumes_header _ _ _ _ h hr).1, h, C10_local _ _ _ _ h hr [5]⟩

/-- C10: the same for failing reads: a complete header has one outcome whatever follows. -/
theorem C10_outcome_local (M : Machine) (py : PyParser) (bs rest' : Bytes) (hg : GoodPreamble bs)
    (hle : headerEnd bs ≤ bs.length) :
    ((NpyHeader.fromReader M py).run (bs.take (headerEnd bs) ++ rest')).1 = ((NpyHeader.fromReader M py).run bs).1 := by
  obtain ⟨maj, min, p, r, rfl, hp⟩ := goodPreamble_iff.mp hg
  have hwid : p.width ≤ r.length := by
    rcases getVersionProps_ok_iff.mp hp with ⟨rfl, rfl, rfl⟩ | ⟨rfl, rfl, rfl⟩ | ⟨rfl, rfl, rfl⟩ <;>
      · simp [headerEnd, byteAt, magic, VersionProps.width] at hle ⊢; omega
  obtain ⟨szb, r2, rfl, hw⟩ : ∃ szb r2, r = szb ++ r2 ∧ szb.length = p.width :=
    ⟨r.take p.width, r.drop p.width, by simp, by simp [hwid]⟩
  have he := headerEnd_eq (r := r2) hp hw
  rw [List.append_assoc _ szb r2] at he
  rw [he] at hle ⊢
  have hlen : leNat szb ≤ r2.length := by simp [magic, hw] at hle; omega
  obtain ⟨text, r3, rfl, ht⟩ : ∃ text r3, r2 = text ++ r3 ∧ text.length = leNat szb :=
    ⟨r2.take (leNat szb), r2.drop (leNat szb), by simp, by simp [hlen]⟩
  have htake : (magic ++ [maj, min] ++ (szb ++ (text ++ r3))).take (8 + p.width + leNat szb)
      = magic ++ [maj, min] ++ szb ++ text := by
    rw [show magic ++ [maj, min] ++ (szb ++ (text ++ r3)) = (magic ++ [maj, min] ++ szb ++ text) ++ r3 by simp]
    exact List.take_left' (by simp [magic, hw, ht]; omega)
  rw [htake]
  by_cases ha : text.length ≤ M.isizeMax
  · have ha' : M.allocBytes text.length = .ok () := if_pos ha
    rw [show magic ++ [maj, min] ++ (szb ++ (text ++ r3)) = (magic ++ [maj, min] ++ szb ++ text) ++ r3 by simp]
    rw [fromReader_run hp hw ht.symm ha', fromReader_run hp hw ht.symm ha']
  · have hpan : ∀ r3, ((NpyHeader.fromReader M py).run (magic ++ [maj, min] ++ szb ++ text ++ r3)).1 = .panic := by
      intro r3
      have hal : M.allocBytes (leNat szb) = .panic := by rw [← ht]; exact if_neg ha
      unfold NpyHeader.fromReader readHeader
      have h1 : readMagicAndVersion.run (magic ++ [maj, min] ++ szb ++ text ++ r3)
          = (.ok (maj, min), szb ++ text ++ r3) := by
        rw [run_readMagic, if_pos (by simp [magic])]
        simp [magic]
      have h2 : (readHeaderSize p).run (szb ++ text ++ r3) = (.ok (leNat szb), text ++ r3) := by
        rw [run_readHeaderSize, if_pos (by simp; omega), List.append_assoc, List.take_left' hw, List.drop_left' hw]
      rw [RProg.run_bind, RProg.run_bind_of_ok h1]
      simp only [hp]
      rw [RProg.run_bind_of_ok (p := RProg.lift _) (RProg.run_lift _ _), RProg.run_bind_of_ok h2, hal]
      rfl
    rw [hpan, show magic ++ [maj, min] ++ (szb ++ (text ++ r3)) = (magic ++ [maj, min] ++ szb ++ text) ++ r3 by simp, hpan]

example : GoodPreamble (exampleFile [1]) ∧ headerEnd (exampleFile [1]) ≤ (exampleFile [1]).length := by
  unfold GoodPreamble; decide +kernel

/-- C11: a stream shorter than the 8 bytes of magic and version, or with other magic bytes, is
rejected as InvalidData. -/
theorem C11_not_npy (M : Machine) (py : PyParser) (bs : Bytes) (h : bs.length < 8 ∨ bs.take 6 ≠ magicBytes) :
    ∃ msg, ((NpyHeader.fromReader M py).run bs).1 = .err (.invalidData msg) := by
  rcases fromReader_cases M py bs with ⟨_, h1⟩ | ⟨_, _, _, rfl, _⟩ | ⟨_, _, _, _, rfl, _⟩ |
    ⟨_, _, _, _, _, rfl, _⟩ | ⟨_, _, _, _, _, rfl, _⟩ | ⟨_, _, _, _, _, _, rfl, _⟩
  · exact ⟨_, h1⟩
  all_goals
    exfalso
    rcases h with h | h
    · simp [magic] at h; omega
    · exact h (by simp [magic, magicBytes])

/-- C11: every version other than 1.0, 2.0 and 3.0 is rejected as InvalidData. -/
theorem C11_unknown_version (M : Machine) (py : PyParser) (bs : Bytes) (h : ¬ GoodPreamble bs) :
    ∃ msg, ((NpyHeader.fromReader M py).run bs).1 = .err (.invalidData msg) := by
  rcases fromReader_cases M py bs with ⟨_, h1⟩ | ⟨_, _, _, rfl, e, he, h1⟩ | ⟨maj, min, p, r, rfl, hp, _⟩ |
    ⟨maj, min, p, szb, r, rfl, hp, _⟩ | ⟨maj, min, p, szb, r, rfl, hp, _⟩ | ⟨maj, min, p, szb, text, r, rfl, hp, _⟩
  · exact ⟨_, h1⟩
  · rw [getVersionProps_err he] at h1; exact ⟨_, h1⟩
  · exact absurd (goodPreamble_iff.mpr ⟨maj, min, p, r, rfl, hp⟩) h
  · exact absurd (goodPreamble_iff.mpr ⟨maj, min, p, szb ++ r, by simp, hp⟩) h
  · exact absurd (goodPreamble_iff.mpr ⟨maj, min, p, szb ++ r, by simp, hp⟩) h
  · exact absurd (goodPreamble_iff.mpr ⟨maj, min, p, szb ++ text ++ r, by simp, hp⟩) h

/-- C11_not_npy, C11_unknown_version: too short, and version 4.0. -/
example : (∃ msg, ((NpyHeader.fromReader ⟨false, 64, true⟩ Py.parse).run [0x93, 0x4e]).1 = .err (.invalidData msg)) ∧
    ∃ msg, ((NpyHeader.fromReader ⟨false, 64, true⟩ Py.parse).run (magicBytes ++ [4, 0, 0, 0, 0, 0])).1 = .err (.invalidData msg) :=
  ⟨C11_not_npy _ _ _ (.inl (by decide)), C11_unknown_version _ _ _ (by unfold GoodPreamble; decide)⟩

/-- C11: a stream with a good preamble that ends before the declared end of the header is rejected
with UnexpectedEof (as long as the declared length is one the machine can allocate). -/
theorem C11_truncated_header (M : Machine) (py : PyParser) (bs : Bytes) (h : GoodPreamble bs)
    (hlt : bs.length < headerEnd bs) (hm : headerEnd bs ≤ M.isizeMax) :
    ((NpyHeader.fromReader M py).run bs).1 = .err .unexpectedEof := by
  rcases fromReader_cases M py bs with ⟨h0, h1⟩ | ⟨maj, min, r, rfl, e, he, h1⟩ | ⟨maj, min, p, r, rfl, hp, _, h1⟩ |
    ⟨maj, min, p, szb, r, rfl, hp, hw, ha, h1⟩ | ⟨maj, min, p, szb, r, rfl, hp, _, _, _, h1⟩ |
    ⟨maj, min, p, szb, text, r, rfl, hp, hw, hs, _⟩
  · obtain ⟨a, b, p, r, rfl, hp⟩ := goodPreamble_iff.mp h
    exfalso
    rcases h0 with h0 | h0
    · simp [magic] at h0; omega
    · exact h0 (by simp [magic])
  · obtain ⟨a, b, p, r', e', hp⟩ := goodPreamble_iff.mp h
    simp [magic] at e'
    obtain ⟨rfl, rfl, _⟩ := e'
    rw [hp] at he; cases he
  · exact h1
  · exfalso
    rw [headerEnd_eq hp hw] at hm
    rw [Machine.allocBytes, if_pos (by omega)] at ha
    cases ha
  · exact h1
  · exfalso
    have he := headerEnd_eq (r := text ++ r) hp hw
    rw [← List.append_assoc] at he
    rw [he, hs] at hlt
    simp [magic, hw] at hlt
    omega

example : ¬ GoodPreamble (magicBytes ++ [4, 0, 0, 0, 0, 0]) := by unfold GoodPreamble; decide
example : GoodPreamble ((exampleFile []).take 40) ∧ ((exampleFile []).take 40).length < headerEnd ((exampleFile []).take 40) := by
  unfold GoodPreamble; decide +kernel

/-- C12: what a header dictionary must contain to be accepted, and what is read from it. -/
theorem C12_accepted_iff (M : Machine) (kvs : List (PyVal × PyVal)) (h : NpyHeader) :
    interpretHeader M (.dict kvs) = .ok h ↔
      StringKeys kvs ∧ ∃ (fortran : Bool) (vshape vdescr : PyVal) (shape : List Nat) (d : DType),
        LastEntry "fortran_order" (.bool fortran) kvs ∧ LastEntry "shape" vshape kvs ∧ LastEntry "descr" vdescr kvs ∧
        convertShape vshape = .ok shape ∧ DType.fromDescr vdescr = .ok d ∧
        NpyHeader.fromParts M d shape (if fortran then .fortran else .c) = .ok h :=
  interpretHeader_ok_iff

/-- C12: the outcome (a header, an error or a panic) depends only on the values of the three keys. -/
theorem C12_only_three_keys (M : Machine) (kvs kvs' : List (PyVal × PyVal)) (hs : StringKeys kvs) (hs' : StringKeys kvs')
    (h : ∀ k ∈ ["fortran_order", "shape", "descr"], ∀ v, LastEntry k v kvs ↔ LastEntry k v kvs') :
    interpretHeader M (.dict kvs) = interpretHeader M (.dict kvs') :=
  interpretHeader_congr ⟨fun _ => hs', fun _ => hs⟩ h

/-- C12: reordering the entries of a dictionary with distinct keys changes nothing. -/
theorem C12_permutation (M : Machine) (kvs kvs' : List (PyVal × PyVal)) (hp : kvs.Perm kvs') (hd : DistinctKeys kvs) :
    interpretHeader M (.dict kvs) = interpretHeader M (.dict kvs') := by
  have hd' : DistinctKeys kvs' := (hp.map Prod.fst).nodup_iff.mp hd
  refine interpretHeader_congr ?_ fun k _ v => ⟨lastEntry_perm hp hd k v, lastEntry_perm hp.symm hd' k v⟩
  exact ⟨fun h x hx => h x (hp.mem_iff.mpr hx), fun h x hx => h x (hp.mem_iff.mp hx)⟩

/-- C12: a missing entry, an entry of the wrong type, a key that is not a string, or a header that is
not a dictionary is never accepted. -/
theorem C12_rejected (M : Machine) (kvs : List (PyVal × PyVal))
    (h : ¬ StringKeys kvs ∨ (∃ k ∈ ["fortran_order", "shape", "descr"], ∀ v, ¬ LastEntry k v kvs) ∨
      (∃ v, LastEntry "fortran_order" v kvs ∧ ∀ b, v ≠ .bool b)) :
    ∃ msg, interpretHeader M (.dict kvs) = .err (.invalidData msg) := by
  by_cases hs : StringKeys kvs
  · obtain ⟨d, hd⟩ := stringKeys_ok_iff.mpr hs
    have hnone : ∀ k : String, (∀ v, ¬ LastEntry k v kvs) → expectKey d (txt k) = .err (.invalidData "dict is missing key") := by
      intro k hk
      unfold expectKey
      cases hl : lookupLast (txt k) d with
      | none => rfl
      | some v => exact absurd ((lastEntry_lookup hd k v).mp hl) (hk v)
    have hget : ∀ k : String, expectKey d (txt k) = .err (.invalidData "dict is missing key") ∨
        ∃ v, expectKey d (txt k) = .ok v := by
      intro k
      unfold expectKey
      cases lookupLast (txt k) d with
      | none => exact .inl rfl
      | some v => exact .inr ⟨v, rfl⟩
    have hord : ∀ v, (∃ msg, orderFromVal v = .err (.invalidData msg)) ∨ ∃ o, orderFromVal v = .ok o := by
      intro v; cases v <;> simp [orderFromVal]
    have hint : ∀ v, (∃ msg, shapeInteger v = .err (.invalidData msg)) ∨ ∃ o, shapeInteger v = .ok o := by
      intro v
      cases v with
      | int k => simp only [shapeInteger]; split <;> (try split) <;> simp
      | _ => simp [shapeInteger]
    have hints : ∀ vs, (∃ msg, shapeIntegers vs = .err (.invalidData msg)) ∨ ∃ o, shapeIntegers vs = .ok o := by
      intro vs
      induction vs with
      | nil => simp [shapeIntegers]
      | cons v vs ih =>
        simp only [shapeIntegers]
        rcases hint v with ⟨m, hm⟩ | ⟨o, ho⟩
        · simp [hm]
        · rcases ih with ⟨m, hm⟩ | ⟨o', ho'⟩
          · simp [ho, hm]
          · simp [ho, ho']
    have hshape : ∀ v, (∃ msg, convertShape v = .err (.invalidData msg)) ∨ ∃ o, convertShape v = .ok o := by
      intro v
      cases v with
      | tuple vs => exact hints vs
      | list vs => exact hints vs
      | _ => simp [convertShape]
    simp only [interpretHeader, hd, Out.bind_ok, interpretDict]
    rcases h with h | ⟨k, hk, hn⟩ | ⟨v, hv, hb⟩
    · exact absurd hs h
    · rcases hget "fortran_order" with hf | ⟨fo, hf⟩
      · simp [hf]
      simp only [hf, Out.bind_ok]
      rcases hord fo with ⟨m, hm⟩ | ⟨o, ho⟩
      · simp [hm]
      simp only [ho, Out.bind_ok]
      rcases hget "shape" with hf2 | ⟨sh, hf2⟩
      · simp [hf2]
      simp only [hf2, Out.bind_ok]
      rcases hshape sh with ⟨m, hm⟩ | ⟨shape, hsh⟩
      · simp [hm]
      simp only [hsh, Out.bind_ok]
      have := hnone k hn
      simp only [List.mem_cons, List.not_mem_nil, or_false] at hk
      rcases hk with rfl | rfl | rfl
      · rw [hf] at this; cases this
      · rw [hf2] at this; cases this
      · simp [this]
    · have he : expectKey d (txt "fortran_order") = .ok v := by
        unfold expectKey
        have := (lastEntry_lookup hd "fortran_order" v).mpr hv
        simp only [txt] at this ⊢
        rw [this]
      rw [he]
      cases v with
      | bool b => exact absurd rfl (hb b)
      | _ => exact ⟨_, rfl⟩
  · simp [interpretHeader, stringKeys_err hs]

/-- C12: a header that is not a dictionary is rejected. -/
theorem C12_not_dict (M : Machine) (v : PyVal) (h : ∀ kvs, v ≠ .dict kvs) :
    ∃ msg, interpretHeader M v = .err (.invalidData msg) := by
  cases v with
  | dict kvs => exact absurd rfl (h kvs)
  | _ => exact ⟨_, rfl⟩

/-- A dictionary with a duplicate key, an extra key and distinct ones. -/
def exampleDict : List (PyVal × PyVal) :=
  [(.str "shape".toList, .tuple [.int 3]), (.str "extra".toList, .none), (.str "descr".toList, .str "<f4".toList),
   (.str "fortran_order".toList, .bool true), (.str "shape".toList, .list [.int 2, .int 5])]

/-- C12_accepted_iff: `<f4`, Fortran order, shape (2, 5). -/
example : ∃ h, interpretHeader ⟨false, 64, true⟩ (.dict exampleDict) = .ok h ∧ h.shape = [2, 5] ∧ h.order = .fortran := by
  obtain ⟨h, hp, -⟩ := isOkShape_iff.mp (show isOkShape
    (NpyHeader.fromParts ⟨false, 64, true⟩ (.plain ⟨.little, .float, 4, none⟩) [2, 5] .fortran) [2, 5] = true by decide +kernel)
  refine ⟨h, (C12_accepted_iff _ exampleDict h).mpr ⟨by simp [StringKeys, exampleDict], true, .list [.int 2, .int 5], .str "<f4".toList,
      [2, 5], .plain ⟨.little, .float, 4, none⟩, ⟨exampleDict.take 3, exampleDict.drop 4, rfl, by simp [exampleDict]⟩,
      ⟨exampleDict.take 4, [], rfl, by simp⟩, ⟨exampleDict.take 2, exampleDict.drop 3, rfl, by simp [exampleDict]⟩, rfl, ?_, hp⟩, ?_, ?_⟩
  · exact (show DType.fromDescr (.str "<f4".toList) = _ by rfl)
  · exact (fromParts_ok hp).2.1
  · exact (fromParts_ok hp).2.2.1

/-- C12_only_three_keys: the first `shape` and the extra key do not count. -/
example : interpretHeader ⟨false, 64, true⟩ (.dict exampleDict) = interpretHeader ⟨false, 64, true⟩ (.dict (exampleDict.drop 2)) := by
  refine C12_only_three_keys _ _ _ (by simp [StringKeys, exampleDict]) (by simp [StringKeys, exampleDict]) fun k hk v => ?_
  constructor
  · rintro ⟨pre, post, h, hn⟩
    match pre, h with
    | [], h =>
      refine absurd ?_ (hn (.list [.int 2, .int 5]))
      simp only [exampleDict, List.nil_append, List.cons.injEq, Prod.mk.injEq, PyVal.str.injEq] at h
      rw [← h.1.1, ← h.2]
      simp
    | [_], h =>
      simp only [exampleDict, List.cons_append, List.nil_append, List.cons.injEq, Prod.mk.injEq, PyVal.str.injEq] at h
      simp only [List.mem_cons, List.not_mem_nil, or_false] at hk
      rcases hk with rfl | rfl | rfl <;> exact absurd h.2.1.1 (by decide)
    | _ :: _ :: pre, h => exact ⟨pre, post, by simp only [exampleDict, List.cons_append, List.cons.injEq] at h; exact h.2.2, hn⟩
  · rintro ⟨pre, post, h, hn⟩
    exact ⟨exampleDict.take 2 ++ pre, post, by rw [List.append_assoc, ← h, List.take_append_drop], hn⟩

/-- C12_permutation: another order of distinct keys. -/
example : interpretHeader ⟨false, 64, true⟩ (.dict exampleDict.tail) = interpretHeader ⟨false, 64, true⟩ (.dict exampleDict.tail.reverse) :=
  C12_permutation _ _ _ (List.reverse_perm _).symm (by simp [DistinctKeys, exampleDict])

/-- C12_rejected: a number as key; no `descr`; `fortran_order` not a boolean. -/
example : (∃ msg, interpretHeader ⟨false, 64, true⟩ (.dict ((.int 1, .none) :: exampleDict)) = .err (.invalidData msg)) ∧
    (∃ msg, interpretHeader ⟨false, 64, true⟩ (.dict (exampleDict.take 2)) = .err (.invalidData msg)) ∧
    ∃ msg, interpretHeader ⟨false, 64, true⟩ (.dict (exampleDict ++ [(.str "fortran_order".toList, .int 1)])) = .err (.invalidData msg) := by
  refine ⟨C12_rejected _ _ (.inl (by simp [StringKeys])), C12_rejected _ _ (.inr (.inl ⟨"descr", by simp, ?_⟩)),
    C12_rejected _ _ (.inr (.inr ⟨.int 1, ⟨exampleDict, [], rfl, by simp⟩, by simp⟩))⟩
  rintro v ⟨pre, post, h, -⟩
  have : (.str "descr".toList, v) ∈ exampleDict.take 2 := by rw [h]; simp
  simp [exampleDict] at this

example : StringKeys exampleDict ∧ LastEntry "shape" (.list [.int 2, .int 5]) exampleDict ∧
    isOkShape (interpretHeader ⟨false, 64, true⟩ (.dict exampleDict)) [2, 5] = true := by
  refine ⟨by simp [StringKeys, exampleDict], ⟨exampleDict.take 4, [], rfl, by simp⟩, by decide +kernel⟩

example : DistinctKeys exampleDict.tail ∧
    isOkShape (interpretHeader ⟨false, 64, true⟩ (.dict exampleDict.tail.reverse)) [2, 5] = true := by
  refine ⟨?_, by decide +kernel⟩
  simp [DistinctKeys, exampleDict]

/-- C13: a shape is accepted exactly if it is a tuple or list of integers in `0 .. 2^64 - 1`, and the
dimensions are those integers in order. -/
theorem C13_shape_exact (v : PyVal) (dims : List Nat) : convertShape v = .ok dims ↔
    (v = .tuple (dims.map fun n : Nat => PyVal.int n) ∨ v = .list (dims.map fun n : Nat => PyVal.int n)) ∧
      ∀ n ∈ dims, n < 2 ^ 64 :=
  convertShape_ok_iff

/-- C13: every other shape value is an error, never a panic. -/
theorem C13_shape_rejected (v : PyVal)
    (h : ∀ dims : List Nat, (v = .tuple (dims.map fun n : Nat => PyVal.int n) ∨ v = .list (dims.map fun n : Nat => PyVal.int n)) →
      ∃ n ∈ dims, 2 ^ 64 ≤ n) : ∃ e, convertShape v = .err e := by
  cases hc : convertShape v with
  | panic => exact absurd hc convertShape_ne_panic
  | err e => exact ⟨e, rfl⟩
  | ok dims =>
    obtain ⟨h1, h2⟩ := convertShape_ok_iff.mp hc
    obtain ⟨n, hn, hle⟩ := h dims h1
    exact absurd (h2 n hn) (by omega)

/-- C13: the shape of the header that is read is the shape entry of the dictionary. -/
theorem C13_header_shape (M : Machine) (kvs : List (PyVal × PyVal)) (h : NpyHeader)
    (hr : interpretHeader M (.dict kvs) = .ok h) :
    (LastEntry "shape" (.tuple (h.shape.map fun n : Nat => PyVal.int n)) kvs ∨
      LastEntry "shape" (.list (h.shape.map fun n : Nat => PyVal.int n)) kvs) ∧ ∀ n ∈ h.shape, n < 2 ^ 64 := by
  obtain ⟨_, b, vs, vd, shape, d, _, h2, _, h4, _, h6⟩ := interpretHeader_ok_iff.mp hr
  obtain ⟨_, hs, _⟩ := fromParts_ok h6
  subst hs
  obtain ⟨h7, h8⟩ := convertShape_ok_iff.mp h4
  refine ⟨?_, h8⟩
  rcases h7 with rfl | rfl
  · exact .inl h2
  · exact .inr h2

/-- C13_shape_rejected: a negative dimension; a dimension of `2^64`. -/
example : (∃ e, convertShape (.list [.int 3, .int (-1)]) = .err e) ∧ ∃ e, convertShape (.tuple [.int (2 ^ 64)]) = .err e := by
  constructor
  · refine C13_shape_rejected _ fun dims h => ?_
    rcases h with h | h
    · cases h
    · match dims with
      | [] => simp at h
      | [_] => simp at h
      | [_, y] => simp at h
      | _ :: _ :: _ :: _ => simp at h
  · refine C13_shape_rejected _ fun dims h => ?_
    rcases h with h | h
    · match dims with
      | [] => simp at h
      | [x] => simp at h; exact ⟨x, by simp, by omega⟩
      | _ :: _ :: _ => simp at h
    · cases h

example : convertShape (.tuple [.int 3, .int (2 ^ 64 - 1), .int 0]) = .ok [3, 2 ^ 64 - 1, 0] ∧
    (∃ e, convertShape (.list [.int 3, .int (-1)]) = .err e) ∧ (∃ e, convertShape (.list [.int (2 ^ 64)]) = .err e) ∧
    (∃ e, convertShape (.int 3) = .err e) := by
  refine ⟨by decide +kernel, ⟨_, rfl⟩, ⟨_, rfl⟩, ⟨_, rfl⟩⟩

/-! C14.  The property is false of this code: three ways to make it panic. -/

/-- A version 1.0 header with shape `(4294967296, 4294967296, )`. -/
def overflowFile : Bytes :=
  magicBytes ++ [1, 0, 77, 0] ++
    encodeUtf8 "{'descr': '<f8', 'fortran_order': False, 'shape': (4294967296, 4294967296, )}".toList

/-- The same with an empty array: the true number of elements is 0. -/
def overflowEmptyFile : Bytes :=
  magicBytes ++ [1, 0, 80, 0] ++
    encodeUtf8 "{'descr': '<f8', 'fortran_order': False, 'shape': (4294967296, 4294967296, 0, )}".toList

def isPanic (r : Res NpyHeader) : Bool := match r with | .panic => true | _ => false

/-- C14 is violated: with overflow checks, reading a header whose dimensions multiply to `2^64` or
more panics; so does one whose number of elements is 0; and on a 32-bit machine a version 2.0 file
that declares a header of `2^31` bytes panics even without overflow checks. -/
theorem C14_violated :
    isPanic ((NpyHeader.fromReader ⟨false, 64, true⟩ Py.parse).run overflowFile).1 = true ∧
    isPanic ((NpyHeader.fromReader ⟨false, 64, true⟩ Py.parse).run overflowEmptyFile).1 = true ∧
    isPanic ((NpyHeader.fromReader ⟨false, 32, false⟩ Py.parse).run (magicBytes ++ [2, 0, 0, 0, 0, 128])).1 = true := by
  decide +kernel

theorem leNat_lt (szb : Bytes) : leNat szb < 256 ^ szb.length := by
  induction szb with
  | nil => simp [leNat]
  | cons b bs ih =>
    simp only [leNat, List.length_cons, Nat.pow_succ]
    have := b.toNat_lt
    omega

/-- C14, the part that holds: without overflow checks, on a 64-bit machine, no byte stream makes the
header reader panic, whatever the literal parser returns. -/
theorem C14_never_panics_partial (M : Machine) (h64 : M.usizeBits = 64) (hrel : M.overflowChecks = false)
    (py : PyParser) (bs : Bytes) : ((NpyHeader.fromReader M py).run bs).1 ≠ .panic := by
  have hal : ∀ szb : Bytes, szb.length ≤ 4 → M.allocBytes (leNat szb) = .ok () := by
    intro szb hl
    rw [Machine.allocBytes, if_pos]
    have h1 := leNat_lt szb
    have h2 : 256 ^ szb.length ≤ 256 ^ 4 := Nat.pow_le_pow_right (by omega) hl
    simp only [Machine.isizeMax, h64]
    omega
  rcases fromReader_cases M py bs with ⟨h0, h1⟩ | ⟨maj, min, r, _, e, he, h1⟩ | ⟨maj, min, p, r, _, hp, _, h1⟩ |
    ⟨maj, min, p, szb, r, _, hp, hw, ha, h1⟩ | ⟨maj, min, p, szb, r, _, hp, _, _, _, h1⟩ |
    ⟨maj, min, p, szb, text, r, _, hp, hw, hs, _, h1⟩
  · simp [h1]
  · simp [h1]
  · simp [h1]
  · rw [hal szb (by rw [hw]; rcases p with ⟨_ | _, _⟩ <;> simp [VersionProps.width])] at ha
    cases ha
  · simp [h1]
  · rw [h1]
    simp only [finishHeader]
    refine Out.bind_ne_panic parseHeaderText_ne_panic fun v _ hpan => ?_
    obtain ⟨_, _, _, _, _, _, _, _, h⟩ := interpretHeader_panic hpan
    exact fromParts_release hrel _ _ _ h

/-- C14, with overflow checks or on 32-bit machines: a panic needs a shape whose nonzero
dimensions multiply to `2^64` or more, or a declared header length above `isize::MAX`. -/
theorem C14_panic_causes_partial (M : Machine) (py : PyParser) (bs : Bytes)
    (h : ((NpyHeader.fromReader M py).run bs).1 = .panic) :
    M.isizeMax < headerEnd bs ∨
    ∃ text kvs vs dims, encodeUtf8 text <:+: bs ∧ py text = some (.dict kvs) ∧ LastEntry "shape" vs kvs ∧ convertShape vs = .ok dims ∧
      2 ^ 64 ≤ nonzeroProd dims := by
  rcases fromReader_cases M py bs with ⟨h0, h1⟩ | ⟨maj, min, r, _, e, he, h1⟩ | ⟨maj, min, p, r, _, hp, _, h1⟩ |
    ⟨maj, min, p, szb, r, rfl, hp, hw, ha, h1⟩ | ⟨maj, min, p, szb, r, _, hp, _, _, _, h1⟩ |
    ⟨maj, min, p, szb, text, r, hbs, hp, hw, hs, _, h1⟩
  · simp [h1] at h
  · simp [h1] at h
  · simp [h1] at h
  · left
    rw [headerEnd_eq hp hw]
    unfold Machine.allocBytes at ha
    split at ha
    · cases ha
    · omega
  · simp [h1] at h
  · right
    rw [h1] at h
    simp only [finishHeader] at h
    cases hpt : parseHeaderText py text with
    | panic => exact absurd hpt parseHeaderText_ne_panic
    | err e => simp [hpt] at h
    | ok v =>
      simp only [hpt, Out.bind_ok] at h
      obtain ⟨kvs, dims, vs, rfl, h2, h3, d, o, h4⟩ := interpretHeader_panic h
      unfold parseHeaderText at hpt
      split at hpt
      · cases hpt
      · rename_i s hdec
        refine ⟨s, kvs, vs, dims, ?_, ?_, h2, h3, ?_⟩
        · rw [← (decodeUtf8_eq_some_iff _ _).mp hdec]
          obtain ⟨q, hq⟩ : stripNewline text <+: text := by
            unfold stripNewline
            split
            · exact List.dropLast_prefix _
            · exact List.prefix_rfl
          exact ⟨magic ++ [maj, min] ++ szb, q ++ r, by
            rw [hbs]; simp only [List.append_assoc]; rw [← List.append_assoc (stripNewline text), hq]⟩
        · unfold parseResult at hpt
          split at hpt
          · cases hpt
          · cases hpt; assumption
        · exact Nat.le_of_not_lt fun hlt => fromParts_exact d o hlt h4

/-- C14_never_panics_partial, C14_panic_causes_partial: without overflow checks `overflowFile` is no
problem; with them, its shape is the cause of the panic. -/
example : ((NpyHeader.fromReader ⟨false, 64, false⟩ Py.parse).run overflowFile).1 ≠ .panic ∧
    (Machine.isizeMax ⟨false, 64, true⟩ < headerEnd overflowFile ∨
      ∃ text kvs vs dims, encodeUtf8 text <:+: overflowFile ∧ Py.parse text = some (.dict kvs) ∧ LastEntry "shape" vs kvs ∧
        convertShape vs = .ok dims ∧ 2 ^ 64 ≤ nonzeroProd dims) := by
  refine ⟨C14_never_panics_partial _ rfl rfl _ _, C14_panic_causes_partial _ _ _ ?_⟩
  have h := C14_violated.1
  revert h
  cases ((NpyHeader.fromReader ⟨false, 64, true⟩ Py.parse).run overflowFile).1 <;> simp [isPanic]

/-- C59: an accepted header has the exact size of its items, as a mathematical number, unless the
dtype contains Objects, when there is none. -/
theorem C59_item_size_exact (M : Machine) (py : PyParser) (bs rest : Bytes) (h : NpyHeader)
    (hr : (NpyHeader.fromReader M py).run bs = (.ok h, rest)) :
    (HasObject h.dtype ∧ h.itemSize = none) ∨
    (¬ HasObject h.dtype ∧ ∃ n, exactBytes h.dtype = some n ∧ h.itemSize = some n) := by
  obtain ⟨v, r, h1, h2⟩ := RProg.run_bind_ok.mp hr
  cases v with
  | dict kvs =>
    simp only [RProg.run_lift, Prod.mk.injEq] at h2
    obtain ⟨_, b, vs, vd, shape, d, _, _, _, _, _, h6⟩ := interpretHeader_ok_iff.mp h2.1
    obtain ⟨rfl, _, _, _, _, h7, _⟩ := fromParts_ok h6
    rcases itemSizeOf_ok_iff.mp h7 with h | ⟨h, _, h'⟩
    · exact .inl h
    · exact .inr ⟨h, h'⟩
  | _ => simp [interpretHeader] at h2

/-- C59_item_size_exact: `exampleFile`. -/
example : ∃ h, (NpyHeader.fromReader ⟨false, 64, true⟩ Py.parse).run (exampleFile [7, 8, 9]) = (.ok h, [7, 8, 9]) ∧
    ((HasObject h.dtype ∧ h.itemSize = none) ∨ (¬ HasObject h.dtype ∧ ∃ n, exactBytes h.dtype = some n ∧ h.itemSize = some n)) := by
  obtain ⟨h, hr, -⟩ := exampleFile_reads
  exact ⟨h, hr, C59_item_size_exact _ _ _ _ h hr⟩

/-- C59: dtypes without Objects whose size does not fit `usize` are refused with InvalidData. -/
theorem C59_oversized_refused (M : Machine) (d : DType) (dims : List Nat) (o : Order) (ho : ¬ HasObject d)
    (hf : ¬ AllFit M.usizeLim d) (hlt : nonzeroProd dims < 2 ^ 64) :
    ∃ msg, NpyHeader.fromParts M d dims o = .err (.invalidData msg) := by
  have hn : d.numBytes M = none := by
    cases hn : d.numBytes M with
    | none => rfl
    | some n => exact absurd ((numBytes_eq_some d M n).mp hn).2 hf
  have : itemSizeOf M d = .err (.invalidData "dtype is larger than usize!") := by
    unfold itemSizeOf
    rw [if_neg (fun h' => ho ((usesPickled_iff d).mp h')), hn]
  exact ⟨"dtype is larger than usize!", by
    simp only [NpyHeader.fromParts, shapeProduct_exact (acc := 1) (by simpa using hlt), Out.bind_ok, this, Out.bind_err]⟩

example : ¬ HasObject (.plain ⟨.irrelevant, .byteStr, 2 ^ 32, none⟩) ∧
    ¬ AllFit (Machine.usizeLim ⟨false, 32, true⟩) (.plain ⟨.irrelevant, .byteStr, 2 ^ 32, none⟩) := by
  constructor
  · rw [← usesPickled_iff]; decide
  · intro h; exact absurd ((numBytes_eq_some _ ⟨false, 32, true⟩ (2 ^ 32)).mpr ⟨by decide, h⟩) (by decide)

end Npyz.Props
