import Verif.Spec.Header
import Verif.Proofs.IO
import Verif.Proofs.Descr
import Verif.Proofs.DTypeSize
import Verif.Proofs.Shape
/-! Reading headers. -/
namespace Npyz
open Spec

/-- Width of the length field. -/
def VersionProps.width (p : VersionProps) : Nat := match p.sizeType with | .u16 => 2 | .u32 => 4

theorem bytesBeforeText_eq (p : VersionProps) : p.bytesBeforeText = 8 + p.width := by
  rcases p with ⟨_ | _, _⟩ <;> rfl

theorem run_readHeaderSize (p : VersionProps) (bs : Bytes) : (readHeaderSize p).run bs =
    if p.width ≤ bs.length then (.ok (leNat (bs.take p.width)), bs.drop p.width) else (.err .unexpectedEof, []) := by
  unfold readHeaderSize
  rw [RProg.run_bind, RProg.run_readExact]
  show RProg.andThen (if p.width ≤ _ then _ else _) _ = _
  split <;> rfl

theorem run_readMagic (bs : Bytes) : readMagicAndVersion.run bs =
    if 8 ≤ bs.length then
      (if (bs.take 8).take 6 = magic then .ok ((bs.take 8).getD 6 0, (bs.take 8).getD 7 0) else .err magicErr, bs.drop 8)
    else (.err magicErr, []) := by
  simp only [readMagicAndVersion, RProg.run]
  split
  · split <;> rfl
  · rfl

/-- Outcome of reading a complete header text. -/
def finishHeader (M : Machine) (py : PyParser) (text : Bytes) : Res NpyHeader := do
  let v ← parseHeaderText py text
  interpretHeader M v

theorem magic_length : magic.length = 6 := rfl

theorem fromReader_run {M : Machine} {py : PyParser} {maj min : UInt8} {p : VersionProps} {szb text rest : Bytes}
    (hp : getVersionProps maj min = .ok p) (hw : szb.length = p.width) (hs : leNat szb = text.length)
    (ha : M.allocBytes text.length = .ok ()) :
    (NpyHeader.fromReader M py).run (magic ++ [maj, min] ++ szb ++ text ++ rest)
      = (finishHeader M py text, rest) := by
  unfold NpyHeader.fromReader readHeader
  have h1 : readMagicAndVersion.run (magic ++ [maj, min] ++ szb ++ text ++ rest)
      = (.ok (maj, min), szb ++ text ++ rest) := by
    rw [run_readMagic, if_pos (by simp [magic])]
    simp [magic]
  have h2 : (readHeaderSize p).run (szb ++ text ++ rest) = (.ok text.length, text ++ rest) := by
    rw [run_readHeaderSize, if_pos (by simp; omega), List.append_assoc, List.take_left' hw, List.drop_left' hw, hs]
  rw [RProg.run_bind]
  rw [RProg.run_bind_of_ok h1]
  simp only [hp]
  rw [RProg.run_bind_of_ok (p := RProg.lift _) (RProg.run_lift _ _), RProg.run_bind_of_ok h2]
  rw [ha]
  rw [RProg.run_bind_of_ok (p := RProg.lift _) (RProg.run_lift _ _)]
  have h3 : (RProg.readExact text.length).run (text ++ rest) = (.ok text, rest) := by
    rw [RProg.run_readExact, if_pos (by simp), List.take_left, List.drop_left]
  rw [RProg.run_bind_of_ok h3, RProg.run_lift]
  unfold finishHeader
  cases parseHeaderText py text <;> rfl

/-- Everything there is to know about a run of the header reader. -/
theorem fromReader_cases (M : Machine) (py : PyParser) (bs : Bytes) :
    ((bs.length < 8 ∨ bs.take 6 ≠ magic) ∧
      ((NpyHeader.fromReader M py).run bs).1 = .err magicErr) ∨
    (∃ maj min r, bs = magic ++ [maj, min] ++ r ∧ ∃ e, getVersionProps maj min = .err e ∧
      ((NpyHeader.fromReader M py).run bs).1 = .err e) ∨
    (∃ maj min p r, bs = magic ++ [maj, min] ++ r ∧ getVersionProps maj min = .ok p ∧ r.length < p.width ∧
      ((NpyHeader.fromReader M py).run bs).1 = .err .unexpectedEof) ∨
    (∃ maj min p szb r, bs = magic ++ [maj, min] ++ szb ++ r ∧ getVersionProps maj min = .ok p ∧
      szb.length = p.width ∧ M.allocBytes (leNat szb) = .panic ∧
      ((NpyHeader.fromReader M py).run bs).1 = .panic) ∨
    (∃ maj min p szb r, bs = magic ++ [maj, min] ++ szb ++ r ∧ getVersionProps maj min = .ok p ∧
      szb.length = p.width ∧ M.allocBytes (leNat szb) = .ok () ∧ r.length < leNat szb ∧
      ((NpyHeader.fromReader M py).run bs).1 = .err .unexpectedEof) ∨
    (∃ maj min p szb text rest, bs = magic ++ [maj, min] ++ szb ++ text ++ rest ∧ getVersionProps maj min = .ok p ∧
      szb.length = p.width ∧ leNat szb = text.length ∧ M.allocBytes text.length = .ok () ∧
      (NpyHeader.fromReader M py).run bs = (finishHeader M py text, rest)) := by
  by_cases hm : 8 ≤ bs.length ∧ bs.take 6 = magic
  · obtain ⟨hl, hmag⟩ := hm
    right
    obtain ⟨maj, min, r, rfl⟩ : ∃ maj min r, bs = magic ++ [maj, min] ++ r := by
      have h6 : (bs.drop 6).length ≥ 2 := by simp; omega
      match hd : bs.drop 6 with
      | [] => simp [hd] at h6
      | [_] => simp [hd] at h6
      | a :: b :: r =>
        refine ⟨a, b, r, ?_⟩
        rw [← List.take_append_drop 6 bs, hmag, hd]; simp
    have h1 : readMagicAndVersion.run (magic ++ [maj, min] ++ r) = (.ok (maj, min), r) := by
      rw [run_readMagic, if_pos hl]
      simp [magic]
    have hrun : (NpyHeader.fromReader M py).run (magic ++ [maj, min] ++ r) =
        RProg.andThen ((RProg.lift (getVersionProps maj min) >>= fun p => readHeaderSize p >>= fun size =>
          RProg.lift (M.allocBytes size) >>= fun _ => RProg.readExact size >>= fun text =>
          RProg.lift (parseHeaderText py text)).run r) (fun v => RProg.lift (interpretHeader M v)) := by
      unfold NpyHeader.fromReader readHeader
      rw [RProg.run_bind, RProg.run_bind_of_ok h1]
    cases hp : getVersionProps maj min with
    | panic =>
      unfold getVersionProps at hp
      repeat' split at hp
      all_goals cases hp
    | err e =>
      refine .inl ⟨maj, min, r, rfl, e, hp, ?_⟩
      rw [hrun, hp, RProg.run_bind_of_err (p := RProg.lift _) (RProg.run_lift _ _)]
      rfl
    | ok p =>
      right
      rw [hp, RProg.run_bind_of_ok (p := RProg.lift _) (RProg.run_lift _ _), RProg.run_bind, run_readHeaderSize] at hrun
      by_cases hw : p.width ≤ r.length
      · right
        rw [if_pos hw] at hrun
        generalize hszb : r.take p.width = szb at hrun
        generalize hr' : r.drop p.width = r' at hrun
        have hr : r = szb ++ r' := by rw [← hszb, ← hr', List.take_append_drop]
        have hszl : szb.length = p.width := by rw [← hszb]; simp [hw]
        subst hr
        simp only [RProg.andThen] at hrun
        cases ha : M.allocBytes (leNat szb) with
        | err e => unfold Machine.allocBytes at ha; split at ha <;> cases ha
        | panic =>
          refine .inl ⟨maj, min, p, szb, r', by simp, hp, hszl, ha, ?_⟩
          rw [hrun, ha]; rfl
        | ok u =>
          right
          cases u
          by_cases hlen : leNat szb ≤ r'.length
          · right
            have hs : leNat szb = (r'.take (leNat szb)).length := by simp [hlen]
            have e : magic ++ [maj, min] ++ (szb ++ r')
                = magic ++ [maj, min] ++ szb ++ r'.take (leNat szb) ++ r'.drop (leNat szb) := by
              simp [List.append_assoc]
            refine ⟨maj, min, p, szb, r'.take (leNat szb), r'.drop (leNat szb), e, hp, hszl, hs, by rw [← hs]; exact ha, ?_⟩
            rw [e]
            exact fromReader_run hp hszl hs (by rw [← hs]; exact ha)
          · refine .inl ⟨maj, min, p, szb, r', by simp, hp, hszl, ha, by omega, ?_⟩
            rw [hrun, ha, RProg.run_bind_of_ok (p := RProg.lift _) (RProg.run_lift _ _), RProg.run_bind,
              RProg.run_readExact, if_neg hlen]
            rfl
      · refine .inl ⟨maj, min, p, r, rfl, hp, by omega, ?_⟩
        rw [hrun, if_neg hw]; rfl
  · left
    refine ⟨?_, ?_⟩
    · by_cases h8 : 8 ≤ bs.length
      · exact .inr fun h => hm ⟨h8, h⟩
      · exact .inl (by omega)
    · unfold NpyHeader.fromReader readHeader
      have : ∃ r, readMagicAndVersion.run bs = (.err magicErr, r) := by
        rw [run_readMagic]
        by_cases h8 : 8 ≤ bs.length
        · rw [if_pos h8, if_neg]
          · exact ⟨_, rfl⟩
          · rw [List.take_take]
            exact fun h => hm ⟨h8, h⟩
        · rw [if_neg h8]; exact ⟨_, rfl⟩
      obtain ⟨r, hr⟩ := this
      rw [RProg.run_bind, RProg.run_bind_of_err hr]
      rfl

theorem getVersionProps_ok_iff {maj min : UInt8} {p : VersionProps} : getVersionProps maj min = .ok p ↔
    (maj = 1 ∧ min = 0 ∧ p = ⟨.u16, .ascii⟩) ∨ (maj = 2 ∧ min = 0 ∧ p = ⟨.u32, .ascii⟩) ∨
    (maj = 3 ∧ min = 0 ∧ p = ⟨.u32, .utf8⟩) := by
  unfold getVersionProps
  constructor
  · intro h
    split at h
    · cases h; simp_all
    · split at h
      · cases h; simp_all
      · split at h
        · cases h; simp_all
        · cases h
  · rintro (⟨rfl, rfl, rfl⟩ | ⟨rfl, rfl, rfl⟩ | ⟨rfl, rfl, rfl⟩) <;> rfl

theorem getVersionProps_err {maj min : UInt8} {e : Err} (h : getVersionProps maj min = .err e) :
    e = .invalidData "unsupported version" := by
  unfold getVersionProps at h
  repeat' split at h
  all_goals cases h
  rfl

/-! Results of interpreting descriptions are well-formed and never panic. -/

theorem shapeInteger_ok_iff {v : PyVal} {n : Nat} : shapeInteger v = .ok n ↔ v = .int n ∧ n < 2 ^ 64 := by
  constructor
  · intro h
    cases v with
    | int k =>
      simp only [shapeInteger] at h
      split at h
      · cases h
      · split at h
        · cases h; rename_i h1 h2; exact ⟨by congr 1; omega, h2⟩
        · cases h
    | _ => cases h
  · rintro ⟨rfl, h⟩
    simp only [shapeInteger]
    rw [if_neg (by omega), if_pos (by simpa using h)]; simp

theorem shapeInteger_ne_panic {v : PyVal} : shapeInteger v ≠ .panic := by
  cases v with
  | int k => simp only [shapeInteger]; split <;> (try split) <;> simp
  | _ => simp [shapeInteger]

theorem shapeIntegers_ok_iff {vs : List PyVal} {ns : List Nat} :
    shapeIntegers vs = .ok ns ↔ vs = ns.map (fun n : Nat => PyVal.int n) ∧ ∀ n ∈ ns, n < 2 ^ 64 := by
  induction vs generalizing ns with
  | nil =>
    simp only [shapeIntegers, Out.ok.injEq]
    constructor
    · rintro rfl; simp
    · rintro ⟨h, -⟩; simpa using h.symm
  | cons v vs ih =>
    simp only [shapeIntegers, Out.bind_eq_ok, shapeInteger_ok_iff, Out.ok.injEq]
    constructor
    · rintro ⟨n, ⟨rfl, hn⟩, ms, hms, rfl⟩
      obtain ⟨rfl, h⟩ := ih.mp hms
      refine ⟨rfl, ?_⟩
      intro m hm
      rcases List.mem_cons.mp hm with rfl | hm
      · exact hn
      · exact h m hm
    · rintro ⟨h, hlt⟩
      cases ns with
      | nil => simp at h
      | cons n ns =>
        simp only [List.map_cons, List.cons.injEq] at h
        obtain ⟨rfl, h⟩ := h
        exact ⟨n, ⟨rfl, hlt n (by simp)⟩, ns, ih.mpr ⟨h, fun m hm => hlt m (by simp [hm])⟩, rfl⟩

theorem shapeIntegers_ne_panic {vs : List PyVal} : shapeIntegers vs ≠ .panic := by
  induction vs with
  | nil => simp [shapeIntegers]
  | cons v vs ih =>
    simp only [shapeIntegers]
    cases h : shapeInteger v with
    | panic => exact absurd h shapeInteger_ne_panic
    | err e => simp
    | ok n =>
      simp only [Out.bind_ok]
      cases h' : shapeIntegers vs with
      | panic => exact absurd h' ih
      | err e => simp
      | ok n => simp

theorem convertShape_ne_panic {v : PyVal} : convertShape v ≠ .panic := by
  cases v <;> first | exact shapeIntegers_ne_panic | simp [convertShape]

theorem convertShape_ok_iff {v : PyVal} {ns : List Nat} : convertShape v = .ok ns ↔
    (v = .tuple (ns.map fun n : Nat => PyVal.int n) ∨ v = .list (ns.map fun n : Nat => PyVal.int n)) ∧
      ∀ n ∈ ns, n < 2 ^ 64 := by
  cases v <;> simp [convertShape, shapeIntegers_ok_iff]

theorem convertTypeStr_ne_panic {s : Text} : convertTypeStr s ≠ .panic := by
  unfold convertTypeStr
  cases h : TypeStr.parse s with
  | panic => exact absurd h (parse_ne_panic s)
  | err e =>
    obtain ⟨m, hm⟩ := parse_err_message h
    simp [hm]
  | ok t => simp

theorem convertTypeStr_ok {s : Text} {t : TypeStr} : convertTypeStr s = .ok t ↔ TypeStr.parse s = .ok t := by
  unfold convertTypeStr
  cases h : TypeStr.parse s with
  | panic => simp
  | err e =>
    obtain ⟨m, hm⟩ := parse_err_message h
    simp [hm]
  | ok t => simp

theorem fieldName_ne_panic {v : PyVal} : fieldName v ≠ .panic := by cases v <;> simp [fieldName]

theorem Out.bind_ne_panic {ε : Type} {α β : Type u} {x : Out ε α} {f : α → Out ε β} (hx : x ≠ .panic)
    (hf : ∀ a, x = .ok a → f a ≠ .panic) : (x >>= f) ≠ .panic := by
  cases x with
  | ok a => exact hf a rfl
  | err e => simp
  | panic => exact absurd rfl hx

mutual
theorem fromDescr_ne_panic : (v : PyVal) → DType.fromDescr v ≠ .panic
  | .str s => by
    simp only [DType.fromDescr]
    exact Out.bind_ne_panic convertTypeStr_ne_panic (by simp)
  | .list vs => by
    simp only [DType.fromDescr]
    exact Out.bind_ne_panic (fromList_ne_panic vs) (by simp)
  | .int _ | .bool _ | .none | .tuple _ | .dict _ | .other => by simp [DType.fromDescr]
theorem fromList_ne_panic : (vs : List PyVal) → Fields.fromList vs ≠ .panic
  | [] => by simp [Fields.fromList]
  | v :: vs => by
    simp only [Fields.fromList]
    refine Out.bind_ne_panic (fieldFromVal_ne_panic v) fun _ _ => ?_
    exact Out.bind_ne_panic (fromList_ne_panic vs) (by simp)
theorem fieldFromVal_ne_panic : (v : PyVal) → fieldFromVal v ≠ .panic
  | .list t => by simpa only [fieldFromVal] using fieldFromTuple_ne_panic t
  | .tuple t => by simpa only [fieldFromVal] using fieldFromTuple_ne_panic t
  | .int _ | .bool _ | .none | .str _ | .dict _ | .other => by simp [fieldFromVal]
theorem fieldFromTuple_ne_panic : (vs : List PyVal) → fieldFromTuple vs ≠ .panic
  | [n, d] => by
    simp only [fieldFromTuple]
    refine Out.bind_ne_panic fieldName_ne_panic fun _ _ => ?_
    exact Out.bind_ne_panic (fromDescr_ne_panic d) (by simp)
  | [n, d, s] => by
    simp only [fieldFromTuple]
    refine Out.bind_ne_panic fieldName_ne_panic fun _ _ => ?_
    refine Out.bind_ne_panic (fromDescr_ne_panic d) fun _ _ => ?_
    exact Out.bind_ne_panic convertShape_ne_panic (by simp)
  | [] => by simp [fieldFromTuple]
  | [_] => by simp [fieldFromTuple]
  | _ :: _ :: _ :: _ :: _ => by simp [fieldFromTuple]
end

theorem wrapDims_wf {shape : List Nat} {d : DType} (hs : ∀ n ∈ shape, n < 2 ^ 64) (hd : d.Wf) : (wrapDims shape d).Wf := by
  induction shape with
  | nil => exact hd
  | cons n ns ih => exact ⟨hs n (by simp), ih fun m hm => hs m (by simp [hm])⟩

mutual
theorem fromDescr_wf : (v : PyVal) → (d : DType) → DType.fromDescr v = .ok d → d.Wf ∧ d.NotArray
  | .str s, d, h => by
    simp only [DType.fromDescr, Out.bind_eq_ok, convertTypeStr_ok, Out.ok.injEq] at h
    obtain ⟨t, ht, rfl⟩ := h
    exact ⟨wf_of_parse ht, trivial⟩
  | .list vs, d, h => by
    simp only [DType.fromDescr, Out.bind_eq_ok, Out.ok.injEq] at h
    obtain ⟨fs, hfs, rfl⟩ := h
    exact ⟨fromList_wf vs fs hfs, trivial⟩
  | .int _, _, h | .bool _, _, h | .none, _, h | .tuple _, _, h | .dict _, _, h | .other, _, h => by
    simp [DType.fromDescr] at h
theorem fromList_wf : (vs : List PyVal) → (fs : Fields) → Fields.fromList vs = .ok fs → fs.Wf
  | [], fs, h => by
    simp only [Fields.fromList, Out.ok.injEq] at h
    subst h; trivial
  | v :: vs, fs, h => by
    simp only [Fields.fromList, Out.bind_eq_ok, Out.ok.injEq] at h
    obtain ⟨f, hf, fs', hfs, rfl⟩ := h
    exact ⟨fieldFromVal_wf v f hf, fromList_wf vs fs' hfs⟩
theorem fieldFromVal_wf : (v : PyVal) → (f : Text × DType) → fieldFromVal v = .ok f → f.2.Wf
  | .list t, f, h => by simp only [fieldFromVal] at h; exact fieldFromTuple_wf t f h
  | .tuple t, f, h => by simp only [fieldFromVal] at h; exact fieldFromTuple_wf t f h
  | .int _, _, h | .bool _, _, h | .none, _, h | .str _, _, h | .dict _, _, h | .other, _, h => by
    simp [fieldFromVal] at h
theorem fieldFromTuple_wf : (vs : List PyVal) → (f : Text × DType) → fieldFromTuple vs = .ok f → f.2.Wf
  | [n, d], f, h => by
    simp only [fieldFromTuple, Out.bind_eq_ok, Out.ok.injEq] at h
    obtain ⟨_, _, dt, hdt, rfl⟩ := h
    exact (fromDescr_wf d dt hdt).1
  | [n, d, s], f, h => by
    simp only [fieldFromTuple, Out.bind_eq_ok, Out.ok.injEq] at h
    obtain ⟨_, _, dt, hdt, sh, hsh, rfl⟩ := h
    exact wrapDims_wf (convertShape_ok_iff.mp hsh).2 (fromDescr_wf d dt hdt).1
  | [], _, h => by simp [fieldFromTuple] at h
  | [_], _, h => by simp [fieldFromTuple] at h
  | _ :: _ :: _ :: _ :: _, _, h => by simp [fieldFromTuple] at h
end

end Npyz
namespace Npyz
open Spec

theorem headerEnd_eq {maj min : UInt8} {p : VersionProps} {szb r : Bytes} (hp : getVersionProps maj min = .ok p)
    (hw : szb.length = p.width) : headerEnd (magic ++ [maj, min] ++ szb ++ r) = 8 + p.width + leNat szb := by
  rcases getVersionProps_ok_iff.mp hp with ⟨rfl, rfl, rfl⟩ | ⟨rfl, rfl, rfl⟩ | ⟨rfl, rfl, rfl⟩
  all_goals simp only [VersionProps.width] at hw ⊢
  · match szb, hw with
    | [a, b], _ => simp [headerEnd, byteAt, magic, leNat]
  · match szb, hw with
    | [a, b, c, d], _ => simp [headerEnd, byteAt, magic, leNat]; omega
  · match szb, hw with
    | [a, b, c, d], _ => simp [headerEnd, byteAt, magic, leNat]; omega

theorem goodPreamble_iff {bs : Bytes} : GoodPreamble bs ↔
    ∃ maj min p r, bs = magic ++ [maj, min] ++ r ∧ getVersionProps maj min = .ok p := by
  constructor
  · rintro ⟨hl, hmag, hv, hz⟩
    have h6 : (bs.drop 6).length ≥ 2 := by simp; omega
    match hd : bs.drop 6 with
    | [] => simp [hd] at h6
    | [_] => simp [hd] at h6
    | a :: b :: r =>
      have e : bs = magic ++ [a, b] ++ r := by
        rw [← List.take_append_drop 6 bs, hmag, hd]; simp [magic, magicBytes]
      subst e
      simp [byteAt, magic] at hv hz
      have hb : b = 0 := UInt8.toNat_inj.mp (by simpa using hz)
      subst hb
      rcases hv with hv | hv | hv
      · have : a = 1 := UInt8.toNat_inj.mp (by simpa using hv)
        subst this; exact ⟨1, 0, ⟨.u16, .ascii⟩, r, rfl, rfl⟩
      · have : a = 2 := UInt8.toNat_inj.mp (by simpa using hv)
        subst this; exact ⟨2, 0, ⟨.u32, .ascii⟩, r, rfl, rfl⟩
      · have : a = 3 := UInt8.toNat_inj.mp (by simpa using hv)
        subst this; exact ⟨3, 0, ⟨.u32, .utf8⟩, r, rfl, rfl⟩
  · rintro ⟨maj, min, p, r, rfl, hp⟩
    rcases getVersionProps_ok_iff.mp hp with ⟨rfl, rfl, rfl⟩ | ⟨rfl, rfl, rfl⟩ | ⟨rfl, rfl, rfl⟩ <;>
      simp [GoodPreamble, byteAt, magic, magicBytes] <;> omega

theorem lastEntry_lookup {kvs : List (PyVal × PyVal)} {d : List (Text × PyVal)} (h : stringKeys kvs = .ok d)
    (k : String) (v : PyVal) : lookupLast k.toList d = some v ↔ LastEntry k v kvs := by
  induction kvs generalizing d with
  | nil =>
    simp only [stringKeys, Out.ok.injEq] at h
    subst h
    simp [lookupLast, LastEntry]
  | cons kv kvs ih =>
    obtain ⟨k', w⟩ := kv
    cases k' with
    | str s =>
      simp only [stringKeys, Out.bind_eq_ok, Out.ok.injEq] at h
      obtain ⟨r, hr, rfl⟩ := h
      have ih := ih hr
      simp only [lookupLast]
      cases hl : lookupLast k.toList r with
      | some x =>
        simp only [Option.some.injEq]
        rw [hl] at ih
        constructor
        · rintro rfl
          obtain ⟨pre, post, rfl, hp⟩ := ih.mp rfl
          exact ⟨(.str s, w) :: pre, post, rfl, hp⟩
        · rintro ⟨pre, post, he, hp⟩
          cases pre with
          | nil =>
            simp only [List.nil_append, List.cons.injEq, Prod.mk.injEq] at he
            obtain ⟨_, rfl⟩ := he
            exfalso
            have : lookupLast k.toList r = some x → False := by
              intro _
              -- some entry of `kvs` has key `k`
              have hx : ∀ (l : List (PyVal × PyVal)) (d : List (Text × PyVal)), stringKeys l = .ok d →
                  (∀ w, (PyVal.str k.toList, w) ∉ l) → lookupLast k.toList d = none := by
                intro l
                induction l with
                | nil => intro d h _; simp only [stringKeys, Out.ok.injEq] at h; subst h; rfl
                | cons y l ihl =>
                  intro d h hn
                  obtain ⟨ky, vy⟩ := y
                  cases ky with
                  | str sy =>
                    simp only [stringKeys, Out.bind_eq_ok, Out.ok.injEq] at h
                    obtain ⟨d', hd', rfl⟩ := h
                    simp only [lookupLast, ihl d' hd' fun w hw => hn w (by simp [hw])]
                    rw [if_neg]
                    rintro rfl
                    exact hn vy (by simp)
                  | _ => simp [stringKeys] at h
              rw [hx kvs r hr hp] at hl
              cases hl
            exact this hl
          | cons y pre =>
            simp only [List.cons_append, List.cons.injEq] at he
            have := ih.mpr ⟨pre, post, he.2, hp⟩
            simpa using this
      | none =>
        simp only
        rw [hl] at ih
        constructor
        · intro hv
          split at hv
          · cases hv
            rename_i hs
            subst hs
            refine ⟨[], kvs, rfl, fun x hx => ?_⟩
            -- an entry would be found
            have hfound : ∀ (l : List (PyVal × PyVal)) (d : List (Text × PyVal)), stringKeys l = .ok d →
                (∃ w, (PyVal.str k.toList, w) ∈ l) → ∃ y, lookupLast k.toList d = some y := by
              intro l
              induction l with
              | nil => intro d _ h; simp at h
              | cons y l ihl =>
                intro d h ⟨w, hw⟩
                obtain ⟨ky, vy⟩ := y
                cases ky with
                | str sy =>
                  simp only [stringKeys, Out.bind_eq_ok, Out.ok.injEq] at h
                  obtain ⟨d', hd', rfl⟩ := h
                  simp only [lookupLast]
                  rcases List.mem_cons.mp hw with hw | hw
                  · cases hw
                    cases lookupLast k.toList d' with
                    | some z => exact ⟨z, rfl⟩
                    | none => exact ⟨w, by simp⟩
                  · obtain ⟨z, hz⟩ := ihl d' hd' ⟨w, hw⟩
                    exact ⟨z, by rw [hz]⟩
                | _ => simp [stringKeys] at h
            obtain ⟨y, hy⟩ := hfound kvs r hr ⟨x, hx⟩
            rw [hy] at hl; cases hl
          · cases hv
        · rintro ⟨pre, post, he, hp⟩
          cases pre with
          | nil =>
            simp only [List.nil_append, List.cons.injEq, Prod.mk.injEq, PyVal.str.injEq] at he
            obtain ⟨⟨rfl, rfl⟩, rfl⟩ := he
            simp
          | cons y pre =>
            simp only [List.cons_append, List.cons.injEq] at he
            have := ih.mpr ⟨pre, post, he.2, hp⟩
            cases this
    | _ => simp [stringKeys] at h

theorem stringKeys_ok_iff {kvs : List (PyVal × PyVal)} : (∃ d, stringKeys kvs = .ok d) ↔ StringKeys kvs := by
  induction kvs with
  | nil => simp [stringKeys, StringKeys]
  | cons kv kvs ih =>
    obtain ⟨k, v⟩ := kv
    cases k with
    | str s =>
      simp only [stringKeys, Out.bind_eq_ok, Out.ok.injEq]
      constructor
      · rintro ⟨_, d, hd, rfl⟩
        intro x hx
        rcases List.mem_cons.mp hx with rfl | hx
        · exact ⟨s, rfl⟩
        · exact ih.mp ⟨d, hd⟩ x hx
      · intro h
        obtain ⟨d, hd⟩ := ih.mpr fun x hx => h x (by simp [hx])
        exact ⟨_, d, hd, rfl⟩
    | _ => simp [stringKeys, StringKeys]

theorem stringKeys_err {kvs : List (PyVal × PyVal)} (h : ¬ StringKeys kvs) :
    stringKeys kvs = .err (.invalidData "key is not string") := by
  induction kvs with
  | nil => exact absurd (by simp [StringKeys]) h
  | cons kv kvs ih =>
    obtain ⟨k, v⟩ := kv
    cases k with
    | str s =>
      have : ¬ StringKeys kvs := fun h' => h fun x hx => by
        rcases List.mem_cons.mp hx with rfl | hx
        · exact ⟨s, rfl⟩
        · exact h' x hx
      simp [stringKeys, ih this]
    | _ => simp [stringKeys]

theorem interpretHeader_ok_iff {M : Machine} {kvs : List (PyVal × PyVal)} {h : NpyHeader} :
    interpretHeader M (.dict kvs) = .ok h ↔ StringKeys kvs ∧ ∃ (b : Bool) (vs vd : PyVal) (shape : List Nat) (d : DType),
      LastEntry "fortran_order" (.bool b) kvs ∧ LastEntry "shape" vs kvs ∧ LastEntry "descr" vd kvs ∧
      convertShape vs = .ok shape ∧ DType.fromDescr vd = .ok d ∧
      NpyHeader.fromParts M d shape (if b then .fortran else .c) = .ok h := by
  simp only [interpretHeader, Out.bind_eq_ok]
  have hex : ∀ (d : List (Text × PyVal)) k v, expectKey d k = .ok v ↔ lookupLast k d = some v := by
    intro d k v
    unfold expectKey
    cases lookupLast k d <;> simp
  constructor
  · rintro ⟨d, hd, h⟩
    refine ⟨stringKeys_ok_iff.mp ⟨d, hd⟩, ?_⟩
    simp only [interpretDict, Out.bind_eq_ok, hex] at h
    obtain ⟨fo, hfo, o, ho, sh, hsh, shape, hshape, de, hde, dt, hdt, h⟩ := h
    cases fo with
    | bool b =>
      simp only [orderFromVal, Out.ok.injEq] at ho
      subst ho
      exact ⟨b, sh, de, shape, dt, (lastEntry_lookup hd _ _).mp hfo, (lastEntry_lookup hd _ _).mp hsh,
        (lastEntry_lookup hd _ _).mp hde, hshape, hdt, h⟩
    | _ => simp [orderFromVal] at ho
  · rintro ⟨hk, b, vs, vd, shape, dt, h1, h2, h3, h4, h5, h6⟩
    obtain ⟨d, hd⟩ := stringKeys_ok_iff.mpr hk
    refine ⟨d, hd, ?_⟩
    simp only [interpretDict, Out.bind_eq_ok, hex]
    exact ⟨.bool b, (lastEntry_lookup hd _ _).mpr h1, _, rfl, vs, (lastEntry_lookup hd _ _).mpr h2, shape, h4,
      vd, (lastEntry_lookup hd _ _).mpr h3, dt, h5, h6⟩

theorem interpretHeader_congr {M : Machine} {kvs kvs' : List (PyVal × PyVal)} (hs : StringKeys kvs ↔ StringKeys kvs')
    (h : ∀ k ∈ ["fortran_order", "shape", "descr"], ∀ v, LastEntry k v kvs ↔ LastEntry k v kvs') :
    interpretHeader M (.dict kvs) = interpretHeader M (.dict kvs') := by
  by_cases hk : StringKeys kvs
  · obtain ⟨d, hd⟩ := stringKeys_ok_iff.mpr hk
    obtain ⟨d', hd'⟩ := stringKeys_ok_iff.mpr (hs.mp hk)
    have hl : ∀ k ∈ ["fortran_order", "shape", "descr"], lookupLast k.toList d = lookupLast k.toList d' := by
      intro k hkm
      apply Option.ext
      intro v
      rw [lastEntry_lookup hd, lastEntry_lookup hd']
      exact h k hkm v
    simp only [interpretHeader, hd, hd', Out.bind_ok, interpretDict, expectKey, txt]
    rw [hl "fortran_order" (by simp), hl "shape" (by simp), hl "descr" (by simp)]
  · simp [interpretHeader, stringKeys_err hk, stringKeys_err (mt hs.mpr hk)]

theorem lastEntry_perm {kvs kvs' : List (PyVal × PyVal)} (hp : kvs.Perm kvs') (hd : DistinctKeys kvs) (k : String) (v : PyVal)
    (h : LastEntry k v kvs) : LastEntry k v kvs' := by
  obtain ⟨pre, post, rfl, _⟩ := h
  have hmem : (PyVal.str k.toList, v) ∈ kvs' := hp.mem_iff.mp (by simp)
  obtain ⟨pre', post', rfl⟩ := List.append_of_mem hmem
  refine ⟨pre', post', rfl, fun w hw => ?_⟩
  have hd' : DistinctKeys (pre' ++ (PyVal.str k.toList, v) :: post') := (hp.map Prod.fst).nodup_iff.mp hd
  simp only [DistinctKeys, List.map_append, List.map_cons] at hd'
  have h2 := (List.nodup_append.mp hd').2.1
  exact (List.nodup_cons.mp h2).1 (List.mem_map.mpr ⟨_, hw, rfl⟩)

theorem itemSizeOf_ne_panic {M : Machine} {d : DType} : itemSizeOf M d ≠ .panic := by
  unfold itemSizeOf
  split
  · simp
  · split <;> simp

theorem fromParts_ok {M : Machine} {d : DType} {shape : List Nat} {o : Order} {h : NpyHeader}
    (hp : NpyHeader.fromParts M d shape o = .ok h) : h.dtype = d ∧ h.shape = shape ∧ h.order = o ∧
      shapeProduct M 1 shape = .ok h.nRecords ∧ computeStrides M o shape = .ok h.strides ∧
      itemSizeOf M d = .ok h.itemSize ∧ h.usesPickled = d.usesPickled := by
  simp only [NpyHeader.fromParts, Out.bind_eq_ok, Out.ok.injEq] at hp
  obtain ⟨n, hn, i, hi, s, hs, rfl⟩ := hp
  exact ⟨rfl, rfl, rfl, hn, hs, hi, rfl⟩

theorem fromParts_release {M : Machine} (hM : M.overflowChecks = false) (d : DType) (shape : List Nat) (o : Order) :
    NpyHeader.fromParts M d shape o ≠ .panic := by
  obtain ⟨n, hn⟩ := shapeProduct_release hM shape 1
  obtain ⟨s, hs⟩ := computeStrides_release hM o shape
  simp only [NpyHeader.fromParts, hn, hs, Out.bind_ok]
  exact Out.bind_ne_panic itemSizeOf_ne_panic (by simp)

theorem fromParts_exact {M : Machine} (d : DType) {shape : List Nat} (o : Order)
    (hlt : nonzeroProd shape < 2 ^ 64) : NpyHeader.fromParts M d shape o ≠ .panic := by
  simp only [NpyHeader.fromParts, shapeProduct_exact (acc := 1) (by simpa using hlt), computeStrides_exact hlt, Out.bind_ok]
  exact Out.bind_ne_panic itemSizeOf_ne_panic (by simp)

/-- What reading the parts of a header gives, for shapes whose products cannot overflow. -/
theorem fromParts_eq {M : Machine} {d : DType} {shape : List Nat} {o : Order} {sz : Option Nat}
    (hlt : nonzeroProd shape < 2 ^ 64) (hd : itemSizeOf M d = .ok sz) :
    NpyHeader.fromParts M d shape o = .ok ⟨d, shape, exactStrides o shape, o, shape.prod, sz, d.usesPickled⟩ := by
  simp only [NpyHeader.fromParts, shapeProduct_exact (acc := 1) (by simpa using hlt),
    computeStrides_exact hlt, Out.bind_ok, hd, Nat.one_mul]

theorem itemSizeOf_ok_iff {M : Machine} {d : DType} {sz : Option Nat} : itemSizeOf M d = .ok sz ↔
    (HasObject d ∧ sz = none) ∨ (¬ HasObject d ∧ AllFit M.usizeLim d ∧ ∃ n, exactBytes d = some n ∧ sz = some n) := by
  unfold itemSizeOf
  by_cases h : HasObject d
  · rw [if_pos ((usesPickled_iff d).mpr h)]
    simp [h, eq_comm]
  · rw [if_neg (fun h' => h ((usesPickled_iff d).mp h'))]
    simp only [h, false_and, false_or, not_false_eq_true, true_and]
    cases hn : d.numBytes M with
    | some n =>
      obtain ⟨h1, h2⟩ := (numBytes_eq_some d M n).mp hn
      simp [h1, h2, eq_comm]
    | none =>
      simp only [reduceCtorEq, false_iff]
      rintro ⟨h2, n, h1, _⟩
      rw [(numBytes_eq_some d M n).mpr ⟨h1, h2⟩] at hn; cases hn

theorem expectKey_ne_panic {d : List (Text × PyVal)} {k : Text} : expectKey d k ≠ .panic := by
  unfold expectKey; split <;> simp

theorem orderFromVal_ne_panic {v : PyVal} : orderFromVal v ≠ .panic := by cases v <;> simp [orderFromVal]

theorem stringKeys_ne_panic {kvs : List (PyVal × PyVal)} : stringKeys kvs ≠ .panic := by
  by_cases h : StringKeys kvs
  · obtain ⟨d, hd⟩ := stringKeys_ok_iff.mpr h
    simp [hd]
  · simp [stringKeys_err h]

/-- A panic while interpreting a header comes from multiplying the dimensions. -/
theorem interpretHeader_panic {M : Machine} {v : PyVal} (h : interpretHeader M v = .panic) :
    ∃ kvs shape vs, v = .dict kvs ∧ LastEntry "shape" vs kvs ∧ convertShape vs = .ok shape ∧
      ∃ d o, NpyHeader.fromParts M d shape o = .panic := by
  cases v with
  | dict kvs =>
    simp only [interpretHeader] at h
    cases hd : stringKeys kvs with
    | panic => exact absurd hd stringKeys_ne_panic
    | err e => simp [hd] at h
    | ok d =>
      simp only [hd, Out.bind_ok, interpretDict] at h
      cases h1 : expectKey d (txt "fortran_order") with
      | panic => exact absurd h1 expectKey_ne_panic
      | err e => simp [h1] at h
      | ok fo =>
      simp only [h1, Out.bind_ok] at h
      cases h2 : orderFromVal fo with
      | panic => exact absurd h2 orderFromVal_ne_panic
      | err e => simp [h2] at h
      | ok o =>
      simp only [h2, Out.bind_ok] at h
      cases h3 : expectKey d (txt "shape") with
      | panic => exact absurd h3 expectKey_ne_panic
      | err e => simp [h3] at h
      | ok sh =>
      simp only [h3, Out.bind_ok] at h
      cases h4 : convertShape sh with
      | panic => exact absurd h4 convertShape_ne_panic
      | err e => simp [h4] at h
      | ok shape =>
      simp only [h4, Out.bind_ok] at h
      cases h5 : expectKey d (txt "descr") with
      | panic => exact absurd h5 expectKey_ne_panic
      | err e => simp [h5] at h
      | ok de =>
      simp only [h5, Out.bind_ok] at h
      cases h6 : DType.fromDescr de with
      | panic => exact absurd h6 (fromDescr_ne_panic _)
      | err e => simp [h6] at h
      | ok dt =>
      simp only [h6, Out.bind_ok] at h
      refine ⟨kvs, shape, sh, rfl, ?_, h4, dt, o, h⟩
      rw [← lastEntry_lookup hd]
      unfold expectKey at h3
      split at h3
      · cases h3; assumption
      · cases h3
  | _ => simp [interpretHeader] at h

theorem parseHeaderText_ne_panic {py : PyParser} {t : Bytes} : parseHeaderText py t ≠ .panic := by
  unfold parseHeaderText
  split
  · simp
  · unfold parseResult; split <;> simp

end Npyz
