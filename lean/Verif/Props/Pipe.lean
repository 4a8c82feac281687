import Verif.Props.Visit
import Verif.Props.Header
import Verif.Proofs.Pipe
/-!
C114: arrays can be sent through a pipe.

`waits`, `nexts` and `receive` are in `Verif/Spec/Pipe.lean`.
-/
namespace Npyz.Props
set_option autoImplicit false
open Npyz Spec Py

variable {M M' : Machine} {py : PyParser} {t : Ty} {d : DType} {size : Nat} {o : Order}

theorem waits_bind {α β : Type} {p : RProg α} {f : α → RProg β} {bs : Bytes} (h : waits p bs = false)
    (hf : ∀ a rest, p.run bs = (.ok a, rest) → waits (f a) rest = false) : waits (p >>= f) bs = false := by
  induction p generalizing bs with
  | ret r => cases r with
    | ok a => exact hf a bs rfl
    | err e => rfl
    | panic => rfl
  | read n eof k ih =>
    simp only [waits] at h
    show waits (RProg.read n eof fun b => (k b).bind f) bs = false
    by_cases hn : n ≤ bs.length
    · rw [if_pos hn] at h
      simp only [waits, if_pos hn]
      exact ih _ h (fun a rest hr => hf a rest (by simp only [RProg.run, if_pos hn]; exact hr))
    · rw [if_neg hn] at h; cases h

theorem header_waits {bs : Bytes} (h8 : 8 ≤ bs.length) (hg : GoodPreamble bs → headerEnd bs ≤ bs.length) :
    waits (NpyHeader.fromReader M py) bs = false := by
  refine waits_bind ?_ (fun _ _ _ => rfl)
  refine waits_bind ?_ (fun v rest hv => ?_)
  · simp only [readMagicAndVersion, waits, if_pos h8]; split <;> rfl
  refine waits_bind rfl (fun p rest2 hp => ?_)
  obtain ⟨hp1, rfl⟩ := Prod.mk.inj hp
  rw [run_readMagic, if_pos h8] at hv
  by_cases hm : (bs.take 8).take 6 = magic
  · rw [if_pos hm] at hv
    obtain ⟨hv1, rfl⟩ := Prod.mk.inj hv
    have := Out.ok.inj hv1
    subst this
    have hG : GoodPreamble bs := by
      refine ⟨h8, by rw [List.take_take] at hm; exact hm, ?_⟩
      have e6 : (bs.take 8).getD 6 0 = bs.getD 6 0 := by simp [List.getD_eq_getElem?_getD, List.getElem?_take]
      have e7 : (bs.take 8).getD 7 0 = bs.getD 7 0 := by simp [List.getD_eq_getElem?_getD, List.getElem?_take]
      simp only [e6, e7] at hp1
      unfold byteAt
      rcases getVersionProps_ok_iff.mp hp1 with ⟨h1, h2, -⟩ | ⟨h1, h2, -⟩ | ⟨h1, h2, -⟩ <;> rw [h1, h2] <;> decide
    have hle := hg hG
    obtain ⟨maj, min, q, r, rfl, hq⟩ := goodPreamble_iff.mp hG
    have e : q = p := by
      have : getVersionProps maj min = .ok p := by simpa [magic] using hp1
      rw [hq] at this; exact Out.ok.inj this
    subst e
    have hwid : q.width ≤ r.length := by
      rcases getVersionProps_ok_iff.mp hq with ⟨rfl, rfl, rfl⟩ | ⟨rfl, rfl, rfl⟩ | ⟨rfl, rfl, rfl⟩ <;>
        · simp [headerEnd, byteAt, magic, VersionProps.width] at hle ⊢; omega
    obtain ⟨szb, r2, rfl, hw⟩ : ∃ szb r2, r = szb ++ r2 ∧ szb.length = q.width :=
      ⟨r.take q.width, r.drop q.width, by simp, by simp [hwid]⟩
    have he := headerEnd_eq (r := r2) hq hw
    rw [List.append_assoc _ szb r2] at he
    rw [he] at hle
    have hlen : leNat szb ≤ r2.length := by simp [magic, hw] at hle; omega
    have hdrop : (magic ++ [maj, min] ++ (szb ++ r2)).drop 8 = szb ++ r2 := by simp [magic]
    rw [hdrop]
    have hsz : (readHeaderSize q).run (szb ++ r2) = (.ok (leNat szb), r2) := by
      rw [run_readHeaderSize, if_pos (by simp; omega), List.take_left' hw, List.drop_left' hw]
    refine waits_bind (waits_of_ok hsz) (fun n rest3 h3 => ?_)
    rw [hsz] at h3
    obtain ⟨h31, rfl⟩ := Prod.mk.inj h3
    have := Out.ok.inj h31
    subst this
    refine waits_bind rfl (fun _ rest4 h4 => ?_)
    obtain ⟨-, rfl⟩ := Prod.mk.inj h4
    refine waits_bind ?_ (fun _ _ _ => rfl)
    simp only [RProg.readExact, waits, if_pos hlen]
  · rw [if_neg hm] at hv; cases (Prod.mk.inj hv).1

/-- C114: opening a file waits for 8 bytes and, if they are the magic bytes and a known version, for the header.  It does not wait for
anything else, and what comes later changes nothing. -/
theorem C114_open {s : Src} (h8 : 8 ≤ s.rest.length) (hg : GoodPreamble s.rest → headerEnd s.rest ≤ s.rest.length) :
    waits (NpyHeader.fromReader M py) s.rest = false ∧
    ∀ more, (NpyFile.new M py disk ⟨s.data ++ more, s.pos⟩).1 =
      (NpyFile.new M py disk s).1.map fun f => ⟨f.header, ⟨s.data ++ more, f.src.pos⟩⟩ := by
  have hw := header_waits (M := M) (py := py) h8 hg
  refine ⟨hw, fun more => ?_⟩
  have hpos : s.pos ≤ s.data.length := by simp only [Src.rest, List.length_drop] at h8; omega
  obtain ⟨e, -, -, -⟩ := exec_arrived hw hpos more
  unfold NpyFile.new
  rw [e]
  rcases disk.exec (NpyHeader.fromReader M py) s with ⟨(_ | _ | _), s'⟩ <;> rfl

/-- C114: `k` calls of `next` wait for `k` elements and for nothing else, whether or not they are valid: when these have arrived, the
calls return, they have read no further than that, and what comes later changes nothing.  After the last element, `next` does not wait. -/
theorem C114_next {s : Src} {f : NpyFile Src} {r : NpyReader t.Val Src} (hn : (NpyFile.new M py disk s).1 = .ok f)
    (hd : f.data M t = .ok r) (hs : f.header.itemSize = some size) (hm : size ≤ M.isizeMax) {k : Nat}
    (ha : f.src.pos + min k f.header.nRecords * size ≤ s.data.length) :
    ∃ xs r', nexts k r = some (xs, r') ∧ xs.length = k ∧ r'.src.pos ≤ f.src.pos + min k f.header.nRecords * size ∧
      ∀ more, nexts k { r with src := ⟨s.data ++ more, f.src.pos⟩ } = some (xs, { r' with src := ⟨s.data ++ more, r'.src.pos⟩ }) := by
  obtain ⟨hpos, hle⟩ := C89_position hn
  obtain ⟨ho, -⟩ := opened_of_new hn
  have hpos : f.src = _ := hpos
  obtain ⟨n, h1, h2, h3⟩ := opened_reads ho hd
  rw [hs] at h2
  cases h2
  obtain ⟨-, q, -, rfl⟩ := data_ok_iff.mp hd
  have hdata : f.src.data = s.data := by rw [hpos]
  have hp : f.src.pos ≤ f.src.data.length := by rw [hpos]; exact hle
  obtain ⟨xs, r', g1, g2, g3, g4⟩ := nexts_arrived k (h3 hm) hp (by rw [hdata]; exact ha)
  refine ⟨xs, r', g1, nexts_length k g1, g2, fun more => ?_⟩
  have g4 := g4 more
  simp only [later] at g4
  rw [hdata] at g4
  have e : r'.src.data = s.data := g3.trans hdata
  rw [e] at g4
  exact g4

/-- C114: a header and elements that have been written to a stream which cannot seek are readable at once. When `begin_nd` and all
calls of `push` so far have succeeded, a receiver can open the file and read all the elements without waiting for more. -/
theorem C114_pipe (hM' : M'.Wf) (hpy : py.ExtendsRef) (hd : d.Wf) (hn : exactBytes d = some size) (hm : size ≤ M.isizeMax)
    (hm' : size ≤ M'.isizeMax) (hf : AllFit M'.usizeLim d) {p : RProg t.Val} (hp : t.reader M' d = .ok p) {dims : List Nat}
    (hdims : (∀ k ∈ dims, k < 2 ^ 64) ∧ nonzeroProd dims < 2 ^ 64) (hmem : dictBytes d o (.nd dims) + 76 ≤ M'.isizeMax)
    {vs : List t.Val} (hle : vs.length ≤ dims.prod) {c c1 c2 : Bytes} {w w' : NpyWriter t.Val} {rs : List (Res Unit)}
    (hb : plainStream.exec (NpyWriter.begin M t d o (.nd dims)) c = (.ok w, c1))
    (hpush : w.pushAll M plainStream vs c1 = (rs, w', c2)) (hok : ∀ r ∈ rs, r = .ok ()) (more : Bytes) :
    ∃ h, receive M' py t ⟨c2 ++ more, c.length⟩ vs.length = some (h, vs.map fun v => some (.ok (readBack t d v))) ∧
      h.dtype = d ∧ h.shape = dims ∧ h.order = o := by
  have hb' := plain_solid.exec (NpyWriter.begin M t d o (.nd dims)) c
  rw [hb] at hb'
  obtain ⟨hst, h0, -, hs1⟩ := begin_ok hb'
  have hpu := plain_solid.pushAll (M := M) vs w c1
  rw [hpush] at hpu
  simp only at hpu hs1
  have hlt : dims.prod < 2 ^ 64 := Nat.lt_of_le_of_lt (prod_le_nonzeroProd dims) hdims.2
  obtain ⟨bs, h1, h2, h3, -, h5⟩ := pushAll_solid hd hn hm vs w hst.prog (by rw [h0]; omega) (plainSink c1)
  rw [hpu] at h1 h2 h3
  simp only at h1 h2 h3
  obtain ⟨items, he⟩ : ∃ items, encodeAll (encode t d) vs = some items := by
    cases he : encodeAll (encode t d) vs with
    | some items => exact ⟨items, rfl⟩
    | none =>
      obtain ⟨v, hv, hnone⟩ := (encodeAll_none vs).mp he
      obtain ⟨i, hi, rfl⟩ := List.getElem_of_mem hv
      have hi' : i < rs.length := by rw [h2]; exact hi
      have := (h3 i hi).mp (by rw [List.getElem?_eq_getElem hi']; exact congrArg some (hok _ (List.getElem_mem _)))
      rw [hnone] at this; cases this
  have hbs := h5 items he
  subst hbs
  have hc2 : c2 = c ++ headerBytes (dictText d o (.nd dims)) ++ bs := by
    have e := congrArg (fun x => Sink.data (Prod.snd x)) h1
    simp only at e
    rw [plainSink_put] at e
    rw [plainSink_put] at hs1
    have e1 : c1 = _ := congrArg Sink.data hs1
    rw [e1] at e
    exact e
  have hno : ¬ HasObject d := fun h => by have := (exactBytes_none_iff d).mpr h; rw [hn] at this; cases this
  have hrun := run_final (M := M') hpy hst.isArray hd (hint := .nd dims) (n := 0) (by decide) hdims.1 hst.hdrFits hmem (bs ++ more)
  rw [show finalShape o 0 (.nd dims) = dims from rfl, fromParts_eq hdims.2 (itemSizeOf_ok_iff.mpr (.inr ⟨hno, hf, size, hn, rfl⟩))] at hrun
  have hdict : finalDict d o (.nd dims) 0 = dictText d o (.nd dims) := rfl
  rw [hdict] at hrun
  have hrest : (⟨c2 ++ more, c.length⟩ : Src).rest = headerBytes (dictText d o (.nd dims)) ++ (bs ++ more) := by
    simp only [Src.rest, hc2]; simp
  have hexec : disk.exec (NpyHeader.fromReader M' py) ⟨c2 ++ more, c.length⟩ =
      (.ok ⟨d, dims, exactStrides o dims, o, dims.prod, some size, d.usesPickled⟩, (⟨c2 ++ more, c.length⟩ : Src).leave (bs ++ more)) := by
    show (((NpyHeader.fromReader M' py).run (⟨c2 ++ more, c.length⟩ : Src).rest).1, (⟨c2 ++ more, c.length⟩ : Src).leave
      ((NpyHeader.fromReader M' py).run (⟨c2 ++ more, c.length⟩ : Src).rest).2) = _
    rw [hrest, hrun]
  have hleft : ((⟨c2 ++ more, c.length⟩ : Src).leave (bs ++ more)).rest = bs ++ more := by
    have : bs ++ more = (⟨c2 ++ more, c.length⟩ : Src).rest.drop (headerBytes (dictText d o (.nd dims))).length := by rw [hrest, List.drop_left]
    rw [this, Src.leave_rest _ _ (by rw [hrest]; simp)]
    simp [Src.rest, List.drop_drop]
  have hup : d.usesPickled = false := by
    cases hu : d.usesPickled with
    | false => rfl
    | true => exact absurd ((usesPickled_iff d).mp hu) hno
  have hnew : (NpyFile.new M' py disk ⟨c2 ++ more, c.length⟩).1 = .ok ⟨⟨d, dims, exactStrides o dims, o, dims.prod, some size, d.usesPickled⟩,
      (⟨c2 ++ more, c.length⟩ : Src).leave (bs ++ more)⟩ := by
    unfold NpyFile.new; rw [hexec]
  have hdata := (data_ok_iff (M := M') (t := t) (f := ⟨⟨d, dims, exactStrides o dims, o, dims.prod, some size, d.usesPickled⟩,
      (⟨c2 ++ more, c.length⟩ : Src).leave (bs ++ more)⟩)).mpr ⟨hup, p, hp, rfl⟩
  obtain ⟨r', hr'⟩ := nexts_items ((reader_ok_iff hM' t d).mp ⟨p, hp⟩).1 hn vs
    (r := ⟨⟨d, dims, exactStrides o dims, o, dims.prod, some size, d.usesPickled⟩, p, (⟨c2 ++ more, c.length⟩ : Src).leave (bs ++ more), 0⟩)
    (reader_reads t hp hd hn hm') he hleft (by simpa using hle)
  refine ⟨⟨d, dims, exactStrides o dims, o, dims.prod, some size, d.usesPickled⟩, ?_, rfl, rfl, rfl⟩
  unfold receive
  rw [if_neg (by rw [hrest, waits_of_ok hrun]; simp), hnew]
  simp only
  rw [hdata]
  simp only
  rw [hr']

/-- Two of six numbers have been sent, and a receiver tries to read `k` of them. -/
def sendTwo (k : Nat) : Option (Option (List Nat × List (Option Nat))) :=
  match plainStream.exec (NpyWriter.begin box f64 floats8 .c (.nd [2, 3])) [9, 9] with
  | (.ok w, c1) =>
    match w.pushAll box plainStream ([4#64, 5#64] : List f64.Val) c1 with
    | ([.ok (), .ok ()], _, c2) =>
      some ((receive box Py.parse f64 ⟨c2, 2⟩ k).map fun x => (x.1.shape, x.2.map fun y => match y with
        | some (.ok (v : BitVec 64)) => some v.toNat
        | _ => none))
    | _ => none
  | _ => none

/-- The hypotheses of `C114_pipe` are met by two of six numbers behind something else, which are received; the third one is waited for. -/
example : sendTwo 2 = some (some ([2, 3], [some 4, some 5])) ∧ sendTwo 3 = some none ∧ (∃ p, f64.reader box floats8 = .ok p) ∧
    dictBytes floats8 .c (.nd [2, 3]) + 76 ≤ box.isizeMax ∧ nonzeroProd [2, 3] < 2 ^ 64 :=
  ⟨by decide +kernel, by decide +kernel, ⟨_, rfl⟩, by decide +kernel, by decide⟩

/-- The hypotheses of `C114_open` are met by a stream that is not a `.npy` file, of which 8 bytes have arrived, and by a header. -/
example : (8 ≤ (⟨[1, 2, 3, 4, 5, 6, 7, 8], 0⟩ : Src).rest.length ∧ ¬ GoodPreamble (⟨[1, 2, 3, 4, 5, 6, 7, 8], 0⟩ : Src).rest) ∧
    8 ≤ (⟨9 :: headerBytes (dictText floats8 .c (.nd [2, 3])), 1⟩ : Src).rest.length ∧
    headerEnd (⟨9 :: headerBytes (dictText floats8 .c (.nd [2, 3])), 1⟩ : Src).rest ≤
      (⟨9 :: headerBytes (dictText floats8 .c (.nd [2, 3])), 1⟩ : Src).rest.length :=
  ⟨⟨by decide, fun h => absurd h.2.1 (by decide)⟩, by decide +kernel, by decide +kernel⟩

/-- The hypotheses of `C114_next` are met by one boolean out of three, which is malformed. -/
example : (match (NpyFile.new box Py.parse disk ⟨headerBytes (dictText (.plain ⟨.irrelevant, .bool, 1, none⟩) .c (.nd [3])) ++ [7], 0⟩).1 with
    | .ok f => match f.data box .bool with
      | .ok r => f.header.itemSize == some 1 && decide (f.src.pos + min 1 f.header.nRecords * 1 ≤ f.src.data.length) &&
        (match nexts 1 r with | some ([some (.err (.invalidData _))], _) => true | _ => false) && (nexts 2 r).isNone
      | _ => false
    | _ => false) = true := by decide +kernel

end Npyz.Props
