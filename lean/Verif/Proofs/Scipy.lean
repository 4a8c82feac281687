import Verif.Spec.Scipy
import Verif.Props.Numpy
import Verif.Props.Sparse
/-! SciPy's archives. -/
set_option autoImplicit false
namespace Npyz
open Spec Py Sparse Props

/-! ### What NumPy writes for plain types is ASCII -/

theorem spells_ascii {s : Text} {ts : TypeStr} (h : Spells s ts) : ∀ c ∈ s, c.toNat < 128 := by
  obtain ⟨e, c, digits, units, rfl, h1, h2, h3, h4, -⟩ := h
  have k1 : ∀ x ∈ endianTable, x.1.toNat < 128 := by decide
  have k2 : ∀ x ∈ typeTable, x.1.toNat < 128 := by decide
  have k3 : ∀ x ∈ unitTable, ∀ y ∈ x.1, y.toNat < 128 := by decide
  intro x hx
  rcases List.mem_cons.mp hx with rfl | hx
  · exact k1 _ h1
  rcases List.mem_cons.mp hx with rfl | hx
  · exact k2 _ h2
  rcases List.mem_append.mp hx with hx | hx
  · unfold SizeText at h3
    split at h3
    · rw [h3.1] at hx; cases hx
    · exact digit_lt_128 (h3.2.1 x hx)
  · cases hu : ts.timeUnits with
    | none => rw [hu] at h4; have h4 : units = [] := h4; rw [h4] at hx; cases hx
    | some u =>
      rw [hu] at h4
      obtain ⟨name, hm, rfl⟩ := h4
      rcases List.mem_append.mp hx with hx | hx
      · rcases List.mem_cons.mp hx with rfl | hx
        · decide
        · exact k3 _ hm x hx
      · rw [List.mem_singleton.mp hx]; decide

theorem intercalate_mem {sep : Text} {ls : List Text} {c : Char} (h : c ∈ List.intercalate sep ls) : c ∈ sep ∨ ∃ l ∈ ls, c ∈ l := by
  induction ls with
  | nil => simp [List.intercalate] at h
  | cons l ls ih =>
    cases ls with
    | nil => right; exact ⟨l, by simp, by simpa [List.intercalate] using h⟩
    | cons l' ls =>
      have h : c ∈ l ++ sep ++ List.intercalate sep (l' :: ls) := by simpa [List.intercalate, List.intersperse] using h
      rcases List.mem_append.mp h with h | h
      · rcases List.mem_append.mp h with h | h
        · exact .inr ⟨l, by simp, h⟩
        · exact .inl h
      · rcases ih h with h | ⟨x, hx, h⟩
        · exact .inl h
        · exact .inr ⟨x, List.mem_cons_of_mem _ hx, h⟩

theorem pyTuple_ascii (dims : List Nat) : ∀ c ∈ pyTuple dims, c.toNat < 128 := by
  have key : ∀ ns : List Nat, ∀ c ∈ ['('] ++ List.intercalate [',', ' '] (ns.map (Nat.toDigits 10)) ++ [')'], c.toNat < 128 := by
    intro ns c hc
    rcases List.mem_append.mp hc with hc | hc
    · rcases List.mem_append.mp hc with hc | hc
      · rw [List.mem_singleton.mp hc]; decide
      · rcases intercalate_mem hc with hc | ⟨l, hl, hc⟩
        · rcases List.mem_cons.mp hc with rfl | hc
          · decide
          · rw [List.mem_singleton.mp hc]; decide
        · obtain ⟨n, -, rfl⟩ := List.mem_map.mp hl
          exact toDigits_lt_128 n c hc
    · rw [List.mem_singleton.mp hc]; decide
  match dims with
  | [] => exact key []
  | [n] =>
    intro c hc
    have hc : c ∈ ['('] ++ Nat.toDigits 10 n ++ [',', ')'] := hc
    rcases List.mem_append.mp hc with hc | hc
    · rcases List.mem_append.mp hc with hc | hc
      · rw [List.mem_singleton.mp hc]; decide
      · exact toDigits_lt_128 n c hc
    · rcases List.mem_cons.mp hc with rfl | hc
      · decide
      · rw [List.mem_singleton.mp hc]; decide
  | n :: k :: ns => exact key (n :: k :: ns)

theorem numpyLine_ascii {descr : Text} {ts : TypeStr} (h : DescrText descr (.plain ts)) (o : Order) (dims : List Nat) (blanks : Nat) :
    ∀ c ∈ numpyLine descr o dims blanks, c.toNat < 128 := by
  have hd : ∀ c ∈ descr, c.toNat < 128 := by
    cases h with
    | plain hs =>
      intro c hc
      rcases List.mem_append.mp hc with hc | hc
      · rcases List.mem_append.mp hc with hc | hc
        · rw [List.mem_singleton.mp hc]; decide
        · exact spells_ascii hs c hc
      · rw [List.mem_singleton.mp hc]; decide
  have h1 : ∀ c ∈ "{'descr': ".toList, c.toNat < 128 := by decide +kernel
  have h2 : ∀ c ∈ ", 'fortran_order': ".toList, c.toNat < 128 := by decide +kernel
  have h3 : ∀ c ∈ (if o = .fortran then "True" else "False").toList, c.toNat < 128 := by cases o <;> decide +kernel
  have h4 : ∀ c ∈ ", 'shape': ".toList, c.toNat < 128 := by decide +kernel
  have h5 : ∀ c ∈ ", }".toList, c.toNat < 128 := by decide +kernel
  have h6 : ∀ c ∈ List.replicate blanks ' ', c.toNat < 128 := by
    intro c hc; rw [(List.mem_replicate.mp hc).2]; decide
  intro c hc
  unfold numpyLine at hc
  simp only [List.mem_append] at hc
  rcases hc with (((((( hc | hc) | hc) | hc) | hc) | hc) | hc) | hc
  · exact h1 c hc
  · exact hd c hc
  · exact h2 c hc
  · exact h3 c hc
  · exact h4 c hc
  · exact pyTuple_ascii dims c hc
  · exact h5 c hc
  · exact h6 c hc

/-! ### Reading what is stored -/

theorem flatten_length {items : List Bytes} {size : Nat} (h : ∀ i ∈ items, i.length = size) : items.flatten.length = items.length * size := by
  induction items with
  | nil => simp
  | cons x xs ih =>
    rw [List.flatten_cons, List.length_append, ih fun i hi => h i (List.mem_cons_of_mem _ hi), h x (by simp), List.length_cons, Nat.succ_mul]
    omega

theorem flatten_item {items : List Bytes} {size : Nat} (h : ∀ i ∈ items, i.length = size) (rest : Bytes) (i : Nat) (hi : i < items.length) :
    ((items.flatten ++ rest).drop (i * size)).take size = items[i] := by
  induction items generalizing i with
  | nil => cases hi
  | cons x xs ih =>
    have hx := h x (by simp)
    cases i with
    | zero => simp [← hx]
    | succ i =>
      rw [List.flatten_cons, Nat.succ_mul, Nat.add_comm, ← List.drop_drop, List.append_assoc, List.drop_left' hx]
      exact ih (fun i hi => h i (List.mem_cons_of_mem _ hi)) i (by simpa using hi)

theorem find_last {a : NpzArchive} {before after : List (Text × Bytes)} {file : Text} {bs : Bytes}
    (h : a.members = before ++ (file, bs) :: after) (hn : ∀ m ∈ after, m.1 ≠ file) : a.find file = some bs := by
  have e : a = ⟨(before ++ [(file, bs)]) ++ after⟩ := by
    cases a; simp only at h; rw [h]; simp
  rw [e, find_skip _ _ _ hn, find_append, if_pos rfl]

theorem map_some_length {α β : Type} {f : α → Option β} {xs : List α} {ys : List β} (h : xs.map f = ys.map some) : xs.length = ys.length := by
  simpa using congrArg List.length h

theorem map_some_get {α β : Type} {f : α → Option β} {xs : List α} {ys : List β} (h : xs.map f = ys.map some) (i : Nat) (hx : i < xs.length)
    (hy : i < ys.length) : f xs[i] = some ys[i] := by
  have := congrArg (fun l => l[i]?) h
  simpa [hx, hy] using this

/-- A file that NumPy wrote into the archive is read. -/
theorem numpyFile_holds {M : Machine} {py : PyParser} (hpy : py.ExtendsRef) {a : NpzArchive} {name : Text} {d : DType} {o : Order}
    {dims : List Nat} {bs : Bytes} {text : Text} {items : List Bytes} {rest : Bytes} {size : Nat} (hn : exactBytes d = some size)
    (hm : size ≤ M.isizeMax) (hfit : AllFit M.usizeLim d) (hfound : a.find (name ++ txt ".npy") = some bs) (hw : NumpyWrote bs d o dims text)
    (ha : byteAt bs 6 = 3 ∨ ∀ c ∈ text, c.toNat < 128) (hmem : headerEnd bs ≤ M.isizeMax)
    (h3 : bs.drop (headerEnd bs) = items.flatten ++ rest) (h4 : items.length = dims.prod) (h5 : ∀ i ∈ items, i.length = size)
    (hdims : ∀ n ∈ dims, n < 2 ^ 64) (hprod : nonzeroProd dims < 2 ^ 64) {t : Ty} {p : RProg t.Val} (hp : t.reader M d = .ok p)
    {vs : List t.Val} (hd : items.map (decode t d) = vs.map some) : Holds M py t a name d dims o vs := by
  have hle := hw.2.1
  obtain ⟨hdr, hrun, e1, e2, e3, e4⟩ := C73_understood_partial (M := M) hpy hw ha hdims hprod (.inr hfit) hmem
  have ho : Opened M hdr := ⟨py, bs, _, hrun⟩
  have hnew : NpyFile.new M py disk ⟨bs, 0⟩ = (.ok ⟨hdr, ⟨bs, headerEnd bs⟩⟩, ⟨bs, headerEnd bs⟩) := by
    unfold NpyFile.new
    have : disk.exec (NpyHeader.fromReader M py) ⟨bs, 0⟩ = (.ok hdr, ⟨bs, headerEnd bs⟩) := by
      simp only [disk, Src.rest, Src.leave, List.drop_zero, hrun]
      congr 2
      rw [List.length_drop]; omega
    rw [this]
  have hopen : a.byName M py name = .ok (some ⟨hdr, ⟨bs, headerEnd bs⟩⟩) := by
    rw [byName_find (content := bs) hfound]
    unfold NpzArchive.openMember
    rw [hnew]
  refine ⟨_, hopen, e1, e2, e3, ?_⟩
  obtain ⟨hwf, -, o1, o2⟩ := opened ho
  have hpk : hdr.usesPickled = false ∧ hdr.itemSize = some size := by
    rw [e1] at o1 o2
    have hno : ¬ HasObject d := fun h => by have := (exactBytes_none_iff _).mpr h; exact absurd (hn.symm.trans this) (by simp)
    refine ⟨?_, ?_⟩
    · rw [o1]
      cases hq : d.usesPickled with
      | false => rfl
      | true => exact absurd ((usesPickled_iff _).mp hq) hno
    · rcases o2 with ⟨o2, -⟩ | ⟨-, -, n, o3, o4⟩
      · exact absurd o2 hno
      · rw [hn] at o3; cases o3; exact o4
  have hvl := map_some_length hd
  have hel : ∀ i (hi : i < vs.length), elementAt t d bs (headerEnd bs) size i = some vs[i] := by
    intro i hi
    have hi' : i < items.length := by omega
    have hlen : bs.length = headerEnd bs + items.length * size + rest.length := by
      have := congrArg List.length h3
      rw [List.length_drop, List.length_append, flatten_length h5] at this; omega
    have hle2 : (i + 1) * size ≤ items.length * size := Nat.mul_le_mul_right _ hi'
    unfold elementAt itemAt
    rw [if_pos (by omega), ← List.drop_drop, h3, flatten_item h5 rest i hi']
    exact map_some_get hd i hi' hi
  have hnr : hdr.nRecords = vs.length := by rw [e4]; omega
  rcases C21_into_vec (t := t) (f := ⟨hdr, ⟨bs, headerEnd bs⟩⟩) ho hpk.2 hm hle with
    ⟨ws, w1, w2, -, w4⟩ | ⟨e, w1, ⟨why, w2⟩ | ⟨i, w2, w3⟩⟩
  · rw [w1]
    simp only at w2 w4
    show Out.ok ws = Out.ok _
    congr 1
    apply List.ext_getElem (by omega)
    intro i i1 i2
    have := w4 i i1
    rw [e1, hel i i2] at this
    exact (Option.some.inj this).symm
  · exfalso
    have := data_ok_iff.mpr (⟨hpk.1, p, by rw [e1]; exact hp, rfl⟩ : (⟨hdr, ⟨bs, headerEnd bs⟩⟩ : NpyFile Src).header.usesPickled = false ∧ _)
    rw [this] at w2; cases w2
  · exfalso
    simp only at w2 w3
    rw [e1, hel i (by omega)] at w3; cases w3

/-- An array that NumPy stored is read. -/
theorem stored_holds {M : Machine} (hM : M.Wf) {py : PyParser} (hpy : py.ExtendsRef) {a : NpzArchive} {name : String} {ts : TypeStr} {o : Order}
    {dims : List Nat} {items : List Bytes} {size : Nat} (hn : itemBytes ts = some size) (hm : size ≤ M.isizeMax) (hsz : size < M.usizeLim)
    (h : Stored FromNumpy a name (.plain ts) o dims items) (hmem : ∀ file ∈ a.members, headerEnd file.2 ≤ M.isizeMax)
    (hdims : ∀ n ∈ dims, n < 2 ^ 64) (hprod : nonzeroProd dims < 2 ^ 64) {t : Ty} (hr : CanRead t (.plain ts)) {vs : List t.Val}
    (hd : items.map (decode t (.plain ts)) = vs.map some) : Holds M py t a (txt name) (.plain ts) dims o vs := by
  obtain ⟨before, bs, after, rest, h1, h2, ⟨text, hw⟩, h3, h4, h5⟩ := h
  have h5 : ∀ i ∈ items, i.length = size := by
    intro i hi
    have h5 : itemBytes ts = _ := h5 i hi
    rw [hn] at h5; cases h5; rfl
  have hw' := hw
  obtain ⟨-, -, descr, blanks, k1, rfl, -⟩ := hw'
  have hfit : AllFit M.usizeLim (.plain ts) := by
    intro k hk
    have hk : itemBytes ts = some k := hk
    rw [hn] at hk; cases hk; exact hsz
  obtain ⟨p, hp⟩ := (reader_ok_iff hM t _).mpr ⟨hr, sizesFit_of_allFit (.plain ts) size hn hfit⟩
  exact numpyFile_holds hpy (d := .plain ts) hn hm hfit (find_last h1 h2) hw (.inr (numpyLine_ascii k1 o dims blanks))
    (hmem (txt name ++ txt ".npy", bs) (by rw [h1]; simp)) h3 h4 h5 hdims hprod hp hd

/-- Integers that NumPy stored are read as indices. -/
theorem storedInts_has {M : Machine} (hM : M.Wf) {py : PyParser} (hpy : py.ExtendsRef) {a : NpzArchive} {name : String} {xs : List (BitVec 64)}
    (h : StoredInts FromNumpy a name xs) (hmem : ∀ file ∈ a.members, headerEnd file.2 ≤ M.isizeMax) (hl : xs.length < 2 ^ 64) :
    HasIndices M py a name xs := by
  have hi := isizeMax_ge hM
  have hu := usizeLim_ge hM
  have hdims : ∀ n ∈ [xs.length], n < 2 ^ 64 := by simpa using hl
  obtain ⟨e, items, -, ⟨ys, h1, h2, h3⟩ | ⟨h1, h2⟩⟩ := h
  · exact .inl ⟨_, _, _, ys, stored_holds (size := 4) (t := .num .i32) hM hpy rfl (by omega) (by omega) h1 hmem hdims (nonzeroProd_one hl)
      ⟨rfl, rfl⟩ h2, h3⟩
  · exact .inr ⟨_, _, _, stored_holds (size := 8) (t := .num .i64) hM hpy rfl (by omega) (by omega) h1 hmem hdims (nonzeroProd_one hl)
      ⟨.inl rfl, rfl⟩ h2⟩

/-! ### The files of a written matrix -/

/-- The file `name.npy` of the archive has the property `Q`. -/
def FileAt (a : NpzArchive) (name : String) (Q : Bytes → Prop) : Prop :=
  ∃ before bs after, a.members = before ++ (txt name ++ txt ".npy", bs) :: after ∧ (∀ m ∈ after, m.1 ≠ txt name ++ txt ".npy") ∧ Q bs

/-- There is only one such file. -/
theorem fileAt_both {a : NpzArchive} {name : String} {Q R : Bytes → Prop} (h : FileAt a name Q) (h' : FileAt a name R) : ∃ bs, Q bs ∧ R bs := by
  obtain ⟨b, bs, c, h1, h2, h3⟩ := h
  obtain ⟨b', bs', c', h1', h2', h3'⟩ := h'
  have e := (find_last h1 h2).symm.trans (find_last h1' h2')
  cases e
  exact ⟨bs, h3, h3'⟩

theorem stored_fileAt {H : Headers} {a : NpzArchive} {name : String} {d : DType} {o : Order} {dims : List Nat} {items : List Bytes} :
    Stored H a name d o dims items ↔ FileAt a name fun bs => H bs d o dims ∧ (∃ rest, bs.drop (headerEnd bs) = items.flatten ++ rest) ∧
      items.length = dims.prod ∧ ∀ item ∈ items, exactBytes d = some item.length := by
  constructor
  · rintro ⟨b, bs, c, rest, h1, h2, h3, h4, h5⟩
    exact ⟨b, bs, c, h1, h2, h3, ⟨rest, h4⟩, h5⟩
  · rintro ⟨b, bs, c, h1, h2, h3, ⟨rest, h4⟩, h5⟩
    exact ⟨b, bs, c, rest, h1, h2, h3, h4, h5⟩

/-- A file with these values. -/
def Good (t : Ty) (d : DType) (dims : List Nat) (vs : List t.Val) (bs : Bytes) : Prop :=
  NumpyReads bs d .c dims ∧ (∀ d' o' dims', NumpyReads bs d' o' dims' → d' = d ∧ o' = .c ∧ dims' = dims) ∧
  ∃ items : List Bytes, bs.drop (headerEnd bs) = items.flatten ∧ items.length = dims.prod ∧ (∀ item ∈ items, exactBytes d = some item.length) ∧
    items.map (decode t d) = (vs.map (readBack t d)).map some ∧ vs.map (encode t d) = items.map some

theorem fileAt_keeps {M : Machine} {t : Ty} {r : DRes DType} {name name' : String} {dims : List Nat} {vs : List t.Val} {z z' : NpzWriter}
    {res : Res Unit} (h : writeArray M t r name dims vs z = (res, z')) (hne : txt name ≠ txt name') {Q : Bytes → Prop}
    (hf : FileAt z.archive name' Q) : FileAt z'.archive name' Q := by
  obtain ⟨c, hc⟩ := writeArray_adds M t r name dims vs z
  rw [h] at hc
  have hc : z' = _ := hc
  obtain ⟨b, bs, a, h1, h2, h3⟩ := hf
  refine ⟨b, bs, a ++ [(fileNameFromArrayName (txt name), c)], ?_, ?_, h3⟩
  · rw [hc]
    show z.members ++ _ = _
    have h1 : z.members = _ := h1
    rw [h1]; simp
  · intro m hm
    rcases List.mem_append.mp hm with hm | hm
    · exact h2 m hm
    · rw [List.mem_singleton.mp hm]
      exact fun e => hne (List.append_cancel_right e)

theorem encodeAll_split {α : Type} {f : α → Option Bytes} {vs : List α} {data : Bytes} (h : encodeAll f vs = some data) :
    ∃ items : List Bytes, data = items.flatten ∧ vs.map f = items.map some := by
  induction vs generalizing data with
  | nil => cases h; exact ⟨[], rfl, rfl⟩
  | cons v vs ih =>
    obtain ⟨b, bs, h1, h2, rfl⟩ := encodeAll_cons h
    obtain ⟨items, rfl, h3⟩ := ih h2
    exact ⟨b :: items, by simp, by simp [h1, h3]⟩

theorem items_decode {t : Ty} {d : DType} {size : Nat} (hc : CanRead t d) (hn : exactBytes d = some size) {vs : List t.Val} {items : List Bytes}
    (h : vs.map (encode t d) = items.map some) : items.length = vs.length ∧ (∀ item ∈ items, exactBytes d = some item.length) ∧
      items.map (decode t d) = (vs.map (readBack t d)).map some := by
  induction vs generalizing items with
  | nil =>
    cases items with
    | nil => simp
    | cons i is => simp at h
  | cons v vs ih =>
    cases items with
    | nil => simp at h
    | cons i is =>
      simp only [List.map_cons, List.cons.injEq] at h
      obtain ⟨k1, k2, k3⟩ := ih h.2
      obtain ⟨l1, l2⟩ := encode_decode t d size v i hc hn h.1
      refine ⟨by simp [k1], ?_, by simp only [List.map_cons, l2, k3]⟩
      intro x hx
      rcases List.mem_cons.mp hx with rfl | hx
      · rw [l1, hn]
      · exact k2 x hx

/-- A written array is such a file. -/
theorem fileAt_new {M : Machine} {t : Ty} {d : DType} {size : Nat} (hd : d.Wf) (hn : exactBytes d = some size) (hm : size ≤ M.isizeMax)
    (hz : NoNul d) (hu : DistinctNames d) (hr : CanRead t d) {dims : List Nat} (hprod : nonzeroProd dims < 2 ^ 64) {vs : List t.Val}
    (hc : vs.length < 2 ^ 64) (hp : dims.prod = vs.length) {name : String} {z z' : NpzWriter}
    (h : writeArray M t (.ok d) name dims vs z = (.ok (), z')) : FileAt z'.archive name (Good t d dims vs) := by
  obtain ⟨c, h1, h2⟩ := zip_saveDropped (M := M) (t := t) (d := d) (o := .c) (hint := .nd dims) (vs := vs) (z := z) (name := txt name)
  have h : NpyWriter.saveDropped M zipStream t d .c (.nd dims) vs (z.array (txt name)) = (.ok (), z') := h
  rw [h] at h1 h2
  have h1 : NpyWriter.saveDropped M solid t d .c (.nd dims) vs (plainSink []) = (.ok (), plainSink c) := h1
  have h2 : z' = _ := h2
  have h3 := saveDropped_save hd hn hm hc (by rw [shapeProduct_exact (acc := 1) (by simpa using hprod), Nat.one_mul, hp]) h1
  have hnr : NumpyReads c d .c dims := C74_numpy_reads_partial hd hn hm hz hu hc (by intro e; cases e) h3
  obtain ⟨data, he, hs, k1, k2, -⟩ := save_ok hd hn hm hc (by intro e; cases e) h3
  rw [plainSink_put] at hs
  have hs : c = headerBytes (finalDict d .c (.nd dims) vs.length) ++ data := by
    have := congrArg Sink.data hs
    simpa [plainSink] using this
  have hna := isArray_false.mp k1
  obtain ⟨txt', k, e1, e2, e3⟩ := finalDict_lit hna hz .c (.nd dims) vs.length
  have hfits := finalDict_fits (o := .c) (hint := .nd dims) hc k2
  obtain ⟨items, rfl, hi⟩ := encodeAll_split he
  obtain ⟨i1, i2, i3⟩ := items_decode hr hn hi
  refine ⟨z.members, c, [], by rw [h2]; rfl, by simp, hnr, ?_, items, ?_, by omega, i2, i3, hi⟩
  · intro d' o' dims' hr'
    rw [hs] at hr'
    exact numpyReads_unique e1 e2 (headerOf_headerDict hna hd .c _) hfits hr'
  · rw [hs, headerEnd_headerBytes hfits, List.drop_left]

theorem good_stored {a : NpzArchive} {name : String} {t : Ty} {d : DType} {dims : List Nat} {vs : List t.Val} (h : FileAt a name (Good t d dims vs)) :
    ∃ items, Stored NumpyReads a name d .c dims items ∧ items.map (decode t d) = (vs.map (readBack t d)).map some ∧
      vs.map (encode t d) = items.map some := by
  obtain ⟨b, bs, c, h1, h2, h3, -, items, h4, h5, h6, h7⟩ := h
  exact ⟨items, ⟨b, bs, c, [], h1, h2, h3, by rw [h4, List.append_nil], h5, h6⟩, h7⟩

theorem good_dims {a : NpzArchive} {name : String} {t : Ty} {d d' : DType} {dims dims' : List Nat} {vs : List t.Val} {o' : Order} {items : List Bytes}
    (h : FileAt a name (Good t d dims vs)) (h' : Stored NumpyReads a name d' o' dims' items) : dims' = dims := by
  obtain ⟨bs, h1, h2⟩ := fileAt_both h (stored_fileAt.mp h')
  exact (h1.2.1 _ _ _ h2.1).2.2

/-- A file with these indices. -/
def GoodInts (M : Machine) (xs : List (BitVec 64)) (bs : Bytes) : Prop :=
  ((∀ x ∈ xs, FitsI32 x.toInt) ∧ Good (.num .i32) (intDType M 4) [xs.length] (xs.map narrow) bs) ∨
  Good (.num .i64) (intDType M 8) [xs.length] xs bs

theorem fileAt_or {a : NpzArchive} {name : String} {P : Prop} {Q R : Bytes → Prop} :
    FileAt a name (fun bs => (P ∧ Q bs) ∨ R bs) ↔ (P ∧ FileAt a name Q) ∨ FileAt a name R := by
  constructor
  · rintro ⟨b, bs, c, h1, h2, ⟨h3, h4⟩ | h3⟩
    · exact .inl ⟨h3, b, bs, c, h1, h2, h4⟩
    · exact .inr ⟨b, bs, c, h1, h2, h3⟩
  · rintro (⟨h3, b, bs, c, h1, h2, h4⟩ | ⟨b, bs, c, h1, h2, h3⟩)
    · exact ⟨b, bs, c, h1, h2, .inl ⟨h3, h4⟩⟩
    · exact ⟨b, bs, c, h1, h2, .inr h3⟩

theorem readBack_nums {p : Prim} {d : DType} (vs : List (Ty.num p).Val) : vs.map (readBack (.num p) d) = vs := map_exact (t := .num p) trivial vs

theorem one_prod (n : Nat) : [n].prod = n := by simp [List.prod_cons, List.prod_nil]

theorem writeIndices_file {M : Machine} (hM : M.Wf) {name : String} {xs : List (BitVec 64)} (hc : xs.length < 2 ^ 64)
    {z z' : NpzWriter} (h : writeIndices M name xs z = (.ok (), z')) : FileAt z'.archive name (GoodInts M xs) := by
  have hi := isizeMax_ge hM
  have hl : (xs.map narrow).length = xs.length := List.length_map narrow
  unfold writeIndices at h
  refine fileAt_or.mpr ?_
  by_cases hn : ∀ x ∈ xs, FitsI32 x.toInt
  · rw [if_pos ((narrow_iff xs).mpr hn), i32DType_eq] at h
    exact .inl ⟨hn, fileAt_new (t := .num .i32) (plain_int4 M).wf (plain_int4 M).exact (by omega) trivial trivial ⟨rfl, rfl⟩ (nonzeroProd_one hc)
      (show (xs.map narrow).length < 2 ^ 64 from hl ▸ hc) ((one_prod _).trans hl.symm) h⟩
  · rw [if_neg (fun e => hn ((narrow_iff xs).mp e)), i64DType_eq] at h
    exact .inr (fileAt_new (t := .num .i64) (plain_int8 M).wf (plain_int8 M).exact (by omega) trivial trivial ⟨.inl rfl, rfl⟩ (nonzeroProd_one hc)
      hc (one_prod _) h)

theorem intDType_eq (M : Machine) (n : Nat) : ∃ e : Endianness, e ≠ .irrelevant ∧ intDType M n = .plain ⟨e, .int, n, none⟩ := by
  unfold intDType
  cases M.bigEndian
  · exact ⟨.little, by decide, rfl⟩
  · exact ⟨.big, by decide, rfl⟩

theorem goodInts_stored {M : Machine} {a : NpzArchive} {name : String} {xs : List (BitVec 64)} (h : FileAt a name (GoodInts M xs)) :
    StoredInts NumpyReads a name xs := by
  rcases fileAt_or.mp h with ⟨hn, h⟩ | h
  · obtain ⟨e, he, hd⟩ := intDType_eq M 4
    obtain ⟨items, h1, h2, -⟩ := good_stored h
    have h2 := h2.trans (congrArg (List.map some) (readBack_nums _))
    rw [hd] at h1 h2
    refine ⟨e, items, he, .inl ⟨xs.map narrow, h1, h2, ?_⟩⟩
    rw [List.map_map]
    conv => lhs; rw [← List.map_id xs]
    exact List.map_congr_left fun x hx => (widen_narrow (hn x hx)).symm
  · obtain ⟨e, he, hd⟩ := intDType_eq M 8
    obtain ⟨items, h1, h2, -⟩ := good_stored h
    have h2 := h2.trans (congrArg (List.map some) (readBack_nums _))
    rw [hd] at h1 h2
    exact ⟨e, items, he, .inr ⟨h1, h2⟩⟩

theorem goodInts_length {M : Machine} {a : NpzArchive} {name : String} {xs ys : List (BitVec 64)} (h : FileAt a name (GoodInts M xs))
    (h' : StoredInts NumpyReads a name ys) : ys.length = xs.length := by
  have key : ∀ {d : DType} {items : List Bytes}, Stored NumpyReads a name d .c [ys.length] items → [ys.length] = [xs.length] := by
    intro d items hs
    rcases fileAt_or.mp h with ⟨-, h⟩ | h
    · exact good_dims h hs
    · exact good_dims h hs
  obtain ⟨e, items, -, ⟨_, h1, -⟩ | ⟨h1, -⟩⟩ := h'
  · exact List.head_eq_of_cons_eq (key h1)
  · exact List.head_eq_of_cons_eq (key h1)

theorem writeShape_file {M : Machine} (hM : M.Wf) {shape : BitVec 64 × BitVec 64} {z z' : NpzWriter}
    (h : writeShape M shape z = (.ok (), z')) : FileAt z'.archive "shape" (GoodInts M [shape.1, shape.2]) := by
  have hi := isizeMax_ge hM
  have h2 : (2 : Nat) < 2 ^ 64 := by decide
  unfold writeShape at h
  rw [i64DType_eq] at h
  exact fileAt_or.mpr (.inr (fileAt_new (t := .num .i64) (vs := [shape.1, shape.2]) (plain_int8 M).wf (plain_int8 M).exact (by omega) trivial trivial
    ⟨.inl rfl, rfl⟩ (nonzeroProd_one h2) h2 (one_prod _) h))

theorem writeFormat_file {M : Machine} (hM : M.Wf) {name : String} {z z' : NpzWriter}
    (h : writeFormatArray M name z = (.ok (), z')) : FileAt z'.archive "format" (Good .vecU8 (.plain s3) [] [strBytes name]) := by
  have hi := isizeMax_ge hM
  exact fileAt_new (t := .vecU8) (vs := [strBytes name]) plain_s3.wf plain_s3.exact (by omega) trivial trivial (.inr rfl) (by decide)
    (show (1 : Nat) < 2 ^ 64 by decide) rfl h

theorem keeps_indices {M : Machine} {name name' : String} {xs : List (BitVec 64)} {z z' : NpzWriter} {res : Res Unit}
    (h : writeIndices M name xs z = (res, z')) (hne : txt name ≠ txt name') {Q : Bytes → Prop} (hf : FileAt z.archive name' Q) :
    FileAt z'.archive name' Q := by
  unfold writeIndices at h
  split at h
  · exact fileAt_keeps h hne hf
  · exact fileAt_keeps h hne hf

/-- The files of a written matrix. -/
structure Filed (M : Machine) {t : Ty} (d : DType) (a : NpzArchive) (m : Sparse t) : Prop where
  format : FileAt a "format" (Good .vecU8 (.plain s3) [] [strBytes (formatName m)])
  shape : FileAt a "shape" (GoodInts M [(shapeOf m).1, (shapeOf m).2])
  indices : ∀ x ∈ indexArrays m, FileAt a x.1 (GoodInts M x.2)
  data : FileAt a "data" (Good t d (dataDims m) (dataOf m))

section
variable {M M' : Machine} {t : Ty} {d : DType}

theorem data_file (hM : M.Wf) {m : Sparse t} (hdef : t.defaultDType M = some (.ok d)) (hz : NoNul d) (hu : DistinctNames d)
    (hf : SparseFits M M' d m) (hp : (dataDims m).prod = (dataOf m).length) {z z' : NpzWriter}
    (h : writeData M t (.ok d) (dataOf m) (dataDims m) z = (.ok (), z')) :
    FileAt z'.archive "data" (Good t d (dataDims m) (dataOf m)) := by
  have h64 := usizeLim_le hM
  obtain ⟨n, hn, hm, -⟩ := hf.size
  obtain ⟨d', e, hwf, hdf, -⟩ := default_ok hM t _ hf.consts hdef
  cases e
  exact fileAt_new hwf hn hm hz hu (default_canRead _ t d hdf) (Nat.lt_of_lt_of_le hf.prod h64) hf.count.1 hp h

theorem filed_two (hM : M.Wf) {m : Sparse t} (hdef : t.defaultDType M = some (.ok d)) (hz : NoNul d) (hu : DistinctNames d)
    (hf : SparseFits M M' d m) {n1 n2 : String} {xs ys : List (BitVec 64)} (hi : indexArrays m = [(n1, xs), (n2, ys)])
    (hne : txt n1 ≠ txt "format" ∧ txt n1 ≠ txt "shape" ∧ txt n2 ≠ txt "format" ∧ txt n2 ≠ txt "shape" ∧ txt n2 ≠ txt n1 ∧
      txt "data" ≠ txt n1 ∧ txt "data" ≠ txt n2) {k : NpzWriter → Res Unit × NpzWriter}
    (hk : ∀ z z', k z = (.ok (), z') → writeData M t (.ok d) (dataOf m) (dataDims m) z = (.ok (), z') ∧ (dataDims m).prod = (dataOf m).length)
    {z z' : NpzWriter}
    (h : Sparse.andThen (writeFormatArray M (formatName m) z) (fun z => Sparse.andThen (writeShape M (shapeOf m) z) fun z =>
      Sparse.andThen (writeIndices M n1 xs z) fun z => Sparse.andThen (writeIndices M n2 ys z) k) = (.ok (), z')) :
    Filed M d z'.archive m := by
  have hx : xs.length < 2 ^ 64 := hf.count.2 (n1, xs) (by simp [hi])
  have hy : ys.length < 2 ^ 64 := hf.count.2 (n2, ys) (by simp [hi])
  obtain ⟨f1, f2, f3, f4, f5, f6, f7⟩ := hne
  obtain ⟨z1, h1, h⟩ := andThen_ok h
  obtain ⟨z2, h2, h⟩ := andThen_ok h
  obtain ⟨z3, h3, h⟩ := andThen_ok h
  obtain ⟨z4, h4, h⟩ := andThen_ok h
  obtain ⟨h5, hp⟩ := hk _ _ h
  have d1 : txt "data" ≠ txt "format" ∧ txt "data" ≠ txt "shape" ∧ txt "shape" ≠ txt "format" := by decide +kernel
  refine ⟨fileAt_keeps h5 d1.1 (keeps_indices h4 f3 (keeps_indices h3 f1 (fileAt_keeps h2 d1.2.2 (writeFormat_file hM h1)))),
    fileAt_keeps h5 d1.2.1 (keeps_indices h4 f4 (keeps_indices h3 f2 (writeShape_file hM h2))), ?_, data_file hM hdef hz hu hf hp h5⟩
  intro x hx'
  rw [hi] at hx'
  simp only [List.mem_cons, List.not_mem_nil, or_false] at hx'
  rcases hx' with rfl | rfl
  · exact fileAt_keeps h5 f6 (keeps_indices h4 f5 (writeIndices_file hM hx h3))
  · exact fileAt_keeps h5 f7 (writeIndices_file hM hy h4)

theorem filed_one (hM : M.Wf) {m : Sparse t} (hdef : t.defaultDType M = some (.ok d)) (hz : NoNul d) (hu : DistinctNames d)
    (hf : SparseFits M M' d m) {n1 : String} {xs : List (BitVec 64)} (hi : indexArrays m = [(n1, xs)])
    (hne : txt n1 ≠ txt "format" ∧ txt n1 ≠ txt "shape" ∧ txt "data" ≠ txt n1) {k : NpzWriter → Res Unit × NpzWriter}
    (hk : ∀ z z', k z = (.ok (), z') → writeData M t (.ok d) (dataOf m) (dataDims m) z = (.ok (), z') ∧ (dataDims m).prod = (dataOf m).length)
    {z z' : NpzWriter}
    (h : Sparse.andThen (writeFormatArray M (formatName m) z) (fun z => Sparse.andThen (writeShape M (shapeOf m) z) fun z =>
      Sparse.andThen (writeIndices M n1 xs z) k) = (.ok (), z')) :
    Filed M d z'.archive m := by
  have hx : xs.length < 2 ^ 64 := hf.count.2 (n1, xs) (by simp [hi])
  obtain ⟨f1, f2, f6⟩ := hne
  obtain ⟨z1, h1, h⟩ := andThen_ok h
  obtain ⟨z2, h2, h⟩ := andThen_ok h
  obtain ⟨z3, h3, h⟩ := andThen_ok h
  obtain ⟨h5, hp⟩ := hk _ _ h
  have d1 : txt "data" ≠ txt "format" ∧ txt "data" ≠ txt "shape" ∧ txt "shape" ≠ txt "format" := by decide +kernel
  refine ⟨fileAt_keeps h5 d1.1 (keeps_indices h3 f1 (fileAt_keeps h2 d1.2.2 (writeFormat_file hM h1))),
    fileAt_keeps h5 d1.2.1 (keeps_indices h3 f2 (writeShape_file hM h2)), ?_, data_file hM hdef hz hu hf hp h5⟩
  intro x hx'
  rw [hi] at hx'
  simp only [List.mem_cons, List.not_mem_nil, or_false] at hx'
  rcases hx' with rfl
  exact fileAt_keeps h5 f6 (writeIndices_file hM hx h3)

theorem write_filed (hM : M.Wf) {m : Sparse t} (hdef : t.defaultDType M = some (.ok d)) (hz : NoNul d) (hu : DistinctNames d)
    (hf : SparseFits M M' d m) {z z' : NpzWriter} (h : m.writeNpz M hdef z = (.ok (), z')) : Filed M d z'.archive m := by
  cases m with
  | coo m => exact filed_two hM hdef hz hu hf rfl (by decide +kernel) (fun z z' h => ⟨h, one_prod _⟩) h
  | csr m => exact filed_two hM hdef hz hu hf rfl (by decide +kernel) (fun z z' h => ⟨h, one_prod _⟩) h
  | csc m => exact filed_two hM hdef hz hu hf rfl (by decide +kernel) (fun z z' h => ⟨h, one_prod _⟩) h
  | dia m =>
    refine filed_one hM hdef hz hu hf rfl (by decide +kernel) (fun z z' h => ?_) h
    obtain ⟨h1, h2⟩ := assertThat_ok h
    refine ⟨h2, ?_⟩
    unfold Dia.check at h1
    simp only [Bool.and_eq_true, decide_eq_true_eq] at h1
    show [m.data.length / m.offsets.length, m.offsets.length].prod = m.data.length
    rw [List.prod_cons, one_prod]
    exact Nat.div_mul_cancel (Nat.dvd_of_mod_eq_zero h1.2)
  | bsr m =>
    refine filed_two hM hdef hz hu hf rfl (by decide +kernel) (fun z z' h => ?_) h
    obtain ⟨h1, h2⟩ := assertThat_ok h
    refine ⟨h2, ?_⟩
    rw [Bsr.check_exact hf.prod] at h1
    show [m.indices.length, m.blocksize.1, m.blocksize.2].prod = m.data.length
    rw [List.prod_cons, List.prod_cons, one_prod, h1, Nat.mul_assoc]

end
end Npyz
