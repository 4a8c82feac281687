import Verif.Model.Header
import Verif.Spec.DType
import Verif.Proofs.TypeStr
import Verif.Proofs.Py
import Verif.Proofs.Utf8
/-! `DType::descr` and `DType::from_descr`. -/
namespace Npyz
open Py Spec

theorem pyQuote_eq (name : Text) : pyQuote name = '\'' :: (name.flatMap esc ++ ['\'']) := by
  have : replaceChar '\n' ['\\', 'n'] (replaceChar '\r' ['\\', 'r']
    (replaceChar '\'' ['\\', '\''] (replaceChar '\\' ['\\', '\\'] name))) = name.flatMap esc := by
    induction name with
    | nil => rfl
    | cons c s ih =>
      simp only [replaceChar, List.flatMap_cons, List.flatMap_append] at ih ⊢
      rw [ih]
      congr 1
      unfold esc
      by_cases h1 : c = '\\'
      · subst h1; decide
      by_cases h2 : c = '\''
      · subst h2; decide
      by_cases h3 : c = '\r'
      · subst h3; decide
      by_cases h4 : c = '\n'
      · subst h4; decide
      simp [h1, h2, h3, h4]
  simp [pyQuote, this]

theorem lit_pyQuote (name : Text) : Lit (pyQuote name) (.str name) := by
  rw [pyQuote_eq]; exact lit_quoted name

theorem digit_plain {c : Char} (h : c.isDigit = true) : c ≠ '\\' ∧ c ≠ '\'' ∧ c ≠ '\r' ∧ c ≠ '\n' :=
  ⟨digit_ne h _ (by decide), digit_ne h _ (by decide), digit_ne h _ (by decide), digit_ne h _ (by decide)⟩

theorem display_plain (t : TypeStr) : ∀ c ∈ t.display, c ≠ '\\' ∧ c ≠ '\'' ∧ c ≠ '\r' ∧ c ≠ '\n' := by
  intro c hc
  simp only [TypeStr.display, List.mem_append] at hc
  rcases hc with ((hc | hc) | hc) | hc
  · revert hc; cases t.endianness <;> simp only [Endianness.toStr, List.mem_singleton] <;> rintro rfl <;> decide
  · revert hc; cases t.typeChar <;> simp only [TypeChar.toStr, List.mem_singleton] <;> rintro rfl <;> decide
  · split at hc
    · simp at hc
    · exact digit_plain (isDigit_toDigits hc)
  · revert hc
    cases t.timeUnits with
    | none => simp [TypeStr.displayUnits]
    | some u =>
      have : ∀ c ∈ TypeStr.displayUnits (some u), c ≠ '\\' ∧ c ≠ '\'' ∧ c ≠ '\r' ∧ c ≠ '\n' := by
        cases u <;> decide
      exact this c

theorem lit_plainDescr (t : TypeStr) : Lit (plainDescr t) (.str t.display) := by
  have := lit_quoted t.display
  rw [esc_of_plain (display_plain t)] at this
  simpa [plainDescr] using this

/-- The Python value of a shape. -/
def pyDims (ds : List Nat) : List PyVal := ds.map fun n : Nat => .int n

mutual
/-- The Python value `elemDescr` spells. -/
def DType.pyElem : DType → PyVal
  | .plain t => .str t.display
  | .array _ d => d.pyElem
  | .record fs => .list fs.py
def Fields.py : Fields → List PyVal
  | .nil => []
  | .cons name (.array n d) rest =>
    .tuple [.str name, d.pyElem, .tuple (pyDims (n :: d.dims))] :: rest.py
  | .cons name d rest => .tuple [.str name, d.pyElem] :: rest.py
end

theorem items_dims (ds : List Nat) : Items ')' (dimsText ds ++ [')']) (pyDims ds) := by
  induction ds with
  | nil => exact items_nil ')' (by decide)
  | cons n ds ih =>
    have := items_cons 0 (Or.inl rfl) (lit_nat n) ih
    simpa [dimsText, pyDims] using this

theorem lit_dims (ds : List Nat) : Lit ('(' :: (dimsText ds ++ [')'])) (.tuple (pyDims ds)) :=
  lit_tuple (items_dims ds)

theorem descr_eq_elemDescr {d : DType} (h : d.NotArray) : d.descr = d.elemDescr := by
  cases d <;> first | rfl | exact h.elim

theorem elemDescr_elem (d : DType) : d.elemDescr = d.elem.descr := by
  induction d using DType.rec (motive_2 := fun _ => True) with
  | plain t => rfl
  | array n d ih => simpa [DType.elemDescr, DType.elem] using ih
  | record fs => rfl
  | nil => trivial
  | cons => trivial

theorem wrapDims_dims (d : DType) : wrapDims d.dims d.elem = d := by
  induction d using DType.rec (motive_2 := fun _ => True) with
  | plain t => rfl
  | array n d ih => simpa [DType.dims, DType.elem, wrapDims] using ih
  | record fs => rfl
  | nil => trivial
  | cons => trivial

theorem lit_field2 {name : Text} {t : Text} {v : PyVal} (h : Lit t v) :
    Lit (txt "(" ++ pyQuote name ++ txt ", " ++ t ++ txt ")") (.tuple [.str name, v]) := by
  have := lit_tuple (items_cons_cons_last 1 (Or.inl rfl) (lit_pyQuote name) h)
  simpa [txt] using this

theorem lit_field3 {name : Text} {t : Text} {v : PyVal} {ds : List Nat} (h : Lit t v) :
    Lit (txt "(" ++ pyQuote name ++ txt ", " ++ t ++ txt ", (" ++ dimsText ds ++ txt "))")
      (.tuple [.str name, v, .tuple (pyDims ds)]) := by
  have := lit_tuple (items_three 1 1 (Or.inl rfl) (lit_pyQuote name) h (lit_dims ds))
  simpa [txt] using this

mutual
theorem lit_elemDescr : (d : DType) → Lit d.elemDescr d.pyElem
  | .plain t => by simpa [DType.elemDescr, DType.pyElem] using lit_plainDescr t
  | .array n d => by simpa [DType.elemDescr, DType.pyElem] using lit_elemDescr d
  | .record fs => by
    have := lit_list (items_fields fs)
    simpa [DType.elemDescr, DType.pyElem, bracket] using this
theorem items_fields : (fs : Fields) → Items ']' (fs.descr ++ [']']) fs.py
  | .nil => items_nil ']' (by decide)
  | .cons name (.array n d) rest => by
    have h := items_cons 1 (Or.inr rfl) (lit_field3 (name := name) (ds := n :: d.dims) (lit_elemDescr d))
      (items_fields rest)
    simpa [Fields.descr, Fields.py, txt] using h
  | .cons name (.plain t) rest => by
    have h := items_cons 1 (Or.inr rfl) (lit_field2 (name := name) (lit_elemDescr (.plain t)))
      (items_fields rest)
    simpa [Fields.descr, Fields.py, txt, DType.descr, DType.elemDescr] using h
  | .cons name (.record fs) rest => by
    have h := items_cons 1 (Or.inr rfl) (lit_field2 (name := name) (lit_elemDescr (.record fs)))
      (items_fields rest)
    simpa [Fields.descr, Fields.py, txt, DType.descr, DType.elemDescr] using h
end

theorem shapeIntegers_pyDims {ds : List Nat} (h : ∀ n ∈ ds, n < 2 ^ 64) :
    shapeIntegers (pyDims ds) = .ok ds := by
  induction ds with
  | nil => rfl
  | cons n ds ih =>
    have hn := h n (by simp)
    have : shapeInteger (.int n) = .ok n := by
      simp only [shapeInteger]
      rw [if_neg (by omega), if_pos (by simpa using hn)]; simp
    simp only [pyDims, List.map_cons, shapeIntegers]
    rw [this]
    have ih := ih (fun m hm => h m (by simp [hm]))
    simp only [pyDims] at ih
    simp [ih]

theorem dims_lt (d : DType) (h : d.Wf) : ∀ n ∈ d.dims, n < 2 ^ 64 := by
  induction d using DType.rec (motive_2 := fun _ => True) with
  | plain t => simp [DType.dims]
  | array n d ih =>
    simp only [DType.Wf] at h
    simp only [DType.dims, List.mem_cons]
    rintro m (rfl | hm)
    · exact h.1
    · exact ih h.2 m hm
  | record fs => simp [DType.dims]
  | nil => trivial
  | cons => trivial

theorem convertTypeStr_display {t : TypeStr} (h : t.Wf) : convertTypeStr t.display = .ok t := by
  simp [convertTypeStr, parse_display h]

mutual
theorem fromDescr_pyElem : (d : DType) → d.Wf → DType.fromDescr d.pyElem = .ok d.elem
  | .plain t, h => by
    simp only [DType.Wf] at h
    simp [DType.pyElem, DType.fromDescr, convertTypeStr_display h, DType.elem]
  | .array n d, h => by
    simp only [DType.Wf] at h
    simpa [DType.pyElem, DType.elem] using fromDescr_pyElem d h.2
  | .record fs, h => by
    simp only [DType.Wf] at h
    simp [DType.pyElem, DType.fromDescr, fromList_py fs h, DType.elem]
theorem fromList_py : (fs : Fields) → fs.Wf → Fields.fromList fs.py = .ok fs
  | .nil, _ => rfl
  | .cons name (.array n d) rest, h => by
    simp only [Fields.Wf, DType.Wf] at h
    have h1 := fromDescr_pyElem d h.1.2
    have h2 := fromList_py rest h.2
    have h3 : shapeIntegers (pyDims (n :: d.dims)) = .ok (n :: d.dims) :=
      shapeIntegers_pyDims (by
        intro m hm
        rcases List.mem_cons.mp hm with rfl | hm
        · exact h.1.1
        · exact dims_lt d h.1.2 m hm)
    have h4 := wrapDims_dims (.array n d)
    simp only [DType.dims, DType.elem] at h4
    simp [Fields.py, Fields.fromList, fieldFromVal, fieldFromTuple, fieldName, h1, h2, convertShape, h3, h4]
  | .cons name (.plain t) rest, h => by
    simp only [Fields.Wf] at h
    have h1 := fromDescr_pyElem (.plain t) h.1
    have h2 := fromList_py rest h.2
    simp only [DType.elem] at h1
    simp [Fields.py, Fields.fromList, fieldFromVal, fieldFromTuple, fieldName, h1, h2]
  | .cons name (.record fs) rest, h => by
    simp only [Fields.Wf] at h
    have h1 := fromDescr_pyElem (.record fs) h.1
    have h2 := fromList_py rest h.2
    simp only [DType.elem] at h1
    simp [Fields.py, Fields.fromList, fieldFromVal, fieldFromTuple, fieldName, h1, h2]
end

theorem elem_of_notArray {d : DType} (h : d.NotArray) : d.elem = d := by
  cases d <;> first | rfl | exact h.elim

/-- Parsing `descr()` with the reference parser. -/
theorem lit_descr {d : DType} (h : d.NotArray) : Lit d.descr d.pyElem := by
  rw [descr_eq_elemDescr h]; exact lit_elemDescr d

theorem fromDescr_py {d : DType} (hn : d.NotArray) (h : d.Wf) : DType.fromDescr d.pyElem = .ok d := by
  rw [fromDescr_pyElem d h, elem_of_notArray hn]

/-! Text without newline survives `stripNewline`. -/

theorem encodeUtf8_ascii {s : Text} (h : ∀ c ∈ s, c.toNat < 128) :
    encodeUtf8 s = s.map fun c => UInt8.ofNat c.toNat := by
  induction s with
  | nil => rfl
  | cons c s ih =>
    rw [encodeUtf8_cons, ih (fun x hx => h x (by simp [hx])), utf8EncodeChar_def,
      if_pos (by have := h c (by simp); omega)]
    rfl

theorem mem_utf8EncodeChar_newline {c : Char} (h : (10 : UInt8) ∈ String.utf8EncodeChar c) : c = '\n' := by
  have hlt := char_toNat_lt c
  rw [utf8EncodeChar_def] at h
  have key : ∀ n, n < 256 → (10 : UInt8) = UInt8.ofNat n → n = 10 := by
    intro n hn he
    have := congrArg UInt8.toNat he
    rw [toNat_ofNat_lt hn] at this
    simpa using this.symm
  split at h
  · simp only [List.mem_singleton] at h
    have := key _ (by omega) h
    exact Char.toNat_inj.mp this
  · split at h
    · simp only [List.mem_cons, List.not_mem_nil, or_false] at h
      rcases h with h | h
      · have := key _ (by omega) h; omega
      · have := key _ (by omega) h; omega
    · split at h
      · simp only [List.mem_cons, List.not_mem_nil, or_false] at h
        rcases h with h | h | h
        · have := key _ (by omega) h; omega
        · have := key _ (by omega) h; omega
        · have := key _ (by omega) h; omega
      · simp only [List.mem_cons, List.not_mem_nil, or_false] at h
        rcases h with h | h | h | h
        · have := key _ (by omega) h; omega
        · have := key _ (by omega) h; omega
        · have := key _ (by omega) h; omega
        · have := key _ (by omega) h; omega

theorem mem_encodeUtf8_newline {s : Text} (h : (10 : UInt8) ∈ encodeUtf8 s) : '\n' ∈ s := by
  simp only [encodeUtf8, List.mem_flatMap] at h
  obtain ⟨c, hc, h⟩ := h
  rw [mem_utf8EncodeChar_newline h] at hc
  exact hc

theorem stripNewline_of_not_mem {b : Bytes} (h : (10 : UInt8) ∉ b) : stripNewline b = b := by
  unfold stripNewline
  rw [if_neg]
  intro hl
  exact h (List.mem_of_getLast? hl)

theorem stripNewline_append (b : Bytes) : stripNewline (b ++ [10]) = b := by
  simp [stripNewline]

theorem parseHeaderText_append {py : PyParser} {s : Text} :
    parseHeaderText py (encodeUtf8 s ++ [10]) = parseResult (py s) := by
  simp [parseHeaderText, stripNewline_append, decodeUtf8_encode]

/-! `descr` of a well-formed dtype contains no newline. -/

theorem not_mem_pyQuote (name : Text) : '\n' ∉ pyQuote name := by
  rw [pyQuote_eq]
  simp only [List.mem_cons, List.mem_append, List.mem_flatMap]
  rintro (h | ⟨c, _, h⟩ | h)
  · revert h; decide
  · unfold esc at h
    by_cases h1 : c = '\\'
    · subst h1; revert h; decide
    by_cases h2 : c = '\''
    · subst h2; revert h; decide
    by_cases h3 : c = '\r'
    · subst h3; revert h; decide
    by_cases h4 : c = '\n'
    · subst h4; revert h; decide
    simp [h1, h2, h3, h4] at h
    exact h4 h.symm
  · revert h; decide

theorem not_mem_dimsText (ds : List Nat) : '\n' ∉ dimsText ds := by
  simp only [dimsText, List.mem_flatMap, List.mem_append]
  rintro ⟨n, _, h | h⟩
  · exact absurd (isDigit_toDigits h) (by decide)
  · revert h; decide

theorem not_mem_plainDescr (t : TypeStr) : '\n' ∉ plainDescr t := by
  simp only [plainDescr, List.mem_append]
  rintro ((h | h) | h)
  · revert h; decide
  · exact (display_plain t _ h).2.2.2 rfl
  · revert h; decide

mutual
theorem not_mem_elemDescr : (d : DType) → '\n' ∉ d.elemDescr
  | .plain t => by simpa [DType.elemDescr] using not_mem_plainDescr t
  | .array n d => by simpa [DType.elemDescr] using not_mem_elemDescr d
  | .record fs => by simpa [DType.elemDescr, bracket] using not_mem_fields fs
theorem not_mem_fields : (fs : Fields) → '\n' ∉ fs.descr
  | .nil => by simp [Fields.descr]
  | .cons name (.array n d) rest => by
    simpa [Fields.descr, txt] using ⟨not_mem_pyQuote name, not_mem_elemDescr d, not_mem_dimsText _, not_mem_fields rest⟩
  | .cons name (.plain t) rest => by
    simpa [Fields.descr, txt, DType.descr] using ⟨not_mem_pyQuote name, not_mem_plainDescr t, not_mem_fields rest⟩
  | .cons name (.record fs) rest => by
    simpa [Fields.descr, txt, DType.descr, bracket] using ⟨not_mem_pyQuote name, not_mem_fields fs, not_mem_fields rest⟩
end

theorem not_mem_descr {d : DType} (h : d.NotArray) : '\n' ∉ d.descr := by
  rw [descr_eq_elemDescr h]; exact not_mem_elemDescr d

theorem parse_descr {py : PyParser} (hpy : py.ExtendsRef) {d : DType} (hn : d.NotArray) (h : d.Wf) :
    DType.parse py d.descr = .ok d := by
  have h1 := parse_of_lit (lit_descr hn) 0
  simp only [List.replicate_zero, List.append_nil] at h1
  have h2 := hpy _ _ h1
  unfold DType.parse parseHeaderText
  rw [stripNewline_of_not_mem (fun hm => not_mem_descr hn (mem_encodeUtf8_newline hm)),
    decodeUtf8_encode]
  simp [h2, parseResult, fromDescr_py hn h]

end Npyz
