import Verif.Model.Derive
/-!
C109: the derived implementations work for all names of fields.
-/
namespace Npyz.Spec
set_option autoImplicit false

/-- What a name of a field reads as: without the prefix for raw identifiers. -/
def Reads (ident name : Text) : Prop := (ident = txt "r#" ++ name ∨ ident = name) ∧ ¬ txt "r#" <+: name

/-- The fields of a struct have these names, which are distinct. -/
structure FieldsNamed (idents names : List Text) : Prop where
  len : idents.length = names.length
  reads : ∀ p ∈ idents.zip names, Reads p.1 p.2
  nodup : names.Nodup

/-- No field but the last has this name. -/
def OnlyLast (x : Text) (names : List Text) : Prop := x ∉ names.dropLast

instance (x : Text) (names : List Text) : Decidable (OnlyLast x names) := inferInstanceAs (Decidable (x ∉ names.dropLast))

end Npyz.Spec

namespace Npyz.Props
set_option autoImplicit false
open Npyz.Spec Npyz.Derive

theorem unraw_plain {s : Text} (h : ¬ txt "r#" <+: s) : unraw s = s := by
  unfold unraw
  split
  · rename_i rest
    exact absurd ⟨rest, rfl⟩ h
  · rfl

theorem unraw_reads {ident name : Text} (h : Reads ident name) : unraw ident = name := by
  obtain ⟨h | h, hn⟩ := h
  · subst h
    show unraw ('r' :: '#' :: name) = name
    unfold unraw
    exact unraw_plain hn
  · subst h
    exact unraw_plain hn

theorem unraw_names {idents names : List Text} (h : FieldsNamed idents names) : idents.map unraw = names := by
  obtain ⟨hl, hr, -⟩ := h
  induction idents generalizing names with
  | nil => cases names with
    | nil => rfl
    | cons => simp at hl
  | cons x xs ih =>
    cases names with
    | nil => simp at hl
    | cons y ys =>
      simp only [List.map_cons]
      rw [unraw_reads (hr (x, y) (by simp)), ih (by simpa using hl) fun p hp => hr p (by simp [hp])]

/-- C109: the fields have the names of the struct's fields, without `r#`. -/
theorem C109_names {idents names : List Text} (h : FieldsNamed idents names) : fieldNames idents = names := unraw_names h

theorem access_mem {names : List Text} (hn : names.Nodup) {i : Nat} {x : Text} (hx : names[i]? = some x) : access names x = some i := by
  unfold access
  induction names generalizing i with
  | nil => simp at hx
  | cons y ys ih =>
    rw [List.findIdx?_cons]
    cases i with
    | zero =>
      simp only [List.getElem?_cons_zero, Option.some.injEq] at hx
      subst hx
      simp
    | succ i =>
      simp only [List.getElem?_cons_succ] at hx
      have hm : x ∈ ys := List.mem_of_getElem? hx
      have hne : (y == x) = false := by
        simp only [beq_eq_false_iff_ne, ne_eq]
        rintro rfl
        exact (List.nodup_cons.mp hn).1 hm
      rw [hne, ih (List.nodup_cons.mp hn).2 hx]
      rfl

theorem steps_suffix {all : List Text} (hn : all.Nodup) : ∀ (rest : List Text) (k : Nat), all.drop k = rest →
    writeSteps all rest = some (List.range' k rest.length)
  | [], _, _ => rfl
  | x :: xs, k, h => by
    have hx : all[k]? = some x := by
      have := congrArg (·[0]?) h
      simpa using this
    have ht : all.drop (k + 1) = xs := by
      have := congrArg List.tail h
      simpa [List.tail_drop] using this
    simp only [writeSteps, access_mem hn hx, steps_suffix hn xs (k + 1) ht, List.length_cons, List.range'_succ]

/-- C109: the derived `Serialize` compiles for all names and writes the fields in the order of their declaration. -/
theorem C109_write {idents names : List Text} (h : FieldsNamed idents names) : writeOne idents = some (List.range idents.length) := by
  unfold writeOne
  rw [unraw_names h, steps_suffix h.nodup names 0 rfl, h.len, List.range_eq_range']

/-- The scope after the statements of the fields, from the `i`-th. -/
def build (s : Scope) (i : Nat) : List Text → Scope
  | [] => s
  | x :: xs => build ((x, .value i) :: (txt "func", .func i) :: s) (i + 1) xs

theorem lookup_cons (s : Scope) (y x : Text) (d : Denotes) : Scope.lookup ((y, d) :: s) x = if y = x then some d else s.lookup x := by
  unfold Scope.lookup
  rw [List.find?_cons]
  by_cases h : y = x
  · simp [h]
  · have e : (y == x) = false := by simpa using h
    simp [h, e]

theorem bindField_eq {consts : List Text} {s : Scope} {i : Nat} {x : Text} (hc : x ∉ consts) (hr : s.lookup (txt "reader") = some .reader) :
    bindField consts ((txt "func", .func i) :: s) i x = some ((x, .value i) :: (txt "func", .func i) :: s) := by
  unfold bindField
  rw [if_neg (by simpa using hc), lookup_cons, if_pos rfl, lookup_cons, if_neg (by decide), hr]
  simp

theorem bindFields_ok {consts : List Text} : ∀ (rest : List Text) (s : Scope) (i : Nat), (∀ x ∈ rest, x ∉ consts) →
    s.lookup (txt "reader") = some .reader → txt "reader" ∉ rest.dropLast → bindFields consts s i rest = some (build s i rest)
  | [], _, _, _, _, _ => rfl
  | x :: xs, s, i, hc, hr, ho => by
    unfold bindFields
    rw [bindField_eq (hc x (by simp)) hr]
    simp only
    rw [build]
    cases xs with
    | nil => rfl
    | cons y ys =>
      rw [List.dropLast_cons_cons, List.mem_cons] at ho
      simp only [not_or] at ho
      refine bindFields_ok (y :: ys) _ (i + 1) (fun z hz => hc z (by simp [hz])) ?_ ho.2
      rw [lookup_cons, if_neg (Ne.symm ho.1), lookup_cons, if_neg (by decide), hr]

theorem bindFields_some {consts : List Text} : ∀ (rest : List Text) (s : Scope) (i : Nat) (s' : Scope), bindFields consts s i rest = some s' →
    (∀ x ∈ rest, x ∉ consts) ∧ (rest ≠ [] → s.lookup (txt "reader") = some .reader) ∧ txt "reader" ∉ rest.dropLast
  | [], _, _, _, _ => ⟨by simp, by simp, by simp⟩
  | x :: xs, s, i, s', h => by
    unfold bindFields at h
    have key : x ∉ consts ∧ s.lookup (txt "reader") = some .reader := by
      unfold bindField at h
      by_cases hc : x ∈ consts
      · rw [if_pos (by simpa using hc)] at h
        cases h
      · rw [if_neg (by simpa using hc), lookup_cons, if_pos rfl, lookup_cons, if_neg (by decide)] at h
        refine ⟨hc, ?_⟩
        cases hl : s.lookup (txt "reader") with
        | none => rw [hl] at h; cases h
        | some d =>
          cases d with
          | reader => rfl
          | func j => rw [hl] at h; cases h
          | value j => rw [hl] at h; cases h
    rw [bindField_eq key.1 key.2] at h
    simp only at h
    obtain ⟨h1, h2, h3⟩ := bindFields_some xs _ (i + 1) s' h
    refine ⟨?_, fun _ => key.2, ?_⟩
    · intro z hz
      rcases List.mem_cons.mp hz with rfl | hz
      · exact key.1
      · exact h1 z hz
    · cases xs with
      | nil => simp
      | cons y ys =>
        rw [List.dropLast_cons_cons, List.mem_cons, not_or]
        refine ⟨?_, h3⟩
        rintro rfl
        have := h2 (by simp)
        rw [lookup_cons, if_pos rfl] at this
        cases this

theorem build_append (s : Scope) (i : Nat) (xs : List Text) (y : Text) : build s i (xs ++ [y]) =
    (y, .value (i + xs.length)) :: (txt "func", .func (i + xs.length)) :: build s i xs := by
  induction xs generalizing s i with
  | nil => rfl
  | cons x xs ih =>
    simp only [List.cons_append, build, ih, List.length_cons]
    rw [show i + 1 + xs.length = i + (xs.length + 1) by omega]

theorem lookup_build_other (s : Scope) (i : Nat) (xs : List Text) (x : Text) (hx : x ∉ xs) (hf : xs = [] ∨ x ≠ txt "func") :
    (build s i xs).lookup x = s.lookup x := by
  induction xs generalizing s i with
  | nil => rfl
  | cons y ys ih =>
    simp only [List.mem_cons, not_or] at hx
    have hne : x ≠ txt "func" := by
      rcases hf with h | h
      · cases h
      · exact h
    rw [build, ih _ _ hx.2 (.inr hne), lookup_cons, if_neg (Ne.symm hx.1), lookup_cons, if_neg (Ne.symm hne)]

theorem lookup_build_mem (s : Scope) (i : Nat) (xs : List Text) (hn : xs.Nodup) (hf : txt "func" ∉ xs.dropLast) (k : Nat) (x : Text)
    (hk : xs[k]? = some x) : (build s i xs).lookup x = some (.value (i + k)) := by
  induction xs generalizing s i k with
  | nil => simp at hk
  | cons y ys ih =>
    rw [build]
    have hf' : txt "func" ∉ ys.dropLast := by
      cases ys with
      | nil => simp
      | cons z zs => rw [List.dropLast_cons_cons, List.mem_cons, not_or] at hf; exact hf.2
    cases k with
    | succ k =>
      rw [ih _ _ (List.nodup_cons.mp hn).2 hf' k (by simpa using hk), show i + 1 + k = i + (k + 1) by omega]
    | zero =>
      simp only [List.getElem?_cons_zero, Option.some.injEq] at hk
      subst hk
      rw [lookup_build_other _ _ _ _ (List.nodup_cons.mp hn).1, lookup_cons, if_pos rfl]
      · rfl
      · cases ys with
        | nil => exact .inl rfl
        | cons z zs =>
          rw [List.dropLast_cons_cons, List.mem_cons, not_or] at hf
          exact .inr (Ne.symm hf.1)

theorem structLit_ok {s : Scope} : ∀ (names : List Text) (j : Nat), (∀ k x, names[k]? = some x → s.lookup x = some (.value (j + k))) →
    structLit s names = some (List.range' j names.length)
  | [], _, _ => rfl
  | x :: xs, j, h => by
    have h0 := h 0 x rfl
    have hs := structLit_ok xs (j + 1) fun k y hk => by
      rw [show j + 1 + k = j + (k + 1) by omega]
      exact h (k + 1) y (by simpa using hk)
    simp only [structLit, h0, hs, List.length_cons, List.range'_succ, Nat.add_zero]

theorem structLit_none {s : Scope} {x : Text} {i : Nat} (hx : s.lookup x = some (.func i)) : ∀ (names : List Text), x ∈ names →
    structLit s names = none
  | [], h => by cases h
  | y :: ys, h => by
    unfold structLit
    rcases List.mem_cons.mp h with rfl | h
    · rw [hx]
    · rw [structLit_none hx ys h]
      split <;> simp_all

/-- C109, derived `Deserialize`: it compiles if and only if no field but the last is called `reader` or `func` and none has the name
of a constant or the like; then every field gets the value read for it. -/
theorem C109_read_partial {idents names consts : List Text} (h : FieldsNamed idents names) :
    ((OnlyLast (txt "reader") names ∧ OnlyLast (txt "func") names ∧ ∀ x ∈ names, x ∉ consts) →
      readOne consts idents = some (List.range idents.length)) ∧
    (¬ (OnlyLast (txt "reader") names ∧ OnlyLast (txt "func") names ∧ ∀ x ∈ names, x ∉ consts) → readOne consts idents = none) := by
  unfold readOne
  rw [unraw_names h, h.len]
  constructor
  · rintro ⟨h1, h2, h3⟩
    rw [bindFields_ok names _ 0 h3 rfl h1]
    simp only
    rw [structLit_ok names 0 fun k x hk => lookup_build_mem _ 0 names h.nodup h2 k x hk, List.range_eq_range']
  · intro hn
    cases hb : bindFields consts [(txt "reader", Denotes.reader)] 0 names with
    | none => rfl
    | some s' =>
      obtain ⟨g1, -, g3⟩ := bindFields_some names _ 0 s' hb
      have hf : ¬ OnlyLast (txt "func") names := fun hf => hn ⟨g3, hf, g1⟩
      rw [bindFields_ok names _ 0 g1 rfl g3] at hb
      cases hb
      simp only
      have hm : txt "func" ∈ names.dropLast := Classical.byContradiction hf
      have hne : names ≠ [] := by rintro rfl; cases hm
      have hd := List.dropLast_concat_getLast hne
      have hlast : names.getLast hne ≠ txt "func" := by
        intro e
        have hnd := h.nodup
        rw [← hd, e] at hnd
        exact (List.nodup_append.mp hnd).2.2 _ hm _ (by simp) rfl
      have hl : ∃ i, (build [(txt "reader", Denotes.reader)] 0 names).lookup (txt "func") = some (.func i) := by
        rw [← hd, build_append, lookup_cons, if_neg hlast, lookup_cons, if_pos rfl]
        exact ⟨_, rfl⟩
      obtain ⟨i, hi⟩ := hl
      exact structLit_none hi names (List.dropLast_subset _ hm)

/-- The names of `Ok`, `Err`, `Some`, `None` are in scope everywhere. -/
def prelude : List Text := [txt "Ok", txt "Err", txt "Some", txt "None"]

/-- C109 is violated: `struct Log { reader: f64, value: f64 }` and `struct Log { func: f64, value: f64 }` can be serialized, but not
deserialized: the derived code does not compile. -/
theorem C109_violated : readOne prelude [txt "reader", txt "value"] = none ∧ readOne prelude [txt "func", txt "value"] = none ∧
    writeOne [txt "reader", txt "value"] = some [0, 1] ∧ writeOne [txt "func", txt "value"] = some [0, 1] := by decide +kernel

/-- The same fields in another order are fine, and so are raw identifiers. -/
example : readOne prelude [txt "value", txt "reader"] = some [0, 1] ∧ readOne prelude [txt "r#type", txt "func"] = some [0, 1] ∧
    fieldNames [txt "r#type", txt "func"] = [txt "type", txt "func"] := by decide +kernel

/-- Three fields, one of them raw, satisfy the hypotheses of C109_names, C109_write and C109_read_partial. -/
example : FieldsNamed [txt "x", txt "r#type", txt "reader"] [txt "x", txt "type", txt "reader"] ∧
    OnlyLast (txt "reader") [txt "x", txt "type", txt "reader"] ∧ OnlyLast (txt "func") [txt "x", txt "type", txt "reader"] ∧
    ∀ x ∈ [txt "x", txt "type", txt "reader"], x ∉ prelude := by
  refine ⟨⟨rfl, ?_, by decide⟩, by decide, by decide, by decide⟩
  intro p hp
  simp only [List.zip_cons_cons, List.zip_nil_right, List.mem_cons, List.not_mem_nil, or_false] at hp
  rcases hp with rfl | rfl | rfl
  · exact ⟨.inr rfl, by decide⟩
  · exact ⟨.inl rfl, by decide⟩
  · exact ⟨.inr rfl, by decide⟩

end Npyz.Props
