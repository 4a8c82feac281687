import Verif.Spec.DeriveTypes
/-!
C120: the derive macros work whatever the struct and the types of its fields are called.
-/
namespace Npyz.Props
set_option autoImplicit false
open Npyz.Spec Npyz.Derive

theorem found {m : Macro} {x n : Text} (h : x = n) (o : Option Outside) {b : Text × Entity}
    (hf : ((blockItems m).find? fun b => b.1 == n) = some b) (hu : Uses m n o) (ho : ∀ o', Uses m n o' → o' = o)
    (he : ∀ e, b.2 = .outside e ↔ o = some e) :
    match (blockItems m).find? fun b => b.1 == x with
    | some b => ∃ o, Uses m x o ∧ (∀ o', Uses m x o' → o' = o) ∧ ∀ e, b.2 = .outside e ↔ o = some e
    | none => ∀ o, ¬ Uses m x o := by
  subst h
  rw [hf]
  exact ⟨o, hu, ho, he⟩

set_option maxHeartbeats 4000000 in
/-- The items of the block are the names that the macro uses. -/
theorem blockItems_uses (m : Macro) (x : Text) :
    match (blockItems m).find? fun b => b.1 == x with
    | some b => ∃ o, Uses m x o ∧ (∀ o', Uses m x o' → o' = o) ∧ ∀ e, b.2 = .outside e ↔ o = some e
    | none => ∀ o, ¬ Uses m x o := by
  cases m with
  | serialize =>
    by_cases h0 : x = txt "_npyz"
    · exact found h0 (some .npyz) rfl (.npyz _) (by intro o' ho'; generalize hx : txt "_npyz" = y at ho'; cases ho' <;> first | rfl | exact absurd hx (by decide)) (by intro e; constructor <;> intro h <;> cases h <;> rfl)
    by_cases h1 : x = txt "p"
    · exact found h1 (some .stdPrelude) rfl (.prelude _) (by intro o' ho'; generalize hx : txt "p" = y at ho'; cases ho' <;> first | rfl | exact absurd hx (by decide)) (by intro e; constructor <;> intro h <;> cases h <;> rfl)
    by_cases h2 : x = txt "io"
    · exact found h2 (some .stdIo) rfl (.io _ (by decide)) (by intro o' ho'; generalize hx : txt "io" = y at ho'; cases ho' <;> first | rfl | exact absurd hx (by decide)) (by intro e; constructor <;> intro h <;> cases h <;> rfl)
    by_cases h3 : x = txt "GeneratedWriter"
    · exact found h3 (none) rfl (.writer) (by intro o' ho'; generalize hx : txt "GeneratedWriter" = y at ho'; cases ho' <;> first | rfl | exact absurd hx (by decide)) (by intro e; constructor <;> intro h <;> cases h <;> rfl)
    by_cases h4 : x = txt "FieldWriters"
    · exact found h4 (none) rfl (.writers) (by intro o' ho'; generalize hx : txt "FieldWriters" = y at ho'; cases ho' <;> first | rfl | exact absurd hx (by decide)) (by intro e; constructor <;> intro h <;> cases h <;> rfl)
    by_cases h5 : x = txt "FieldDTypes"
    · exact found h5 (none) rfl (.dtypes _ (by decide)) (by intro o' ho'; generalize hx : txt "FieldDTypes" = y at ho'; cases ho' <;> first | rfl | exact absurd hx (by decide)) (by intro e; constructor <;> intro h <;> cases h <;> rfl)
    · simp only [blockItems, List.find?_cons, List.find?_nil, show (txt "_npyz" == x) = false from beq_false_of_ne fun e => h0 e.symm, show (txt "p" == x) = false from beq_false_of_ne fun e => h1 e.symm, show (txt "io" == x) = false from beq_false_of_ne fun e => h2 e.symm, show (txt "GeneratedWriter" == x) = false from beq_false_of_ne fun e => h3 e.symm, show (txt "FieldWriters" == x) = false from beq_false_of_ne fun e => h4 e.symm, show (txt "FieldDTypes" == x) = false from beq_false_of_ne fun e => h5 e.symm]
      intro o ho
      cases ho <;> first | exact h0 rfl | exact h1 rfl | exact h2 rfl | exact h3 rfl | exact h4 rfl | exact h5 rfl | contradiction
  | deserialize =>
    by_cases h0 : x = txt "_npyz"
    · exact found h0 (some .npyz) rfl (.npyz _) (by intro o' ho'; generalize hx : txt "_npyz" = y at ho'; cases ho' <;> first | rfl | exact absurd hx (by decide)) (by intro e; constructor <;> intro h <;> cases h <;> rfl)
    by_cases h1 : x = txt "p"
    · exact found h1 (some .stdPrelude) rfl (.prelude _) (by intro o' ho'; generalize hx : txt "p" = y at ho'; cases ho' <;> first | rfl | exact absurd hx (by decide)) (by intro e; constructor <;> intro h <;> cases h <;> rfl)
    by_cases h2 : x = txt "io"
    · exact found h2 (some .stdIo) rfl (.io _ (by decide)) (by intro o' ho'; generalize hx : txt "io" = y at ho'; cases ho' <;> first | rfl | exact absurd hx (by decide)) (by intro e; constructor <;> intro h <;> cases h <;> rfl)
    by_cases h3 : x = txt "GeneratedReader"
    · exact found h3 (none) rfl (.reader) (by intro o' ho'; generalize hx : txt "GeneratedReader" = y at ho'; cases ho' <;> first | rfl | exact absurd hx (by decide)) (by intro e; constructor <;> intro h <;> cases h <;> rfl)
    by_cases h4 : x = txt "FieldReaders"
    · exact found h4 (none) rfl (.readers) (by intro o' ho'; generalize hx : txt "FieldReaders" = y at ho'; cases ho' <;> first | rfl | exact absurd hx (by decide)) (by intro e; constructor <;> intro h <;> cases h <;> rfl)
    by_cases h5 : x = txt "FieldDTypes"
    · exact found h5 (none) rfl (.dtypes _ (by decide)) (by intro o' ho'; generalize hx : txt "FieldDTypes" = y at ho'; cases ho' <;> first | rfl | exact absurd hx (by decide)) (by intro e; constructor <;> intro h <;> cases h <;> rfl)
    · simp only [blockItems, List.find?_cons, List.find?_nil, show (txt "_npyz" == x) = false from beq_false_of_ne fun e => h0 e.symm, show (txt "p" == x) = false from beq_false_of_ne fun e => h1 e.symm, show (txt "io" == x) = false from beq_false_of_ne fun e => h2 e.symm, show (txt "GeneratedReader" == x) = false from beq_false_of_ne fun e => h3 e.symm, show (txt "FieldReaders" == x) = false from beq_false_of_ne fun e => h4 e.symm, show (txt "FieldDTypes" == x) = false from beq_false_of_ne fun e => h5 e.symm]
      intro o ho
      cases ho <;> first | exact h0 rfl | exact h1 rfl | exact h2 rfl | exact h3 rfl | exact h4 rfl | exact h5 rfl | contradiction
  | autoSerialize =>
    by_cases h0 : x = txt "_npyz"
    · exact found h0 (some .npyz) rfl (.npyz _) (by intro o' ho'; generalize hx : txt "_npyz" = y at ho'; cases ho' <;> first | rfl | exact absurd hx (by decide)) (by intro e; constructor <;> intro h <;> cases h <;> rfl)
    by_cases h1 : x = txt "p"
    · exact found h1 (some .stdPrelude) rfl (.prelude _) (by intro o' ho'; generalize hx : txt "p" = y at ho'; cases ho' <;> first | rfl | exact absurd hx (by decide)) (by intro e; constructor <;> intro h <;> cases h <;> rfl)
    · simp only [blockItems, List.find?_cons, List.find?_nil, show (txt "_npyz" == x) = false from beq_false_of_ne fun e => h0 e.symm, show (txt "p" == x) = false from beq_false_of_ne fun e => h1 e.symm]
      intro o ho
      cases ho <;> first | exact h0 rfl | exact h1 rfl | contradiction

/-- What a name refers to that is not a parameter. -/
theorem block_outside (m : Macro) (outer : Text → Outside) (x : Text) :
    (match (blockItems m).find? fun b => b.1 == x with
      | some b => b.2
      | none => Entity.outside (outer x)) = .outside (outer x) ↔ NotTaken m outer x := by
  have h := blockItems_uses m x
  revert h
  cases (blockItems m).find? fun b => b.1 == x with
  | none =>
    intro h
    exact ⟨fun _ o ho => absurd ho (h o), fun _ => rfl⟩
  | some b =>
    rintro ⟨o, ho, hu, he⟩
    show b.2 = .outside (outer x) ↔ _
    rw [he]
    exact ⟨fun h o' ho' => by rw [hu o' ho', h], fun h => h o ho⟩

theorem find_param (P : List Text) (x : Text) :
    (P.map fun y => (y, Entity.param y)).find? (fun b => b.1 == x) = if x ∈ P then some (x, .param x) else none := by
  induction P with
  | nil => rfl
  | cons y ys ih =>
    rw [List.map_cons, List.find?_cons]
    by_cases h : y = x
    · subst h
      simp
    · rw [show ((y, Entity.param y).1 == x) = false from beq_false_of_ne h, ih]
      simp only [List.mem_cons, show (x = y) = False from eq_false fun e => h e.symm, false_or]

theorem find_method (m : Macro) (x : Text) :
    (Param m x ∧ (methodParams m).find? (fun b => b.1 == x) = some (x, .methodParam x)) ∨
      (¬ Param m x ∧ (methodParams m).find? (fun b => b.1 == x) = none) := by
  cases m with
  | serialize =>
    by_cases h : x = txt "W"
    · subst h
      exact .inl ⟨.w, by decide⟩
    · refine .inr ⟨fun hp => h (by cases hp; rfl), ?_⟩
      simp only [methodParams, List.find?_cons, List.find?_nil, show (txt "W" == x) = false from beq_false_of_ne fun e => h e.symm]
  | deserialize =>
    by_cases h : x = txt "R"
    · subst h
      exact .inl ⟨.r, by decide⟩
    · refine .inr ⟨fun hp => h (by cases hp; rfl), ?_⟩
      simp only [methodParams, List.find?_cons, List.find?_nil, show (txt "R" == x) = false from beq_false_of_ne fun e => h e.symm]
  | autoSerialize => exact .inr ⟨nofun, rfl⟩

theorem resolve_item (m : Macro) (P : List Text) (outer : Text → Outside) (x : Text) :
    resolve m P outer .item x = if x ∈ P then .param x else
      match (blockItems m).find? fun b => b.1 == x with
      | some b => b.2
      | none => .outside (outer x) := by
  unfold resolve
  simp only [reduceCtorEq, if_false, List.nil_append, List.find?_append, find_param]
  by_cases h : x ∈ P
  · simp only [if_pos h, Option.some_or]
  · simp only [if_neg h, Option.none_or]
    rfl

theorem resolve_method (m : Macro) (P : List Text) (outer : Text → Outside) (x : Text) :
    (Param m x ∧ resolve m P outer .method x = .methodParam x) ∨
      (¬ Param m x ∧ resolve m P outer .method x = resolve m P outer .item x) := by
  rcases find_method m x with ⟨hp, h⟩ | ⟨hp, h⟩
  · refine .inl ⟨hp, ?_⟩
    unfold resolve
    simp only [if_true, List.append_assoc, List.find?_append, h, Option.some_or]
  · refine .inr ⟨hp, ?_⟩
    unfold resolve
    simp only [if_true, reduceCtorEq, if_false, List.nil_append, List.append_assoc, List.find?_append, h, Option.none_or]

/-- When the name of the struct refers to the struct. -/
theorem resolve_outer (m : Macro) (P : List Text) (outer : Text → Outside) (x : Text) :
    resolve m P outer .item x = .outside (outer x) ↔ x ∉ P ∧ NotTaken m outer x := by
  rw [resolve_item]
  by_cases h : x ∈ P
  · simp [h]
  · rw [if_neg h, block_outside]
    exact ⟨fun hf => ⟨h, hf⟩, fun hf => hf.2⟩

/-- When a name in the type of a field refers to what is meant. -/
theorem resolve_meaning (m : Macro) (P : List Text) (outer : Text → Outside) (x : Text) :
    resolve m P outer .item x = meaning outer P x ↔ x ∈ P ∨ NotTaken m outer x := by
  unfold meaning
  by_cases h : x ∈ P
  · rw [resolve_item, if_pos h, if_pos h]
    simp [h]
  · rw [if_neg h, resolve_outer]
    simp [h]

theorem resolve_method_meaning (m : Macro) (P : List Text) (outer : Text → Outside) (x : Text) :
    resolve m P outer .method x = meaning outer P x ↔ ¬ Param m x ∧ (x ∈ P ∨ NotTaken m outer x) := by
  rcases resolve_method m P outer x with ⟨hp, h⟩ | ⟨hp, h⟩
  · rw [h]
    refine ⟨fun e => ?_, fun e => absurd hp e.1⟩
    unfold meaning at e
    split at e <;> cases e
  · rw [h, resolve_meaning]
    simp [hp]

theorem map_eq_map {α β : Type} {f g : α → β} {l : List α} : l.map f = l.map g ↔ ∀ x ∈ l, f x = g x :=
  List.map_inj_left

/-- When the types of all fields refer to what is meant. -/
theorem types_meaning {f : Text → Entity} {outer : Text → Outside} {P : List Text} {fields : List (Option Text × List Text)} :
    (fields.map fun d => d.2.map f) = (fields.map fun d => d.2.map (meaning outer P)) ↔
      ∀ d ∈ fields, ∀ x ∈ d.2, f x = meaning outer P x := by
  rw [map_eq_map]
  exact ⟨fun h d hd => map_eq_map.1 (h d hd), fun h d hd => map_eq_map.2 (h d hd)⟩

/-- C120: exactly when a derive macro generates the implementation that is meant.  *What is missing*: the macros are
documented to work for all structs all of whose fields implement the trait, which is the first of these conditions; the others
should not be needed.  (Two of the macros do not work for structs with parameters, and all of them have names of their own
that a struct and the types of its fields cannot have.) -/
theorem C120_implements_partial (m : Macro) (outer : Text → Outside) (i : Input) :
    Implements m outer i ↔
      NamedStruct i ∧
      (m = .autoSerialize ∨ i.params = []) ∧ txt "_npyz" ∉ i.params ∧ txt "p" ∉ i.params ∧
      (i.name ∉ i.params ∧ NotTaken m outer i.name ∧ (m = .deserialize → i.name ≠ txt "R")) ∧
      ∀ f ∈ i.fields, ∀ x ∈ f.2, ¬ Param m x ∧ (x ∈ i.params ∨ NotTaken m outer x) := by
  have hn : NamedStruct i ↔ i.kind = .struct ∧ (i.fields.any fun f => f.1.isNone) = false := by
    unfold NamedStruct
    rw [List.any_eq_false]
    refine and_congr_right fun _ => forall_congr' fun f => forall_congr' fun _ => ?_
    cases f.1 <;> simp
  have hi : Implements m outer i ↔
      (NamedStruct i ∧ (m = .autoSerialize ∨ i.params = []) ∧ txt "_npyz" ∉ i.params ∧ txt "p" ∉ i.params) ∧
      (∀ pl ∈ namePlaces m, resolve m i.params outer pl i.name = .outside (outer i.name)) ∧
      ∀ pl ∈ typePlaces m, ∀ f ∈ i.fields, ∀ x ∈ f.2, resolve m i.params outer pl x = meaning outer i.params x := by
    have hd : ∀ pl, (i.fields.map fun f => f.2.map fun x => resolve m i.params outer pl x) =
        (i.fields.map fun f => f.2.map (meaning outer i.params)) ↔
        ∀ f ∈ i.fields, ∀ x ∈ f.2, resolve m i.params outer pl x = meaning outer i.params x := fun pl => types_meaning
    unfold Implements expand
    rw [hn]
    by_cases hk : i.kind = .struct
    · by_cases hf : (i.fields.any fun f => f.1.isNone) = true
      · simp [hk, hf]
      · rw [Bool.not_eq_true] at hf
        by_cases hp : m ≠ .autoSerialize ∧ i.params ≠ []
        · simp [hk, hf, hp.1, hp.2]
        · have hp' : m = .autoSerialize ∨ i.params = [] := by
            by_cases hm : m = .autoSerialize
            · exact .inl hm
            · exact .inr (Classical.byContradiction fun h => hp ⟨hm, h⟩)
          by_cases hc : (i.params.contains (txt "_npyz") || i.params.contains (txt "p")) = true
          · rw [if_neg (by simp [hk]), if_neg (by simp [hf]), if_neg hp, if_pos hc]
            simp only [reduceCtorEq, false_and, exists_false, false_iff]
            rintro ⟨⟨-, -, h1, h2⟩, -⟩
            simp [h1, h2] at hc
          · rw [if_neg (by simp [hk]), if_neg (by simp [hf]), if_neg hp, if_neg hc]
            have hc' : txt "_npyz" ∉ i.params ∧ txt "p" ∉ i.params := by simpa using hc
            constructor
            · rintro ⟨names, types, he, h1, h2⟩
              cases he
              refine ⟨⟨⟨hk, hf⟩, hp', hc'⟩, fun pl hpl => h1 _ (List.mem_map_of_mem hpl), fun pl hpl => ?_⟩
              exact (hd pl).1 (h2 _ (List.mem_map_of_mem hpl))
            · rintro ⟨-, h1, h2⟩
              refine ⟨_, _, rfl, fun e he => ?_, fun t ht => ?_⟩
              · obtain ⟨pl, hpl, rfl⟩ := List.mem_map.1 he
                exact h1 pl hpl
              · obtain ⟨pl, hpl, rfl⟩ := List.mem_map.1 ht
                exact (hd pl).2 (h2 pl hpl)
    · simp [hk]
  rw [hi]
  have hmn : ∀ x, ¬ Param m x ∧ x ∉ i.params ∧ NotTaken m outer x ↔ resolve m i.params outer .method x = .outside (outer x) := by
    intro x
    rcases resolve_method m i.params outer x with ⟨hp, h⟩ | ⟨hp, h⟩
    · rw [h]
      simp [hp]
    · rw [h, resolve_outer]
      simp [hp]
  have hr : ∀ x, Param .deserialize x ↔ x = txt "R" := fun x => ⟨fun h => by cases h; rfl, fun h => h ▸ .r⟩
  cases m with
  | serialize =>
    simp only [namePlaces, typePlaces, List.mem_cons, List.not_mem_nil, or_false, or_self, forall_eq, forall_eq_or_imp,
      resolve_outer, resolve_meaning, resolve_method_meaning, reduceCtorEq, false_implies, and_true, and_assoc]
    refine and_congr_right fun _ => and_congr_right fun _ => and_congr_right fun _ => and_congr_right fun _ =>
      and_congr_right fun _ => and_congr_right fun _ => ?_
    exact ⟨fun h => h.2.1, fun h => ⟨fun f hf x hx => (h f hf x hx).2, h, fun f hf x hx => (h f hf x hx).2⟩⟩
  | deserialize =>
    simp only [namePlaces, typePlaces, List.mem_cons, List.not_mem_nil, or_false, forall_eq, forall_eq_or_imp,
      resolve_outer, resolve_meaning, resolve_method_meaning, ← hmn, hr, true_implies, reduceCtorEq, and_assoc]
    refine and_congr_right fun _ => and_congr_right fun _ => and_congr_right fun _ => and_congr_right fun _ => ?_
    constructor
    · rintro ⟨h1, h2, h3, -, -, -, -, -, h4, -⟩
      exact ⟨h1, h2, h3, h4⟩
    · rintro ⟨h1, h2, h3, h4⟩
      exact ⟨h1, h2, h3, h1, h2, h1, h2, fun f hf x hx => (h4 f hf x hx).2, h4, fun f hf x hx => (h4 f hf x hx).2⟩
  | autoSerialize =>
    have ha : ∀ x, ¬ Param .autoSerialize x := nofun
    simp only [namePlaces, typePlaces, List.mem_cons, List.not_mem_nil, or_false, forall_eq,
      resolve_outer, resolve_meaning, reduceCtorEq, false_implies, and_true, and_assoc, ha, not_false_eq_true, true_and]

/-- Where the example structs are declared: each name means something else, none of them what the macros use. -/
def elsewhere (x : Text) : Outside := .other x.length

/-- `struct Segment { from: Point, to: geometry::Point, weight: f64 }`. -/
def segment : Input where
  kind := .struct
  name := txt "Segment"
  params := []
  fields := [(some (txt "from"), [txt "Point"]), (some (txt "to"), [txt "geometry"]), (some (txt "weight"), [txt "f64"])]

instance (m : Macro) (x : Text) : Decidable (Param m x) :=
  match m with
  | .serialize => if h : x = txt "W" then .isTrue (h ▸ .w) else .isFalse fun hp => h (by cases hp; rfl)
  | .deserialize => if h : x = txt "R" then .isTrue (h ▸ .r) else .isFalse fun hp => h (by cases hp; rfl)
  | .autoSerialize => .isFalse nofun

instance (m : Macro) (outer : Text → Outside) (x : Text) : Decidable (NotTaken m outer x) :=
  decidable_of_iff _ (block_outside m outer x)

instance (i : Input) : Decidable (NamedStruct i) :=
  inferInstanceAs (Decidable (i.kind = .struct ∧ ∀ f ∈ i.fields, f.1 ≠ none))

instance (m : Macro) (outer : Text → Outside) (i : Input) : Decidable (Implements m outer i) :=
  decidable_of_iff _ (C120_implements_partial m outer i).symm

example : Implements .serialize elsewhere segment ∧ Implements .deserialize elsewhere segment ∧
    Implements .autoSerialize elsewhere segment := by
  decide +kernel

/-- tests/derive_hygiene.rs: `struct Struct { foo: i32, bar: LocalType }` and `struct LocalType;`. -/
example : [Macro.serialize, .deserialize, .autoSerialize].all fun m =>
    decide (Implements m elsewhere ⟨.struct, txt "Struct", [], [(some (txt "foo"), [txt "i32"]),
      (some (txt "bar"), [txt "LocalType"])]⟩) &&
    decide (Implements m elsewhere ⟨.struct, txt "LocalType", [], []⟩) := by
  decide +kernel

/-- The same for a struct called `R`, for one with a field of a type `W`, for one with a type from a module `io`, and for
`struct Pair<T> { left: T, right: Point }`. -/
def example_R : Input := { segment with name := txt "R" }
def example_W : Input := { segment with fields := [(some (txt "x"), [txt "W"])] }
def example_io : Input := { segment with fields := [(some (txt "x"), [txt "io"])] }
def example_T : Input where
  kind := .struct
  name := txt "Pair"
  params := [txt "T"]
  fields := [(some (txt "left"), [txt "T"]), (some (txt "right"), [txt "Point"])]

example : [example_R, example_W, example_io, example_T].map (fun i => [Macro.serialize, .deserialize, .autoSerialize].map
    fun m => decide (Implements m elsewhere i)) =
    [[true, false, true], [false, true, true], [false, false, true], [false, false, true]] := by
  decide +kernel

/-- C120 is violated: `#[derive(Deserialize)]` does not work for any struct called `R` … -/
theorem C120_violated_name (outer : Text → Outside) (i : Input) (h : i.name = txt "R") : ¬ Implements .deserialize outer i := by
  rw [C120_implements_partial]
  rintro ⟨-, -, -, -, ⟨-, -, hr⟩, -⟩
  exact hr rfl h

example : example_R.name = txt "R" ∧ NamedStruct example_R := by decide +kernel

/-- … or with a field of a type called `R`, and `#[derive(Serialize)]` for any with a field of a type called `W` … -/
theorem C120_violated_type (outer : Text → Outside) (i : Input) :
    ((∃ f ∈ i.fields, txt "R" ∈ f.2) → ¬ Implements .deserialize outer i) ∧
    ((∃ f ∈ i.fields, txt "W" ∈ f.2) → ¬ Implements .serialize outer i) := by
  simp only [C120_implements_partial]
  constructor
  · rintro ⟨f, hf, hx⟩ ⟨-, -, -, -, -, h⟩
    exact (h f hf _ hx).1 .r
  · rintro ⟨f, hf, hx⟩ ⟨-, -, -, -, -, h⟩
    exact (h f hf _ hx).1 .w

example : (∃ f ∈ example_W.fields, txt "W" ∈ f.2) ∧ NamedStruct example_W := by decide +kernel

/-- … or with a field of a type from a module called `io`, if that is not the one of the standard library … -/
theorem C120_violated_module (outer : Text → Outside) (i : Input) (ho : outer (txt "io") ≠ .stdIo) (hp : i.params = [])
    (hf : ∃ f ∈ i.fields, txt "io" ∈ f.2) : ¬ Implements .serialize outer i ∧ ¬ Implements .deserialize outer i := by
  simp only [C120_implements_partial]
  obtain ⟨f, hf, hx⟩ := hf
  constructor
  · rintro ⟨-, -, -, -, -, h⟩
    rcases (h f hf _ hx).2 with h | h
    · rw [hp] at h
      cases h
    · exact ho (Option.some.inj (h _ (.io _ (by decide)))).symm
  · rintro ⟨-, -, -, -, -, h⟩
    rcases (h f hf _ hx).2 with h | h
    · rw [hp] at h
      cases h
    · exact ho (Option.some.inj (h _ (.io _ (by decide)))).symm

example : elsewhere (txt "io") ≠ .stdIo ∧ example_io.params = [] ∧ (∃ f ∈ example_io.fields, txt "io" ∈ f.2) ∧
    NamedStruct example_io := by
  decide +kernel

/-- … or with parameters. -/
theorem C120_violated_generic (outer : Text → Outside) (i : Input) (h : i.params ≠ []) :
    ¬ Implements .serialize outer i ∧ ¬ Implements .deserialize outer i := by
  simp only [C120_implements_partial]
  constructor
  · rintro ⟨-, hp | hp, -⟩
    · cases hp
    · exact h hp
  · rintro ⟨-, hp | hp, -⟩
    · cases hp
    · exact h hp

example : example_T.params ≠ [] ∧ NamedStruct example_T := by decide +kernel

/-- C120: what is not a struct whose fields have names is refused when the program is compiled; nothing else is.  (A struct
without fields is accepted however it is written.) -/
theorem C120_refused (m : Macro) (outer : Text → Outside) (i : Input) : expand m outer i = .panic ↔ ¬ NamedStruct i := by
  have hn : NamedStruct i ↔ i.kind = .struct ∧ (i.fields.any fun f => f.1.isNone) = false := by
    unfold NamedStruct
    rw [List.any_eq_false]
    refine and_congr_right fun _ => forall_congr' fun f => forall_congr' fun _ => ?_
    cases f.1 <;> simp
  rw [hn]
  unfold expand
  by_cases hk : i.kind = .struct
  · by_cases hf : (i.fields.any fun f => f.1.isNone) = true
    · simp [hk, hf]
    · rw [if_neg (by simp [hk]), if_neg hf]
      rw [Bool.not_eq_true] at hf
      simp only [hk, hf, and_self, not_true_eq_false, iff_false]
      split
      · simp
      · split <;> simp
  · simp [hk]

example : [Kind.struct, .enum, .union].map (fun k => [[], [(none, [txt "f64"])], [(some (txt "x"), [txt "f64"])]].map fun fs =>
    decide (expand .serialize elsewhere ⟨k, txt "S", [], fs⟩ = .panic)) =
    [[false, true, false], [true, true, true], [true, true, true]] := by
  decide +kernel

end Npyz.Props
