import Verif.Model.Derive
/-!
Model of the code that `/repo/derive/src/lib.rs` generates, before it is type checked: what the names of types in it refer to
and which inputs are refused.  (`Model/Derive.lean` has the names of values.)

Names are without the prefix `r#` of raw identifiers.  Of the type of a field only the first names of the relative paths in it
are kept: `io::Kind` is `io`, `[Point; 3]` is `Point` and `::std::primitive::f32` has none.  `Self` in the type of a field and
bounds of parameters are not modelled.
-/
namespace Npyz.Derive

/-- The three derive macros. derive/src/lib.rs 16-50. -/
inductive Macro where
  | serialize
  | deserialize
  | autoSerialize
deriving DecidableEq, Repr

/-- What can be named where the struct is declared: the modules and crates that the generated code also uses, and others. -/
inductive Outside where
  | stdIo
  | stdPrelude
  | npyz
  | other (n : Nat)
deriving DecidableEq, Repr

/-- What a name in the generated code can refer to, in the namespace of types. -/
inductive Entity where
  /-- what can be named outside of the generated code -/
  | outside (e : Outside)
  /-- a struct defined in the generated code -/
  | generated (x : Text)
  /-- the parameter of a generated method -/
  | methodParam (x : Text)
  /-- a parameter of the struct -/
  | param (x : Text)
deriving DecidableEq, Repr

/-- `struct`, `enum` or `union`. -/
inductive Kind where
  | struct
  | enum
  | union
deriving DecidableEq, Repr

/-- `syn::DeriveInput`, as far as it is used: derive/src/lib.rs 59-85. -/
structure Input where
  kind : Kind
  name : Text
  /-- the parameters: types, constants and lifetimes -/
  params : List Text
  /-- name (if it has one) and type of each field -/
  fields : List (Option Text × List Text)
deriving DecidableEq, Repr

/-- Where a name stands: in the items of the generated block, or in a method with a parameter of its own. -/
inductive Place where
  | item
  | method
deriving DecidableEq, Repr

/-- derive/src/lib.rs 263 and 269 (`extern crate npyz as _npyz`, `use ::std::prelude::v1 as p`), 90 and 141
(`use ::std::io`), 92, 96, 143, 147 and 207 (the structs): the names defined in the generated block. -/
def blockItems : Macro → List (Text × Entity)
  | .serialize => [(txt "_npyz", .outside .npyz), (txt "p", .outside .stdPrelude), (txt "io", .outside .stdIo),
      (txt "GeneratedWriter", .generated (txt "GeneratedWriter")), (txt "FieldWriters", .generated (txt "FieldWriters")),
      (txt "FieldDTypes", .generated (txt "FieldDTypes"))]
  | .deserialize => [(txt "_npyz", .outside .npyz), (txt "p", .outside .stdPrelude), (txt "io", .outside .stdIo),
      (txt "GeneratedReader", .generated (txt "GeneratedReader")), (txt "FieldReaders", .generated (txt "FieldReaders")),
      (txt "FieldDTypes", .generated (txt "FieldDTypes"))]
  | .autoSerialize => [(txt "_npyz", .outside .npyz), (txt "p", .outside .stdPrelude)]

/-- derive/src/lib.rs 106 `write_one<W: io::Write>` and 157 `read_one<R: io::Read>`: the parameters of the methods. -/
def methodParams : Macro → List (Text × Entity)
  | .serialize => [(txt "W", .methodParam (txt "W"))]
  | .deserialize => [(txt "R", .methodParam (txt "R"))]
  | .autoSerialize => []

/-- The places where `#name` stands: derive/src/lib.rs 103 and 115; 154, 162 (in `read_one`) and 166; 188. -/
def namePlaces : Macro → List Place
  | .serialize => [.item, .item]
  | .deserialize => [.item, .method, .item]
  | .autoSerialize => [.item]

/-- The places where `#types` stands: derive/src/lib.rs 97, 108 (in `write_one`) and 121; 148, 159 (in `read_one`) and 172;
193. -/
def typePlaces : Macro → List Place
  | .serialize => [.item, .method, .item]
  | .deserialize => [.item, .method, .item]
  | .autoSerialize => [.item]

/-- Name resolution at a place: the parameters of the method, those of the struct (`impl #impl_generics`), the items of the
block, and then what the name refers to where the struct is declared. -/
def resolve (m : Macro) (params : List Text) (outer : Text → Outside) : Place → Text → Entity
  | pl, x =>
    let inner := (if pl = .method then methodParams m else []) ++ params.map (fun y => (y, Entity.param y)) ++ blockItems m
    match inner.find? fun b => b.1 == x with
    | some b => b.2
    | none => .outside (outer x)

/-- What comes out of a derive macro. -/
inductive Expansion where
  /-- the macro panics: a compile error -/
  | panic
  /-- the generated code does not compile -/
  | error
  /-- what the name of the struct refers to at its places, and the names in the types of all fields at theirs -/
  | code (names : List Entity) (types : List (List (List Entity)))
deriving DecidableEq, Repr

/-- derive/src/lib.rs 59-76 `FieldData::extract`, and 79-199.  With parameters, lines 118 and 169
(`p::Result<GeneratedWriter, …>` without them) do not compile.  The paths `_npyz::…` and `p::…` occur inside the generated
`impl`, where they must not refer to a parameter. -/
def expand (m : Macro) (outer : Text → Outside) (i : Input) : Expansion :=
  if i.kind ≠ .struct then .panic
  else if i.fields.any fun f => f.1.isNone then .panic
  else if m ≠ .autoSerialize ∧ i.params ≠ [] then .error
  else if i.params.contains (txt "_npyz") || i.params.contains (txt "p") then .error
  else .code ((namePlaces m).map fun pl => resolve m i.params outer pl i.name)
    ((typePlaces m).map fun pl => i.fields.map fun f => f.2.map fun x => resolve m i.params outer pl x)

end Npyz.Derive
