import Verif.Model.DeriveTypes
/-!
Specification for C120: which structs the derive macros are for, and what the generated implementation has to be about.
-/
namespace Npyz.Spec
set_option autoImplicit false
open Npyz.Derive

/-- A struct all of whose fields have names. -/
def NamedStruct (i : Input) : Prop := i.kind = .struct ∧ ∀ f ∈ i.fields, f.1 ≠ none

/-- What a name in the type of a field means where the struct is declared. -/
def meaning (outer : Text → Outside) (params : List Text) (x : Text) : Entity :=
  if x ∈ params then .param x else .outside (outer x)

/-- The macro generates an implementation for the struct itself, made from the types of the fields as they are meant. -/
def Implements (m : Macro) (outer : Text → Outside) (i : Input) : Prop :=
  ∃ names types, expand m outer i = .code names types ∧ (∀ e ∈ names, e = .outside (outer i.name)) ∧
    ∀ t ∈ types, t = i.fields.map fun f => f.2.map (meaning outer i.params)

/-- What a macro uses a name for that it brings into scope: `none` if for something of its own. -/
inductive Uses : Macro → Text → Option Outside → Prop where
  | npyz (m) : Uses m (txt "_npyz") (some .npyz)
  | prelude (m) : Uses m (txt "p") (some .stdPrelude)
  | io (m) : m ≠ .autoSerialize → Uses m (txt "io") (some .stdIo)
  | dtypes (m) : m ≠ .autoSerialize → Uses m (txt "FieldDTypes") none
  | writer : Uses .serialize (txt "GeneratedWriter") none
  | writers : Uses .serialize (txt "FieldWriters") none
  | reader : Uses .deserialize (txt "GeneratedReader") none
  | readers : Uses .deserialize (txt "FieldReaders") none

/-- The names that the macro also uses for a parameter of its own, where the types of the fields are mentioned. -/
inductive Param : Macro → Text → Prop where
  | w : Param .serialize (txt "W")
  | r : Param .deserialize (txt "R")

/-- A name is not used by the macro for something else. -/
def NotTaken (m : Macro) (outer : Text → Outside) (x : Text) : Prop := ∀ o, Uses m x o → o = some (outer x)

end Npyz.Spec
