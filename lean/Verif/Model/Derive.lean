import Verif.Model.Basic
import Verif.Model.TypeStr
/-!
Model of the code that `/repo/derive/src/lib.rs` generates, before it is type checked: what the names in it refer to.
(What the code does once the names are resolved is `TFields.reader` and `TFields.writer` in `Model/Serialize.lean`.)

Identifiers made by `quote!` have the span of the call site, and so do the names of the fields: they can shadow each other.
A field `r#x` is the same identifier as `x`.  The types of the fields are those of the library, none of which implements
`io::Read`.
-/
namespace Npyz.Derive

/-- derive/src/lib.rs 276-278 `unraw`: `trim_start_matches("r#")`. -/
def unraw : Text → Text
  | 'r' :: '#' :: rest => unraw rest
  | s => s

/-- What a name can refer to inside the generated `read_one`, in the namespace of values: the parameter `reader`, the
`read_one` of the type of a field, or the value of a field. -/
inductive Denotes where
  | reader
  | func (field : Nat)
  | value (field : Nat)
deriving DecidableEq, Repr

/-- The local variables, innermost first. -/
abbrev Scope := List (Text × Denotes)

/-- Name resolution. -/
def Scope.lookup (s : Scope) (x : Text) : Option Denotes := (s.find? fun b => b.1 == x).map (·.2)

/-- derive/src/lib.rs 160 `let #ident = func(&self.readers.#ident, &mut reader)?;`: the function must be that of the type
of the field and the argument a reader.  A name of a constant, a unit struct or a variant in scope of the struct (`consts`,
which contains at least those of the prelude) is not a variable in a pattern, but refers to that item; this does not
compile, because the pattern can fail to match (or has another type). -/
def bindField (consts : List Text) (s : Scope) (i : Nat) (name : Text) : Option Scope :=
  if consts.contains name then none
  else
    match s.lookup (txt "func"), s.lookup (txt "reader") with
    | some (.func j), some .reader => if i = j then some ((name, .value i) :: s) else none
    | _, _ => none

/-- derive/src/lib.rs 158-161: the statements for all fields, from the `i`-th.  Line 159 is
`let func = <#type as Deserialize>::TypeReader::read_one;`. -/
def bindFields (consts : List Text) : Scope → Nat → List Text → Option Scope
  | s, _, [] => some s
  | s, i, name :: rest =>
    match bindField consts ((txt "func", .func i) :: s) i name with
    | some s' => bindFields consts s' (i + 1) rest
    | none => none

/-- derive/src/lib.rs 162 `#name { #( #idents ),* }`: which value is put into each field; it must be the value of a field. -/
def structLit (s : Scope) : List Text → Option (List Nat)
  | [] => some []
  | name :: rest =>
    match s.lookup name, structLit s rest with
    | some (.value i), some is => some (i :: is)
    | _, _ => none

/-- derive/src/lib.rs 157-163: the body of the generated `read_one` of a struct with these fields (in declaration order):
which of the values read, in order, ends up in each field.  `none`: the generated code does not compile. -/
def readOne (consts : List Text) (idents : List Text) : Option (List Nat) :=
  match bindFields consts [(txt "reader", .reader)] 0 (idents.map unraw) with
  | some s => structLit s (idents.map unraw)
  | none => none

/-- A field access `.#ident` on a struct with these fields: the index of the field. -/
def access (fields : List Text) (name : Text) : Option Nat := fields.findIdx? fun f => f == name

/-- derive/src/lib.rs 106-112: the body of the generated `write_one`: which field is written at each step.  The names of the
fields occur only in field accesses. -/
def writeSteps (fields : List Text) : List Text → Option (List Nat)
  | [] => some []
  | name :: rest =>
    match access fields name, writeSteps fields rest with
    | some i, some is => some (i :: is)
    | _, _ => none

/-- derive/src/lib.rs 106-112 for all fields. -/
def writeOne (idents : List Text) : Option (List Nat) := writeSteps (idents.map unraw) (idents.map unraw)

/-- derive/src/lib.rs 68: the names of the fields in the dtype. -/
def fieldNames (idents : List Text) : List Text := idents.map unraw

end Npyz.Derive
