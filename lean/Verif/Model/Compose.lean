import Verif.Model.Writer
/-!
The generic implementations of `Serialize`, `Deserialize` and `AutoSerialize`, for element types that need not be the
library's: smart pointers (traits.rs), arrays (array_member.rs) and derived structs (derive/src/lib.rs).  `Ty.reader` and
`Ty.writer` have copies of them for the element types of the library; `C88_same` says that they are copies.
-/
namespace Npyz
set_option autoImplicit false

/-- traits.rs 311-349 `TypeWriteViaDeref` and `impl_serialize_by_deref!`: `deref` is `Deref::deref` of the pointer type `U`. -/
def viaDeref {U V : Type} (deref : U → V) (writer : DType → DRes (V → WProg Unit)) (d : DType) : DRes (U → WProg Unit) := do
  let w ← writer d
  .ok fun u => w (deref u)

/-- array_member.rs 35-42, 68-77: `Deserialize` for `[T; N]`. -/
def arrayReader {V : Type} (n : Nat) (reader : DType → DRes (RProg V)) (d : DType) : DRes (RProg { l : List V // l.length = n }) := do
  let inner ← arrayInner n d
  let p ← reader inner
  .ok (readMany p n)

/-- array_member.rs 51-58, 79-87: `Serialize` for `[T; N]`. -/
def arrayWriter {V : Type} (n : Nat) (writer : DType → DRes (V → WProg Unit)) (d : DType) :
    DRes ({ l : List V // l.length = n } → WProg Unit) := do
  let inner ← arrayInner n d
  let w ← writer inner
  .ok fun v => writeMany w v.1

/-- array_member.rs 61-66: `AutoSerialize` for `[T; N]`. -/
def arrayDType (n : Nat) (d : DType) : DType := .array n d

/-- What `#[derive(Deserialize)]` generates for a struct whose fields, as nested pairs, are a `V`: the names of the fields and
the readers of the fields, given their dtypes. -/
structure StructReader (V : Type) where
  names : List Text
  fields : Fields → DRes (RProg V)

namespace StructReader

/-- No fields. -/
def nil : StructReader Unit := ⟨[], fun _ => .ok (pure ())⟩

/-- derive/src/lib.rs 157-163, 169-176: one more field in front.  A missing field would be the `unwrap` of line 232. -/
def cons {V W : Type} (name : Text) (reader : DType → DRes (RProg V)) (rest : StructReader W) : StructReader (V × W) where
  names := name :: rest.names
  fields
    | .nil => .panic
    | .cons _ d dfs => do
      let p ← reader d
      let q ← rest.fields dfs
      .ok (do
        let x ← p
        let xs ← q
        pure (x, xs))

/-- derive/src/lib.rs 167-178 `reader`. -/
def reader {V : Type} (s : StructReader V) (d : DType) : DRes (RProg V) := do
  let dfs ← extractFields s.names d
  s.fields dfs

end StructReader

/-- What `#[derive(Serialize)]` generates. -/
structure StructWriter (V : Type) where
  names : List Text
  fields : Fields → DRes (V → WProg Unit)

namespace StructWriter

/-- No fields. -/
def nil : StructWriter Unit := ⟨[], fun _ => .ok (fun _ => pure ())⟩

/-- derive/src/lib.rs 106-112, 118-125: one more field in front. -/
def cons {V W : Type} (name : Text) (writer : DType → DRes (V → WProg Unit)) (rest : StructWriter W) : StructWriter (V × W) where
  names := name :: rest.names
  fields
    | .nil => .panic
    | .cons _ d dfs => do
      let w ← writer d
      let ws ← rest.fields dfs
      .ok (fun v => do
        w v.1
        ws v.2)

/-- derive/src/lib.rs 116-127 `writer`. -/
def writer {V : Type} (s : StructWriter V) (d : DType) : DRes (V → WProg Unit) := do
  let dfs ← extractFields s.names d
  s.fields dfs

end StructWriter

/-- derive/src/lib.rs 181-199: the dtype generated by `#[derive(AutoSerialize)]` from the names and default dtypes of the fields. -/
def structDType : List (Text × DType) → Fields
  | [] => .nil
  | (name, d) :: rest => .cons name d (structDType rest)

end Npyz
