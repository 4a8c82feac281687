import Verif.Spec.Npz

/-! What a program may do with the arrays of an archive, one after the other: begin them or not, push any number of values, carry on after
errors, and finish, drop or forget the writer. -/

set_option autoImplicit false

namespace Npyz.Spec
open Npyz

/-- What becomes of a writer: `finish` is called, it goes out of scope, or it is leaked (`mem::forget`). -/
inductive Ending where
  | finished
  | dropped
  | forgotten

/-- What a program does with one array of an archive after asking for it by name (`NpzWriter::array`). -/
structure Visit where
  name : Text
  ty : Ty
  dtype : DType
  order : Order
  dims : List Nat
  /-- The values that are pushed and what becomes of the writer; or nothing: `begin_nd` is never called. -/
  pushed : Option (List ty.Val × Ending)

/-- What becomes of the stream in the end. -/
def Ending.leave {σ V : Type} (M : Machine) (T : Target σ) (w : NpyWriter V) (s : σ) : Ending → σ
  | .finished => (w.finish M T s).2
  | .dropped => (w.drop M T s).2
  | .forgotten => s

/-- One array written to a stream: the results of `begin_nd` and of every push, and the stream. -/
def Visit.on {σ : Type} (M : Machine) (T : Target σ) (v : Visit) (s : σ) : List (Res Unit) × σ :=
  match v.pushed with
  | none => ([], s)
  | some (values, ending) =>
    match T.exec (NpyWriter.begin M v.ty v.dtype v.order (.nd v.dims)) s with
    | (.ok w, s1) =>
      match w.pushAll M T values s1 with
      | (results, w', s2) => (.ok () :: results, ending.leave M T w' s2)
    | (.err e, s1) => ([.err e], s1)
    | (.panic, s1) => ([.panic], s1)

/-- The same in an archive. -/
def Visit.run (M : Machine) (v : Visit) (z : NpzWriter) : List (Res Unit) × NpzWriter := v.on M zipStream (z.array v.name)

/-- Several arrays, whatever the results are. -/
def visitAll (M : Machine) : List Visit → NpzWriter → NpzWriter
  | [], z => z
  | v :: vs, z => visitAll M vs (v.run M z).2

/-- As many values as the shape has elements were pushed. -/
def Visit.Enough (v : Visit) : Prop := ∃ values ending, v.pushed = some (values, ending) ∧ values.length = v.dims.prod

/-- Looking the array up is an error, or reading its elements is, whatever they are read as. -/
def Damaged (M : Machine) (py : PyParser) (a : NpzArchive) (name : Text) : Prop :=
  (∃ e, a.byName M py name = .err e) ∨
    ∃ f, a.byName M py name = .ok (some f) ∧ ∀ t : Ty, ∃ e, (f.intoVec M disk t).1 = .err e

end Npyz.Spec
