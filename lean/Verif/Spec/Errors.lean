import Verif.Spec.Codec
/-!
What it means for the error returned for an unsuitable dtype to tell the truth.  Only data types of the
model are used, `DType.descr` (the public text form of a dtype) and the table of `Spec/Codec.lean`.
-/
namespace Npyz.Spec

/-- `(t, d)` is the same position in a record type and in a record dtype. -/
inductive FieldAt : TFields → Fields → Ty → DType → Prop
  | head {a b t d fs dfs} : FieldAt (.cons a t fs) (.cons b d dfs) t d
  | tail {a b t d fs dfs t' d'} : FieldAt fs dfs t' d' → FieldAt (.cons a t fs) (.cons b d dfs) t' d'

/-- `(t', d')` is the same place inside an element type and inside a dtype: the whole, or inside the elements of
arrays of the same length, or inside a field of records with the same field names. -/
inductive Within : Ty → DType → Ty → DType → Prop
  | here {t d} : Within t d t d
  | elem {n t d t' d'} : Within t d t' d' → Within (.array n t) (.array n d) t' d'
  | field {fs dfs t d t' d'} : fs.names = dfs.names → FieldAt fs dfs t d → Within t d t' d' →
      Within (.record fs) (.record dfs) t' d'

/-- Neither an array nor a record. -/
def ScalarTy (t : Ty) : Prop := (∀ n t', t ≠ .array n t') ∧ ∀ fs, t ≠ .record fs

/-- The error is a true statement about the element type `t` and the dtype `d`.  `Suits t s` says that the
scalar type string `s` suits the type `t` (for the operation at hand). -/
def TrueOf (usizeLim : Nat) (Suits : Ty → TypeStr → Prop) (t : Ty) (d : DType) : DTypeErr → Prop
  | .expectedScalar text => ScalarTy t ∧ (∀ s, d ≠ .plain s) ∧ text = d.descr
  | .expectedArray got => (∃ n t', t = .array n t') ∧
      ((got = txt "a scalar" ∧ ∃ s, d = .plain s) ∨ (got = txt "a record" ∧ ∃ fs, d = .record fs))
  | .wrongArrayLen expected actual => expected ≠ actual ∧ (∃ t', t = .array expected t') ∧ ∃ d', d = .array actual d'
  | .expectedRecord text => (∃ fs, t = .record fs) ∧ (∀ fs, d ≠ .record fs) ∧ text = d.descr
  | .wrongFields expected actual => expected ≠ actual ∧ (∃ fs, t = .record fs ∧ fs.names = expected) ∧
      ∃ dfs, d = .record dfs ∧ dfs.names = actual
  | .badScalar s => ScalarTy t ∧ d = .plain s ∧ ¬ Suits t s
  | .usizeOverflow x => ∃ s, d = .plain s ∧ s.size = x ∧ usizeLim ≤ x
  | .requiresPickle => HasObject d

/-- Type strings suitable for reading. -/
def SuitsRead (t : Ty) (s : TypeStr) : Prop := scalarAccepts t s.typeChar s.size

/-- Type strings suitable for writing. -/
def SuitsWrite (t : Ty) (s : TypeStr) : Prop := scalarAccepts t s.typeChar s.size ∨ writeOnly t s.typeChar

/-- The error is true of some corresponding place. -/
def Truthful (usizeLim : Nat) (Suits : Ty → TypeStr → Prop) (t : Ty) (d : DType) (e : DTypeErr) : Prop :=
  ∃ t' d', Within t d t' d' ∧ TrueOf usizeLim Suits t' d' e

/-- The same error with the two lists of field names exchanged. -/
def swapNames : DTypeErr → DTypeErr
  | .wrongFields a b => .wrongFields b a
  | e => e

end Npyz.Spec
