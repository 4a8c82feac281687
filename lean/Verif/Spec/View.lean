import Verif.Spec.Codec
/-!
Specification of C133: the same bytes as items of different types.
-/
namespace Npyz.Spec
set_option autoImplicit false

/-- The struct with the only field `name`. -/
def oneField (name : Text) (t : Ty) : Ty := .record (.cons name t .nil)

/-- Its dtype. -/
def oneFieldDType (name : Text) (d : DType) : DType := .record (.cons name d .nil)

/-- The elements of `[T; k]` in a struct. -/
def elements {name : Text} {k : Nat} {t : Ty} (v : (oneField name (.array k t)).Val) : List t.Val := v.1.1

/-- The floats that complex numbers are made of. -/
def floatOf : FloatTy → Ty
  | .f32 => .num .f32
  | .f64 => .num .f64

/-- The real and the imaginary part. -/
def parts : (c : FloatTy) → (Ty.complex c).Val → List (floatOf c).Val
  | .f32, v => [v.1, v.2]
  | .f64, v => [v.1, v.2]

end Npyz.Spec
