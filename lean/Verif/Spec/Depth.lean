import Verif.Model.Header
/-!
How deep dtypes and Python literals are nested.
-/
namespace Npyz.Spec
set_option autoImplicit false

mutual
/-- How deep a dtype is nested: a scalar has one level; an array and a record have one more than what is in them. -/
def nesting : DType → Nat
  | .plain _ => 1
  | .array _ d => nesting d + 1
  | .record fs => fieldsNesting fs + 1
/-- The deepest field. -/
def fieldsNesting : Fields → Nat
  | .nil => 0
  | .cons _ d rest => max (nesting d) (fieldsNesting rest)
end

mutual
/-- How many values a literal has, itself included. -/
def values : PyVal → Nat
  | .tuple vs => valuesIn vs + 1
  | .list vs => valuesIn vs + 1
  | .dict kvs => valuesInDict kvs + 1
  | _ => 1
def valuesIn : List PyVal → Nat
  | [] => 0
  | v :: vs => values v + valuesIn vs
def valuesInDict : List (PyVal × PyVal) → Nat
  | [] => 0
  | (k, v) :: kvs => values k + values v + valuesInDict kvs
end

/-- A parser that needs at least one character for each value.  (True of every parser of Python literals.) -/
def OneCharEach (py : PyParser) : Prop := ∀ s v, py s = some v → values v ≤ s.length

/-- A record in a record in a record …, `n` times, with a byte in the innermost one. -/
def deepDType : Nat → DType
  | 0 => .plain ⟨.irrelevant, .int, 1, none⟩
  | n + 1 => .record (.cons ['a'] (deepDType n) .nil)

end Npyz.Spec
