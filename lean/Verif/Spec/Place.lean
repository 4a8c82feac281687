import Verif.Spec.Codec
/-!
Independent description of the places of the members of structs and arrays inside an item: members of an array follow each
other without gaps, and so do the fields of a record.
-/
set_option autoImplicit false
namespace Npyz.Spec

mutual
/-- `Part d v off d' v'`: inside the value `v` of dtype `d` there is, `off` bytes behind its start, the value `v'` of dtype `d'`:
`v` itself, or a member of an array or a field of a struct, to any depth. -/
inductive Part : {t : Ty} → DType → t.Val → Nat → {t' : Ty} → DType → t'.Val → Prop
  | self {t : Ty} {d : DType} {v : t.Val} : Part d v 0 d v
  | elem {t t' : Ty} {n k off i : Nat} {d d' : DType} {v : { l : List t.Val // l.length = n }} {v' : t'.Val} (hi : i < v.1.length) :
      exactBytes d = some k → Part d v.1[i] off d' v' → Part (t := .array n t) (.array n d) v (i * k + off) d' v'
  | field {fs : TFields} {t' : Ty} {dfs : Fields} {off : Nat} {d' : DType} {v : fs.Val} {v' : t'.Val} :
      FieldPart dfs v off d' v' → Part (t := .record fs) (.record dfs) v off d' v'
/-- The same for the fields of a struct. -/
inductive FieldPart : {fs : TFields} → Fields → fs.Val → Nat → {t' : Ty} → DType → t'.Val → Prop
  | first {name name' : Text} {t t' : Ty} {fs : TFields} {d d' : DType} {dfs : Fields} {off : Nat} {v : t.Val} {vs : fs.Val} {v' : t'.Val} :
      Part d v off d' v' → FieldPart (fs := .cons name t fs) (.cons name' d dfs) (v, vs) off d' v'
  | later {name name' : Text} {t t' : Ty} {fs : TFields} {d d' : DType} {dfs : Fields} {k off : Nat} {v : t.Val} {vs : fs.Val} {v' : t'.Val} :
      exactBytes d = some k → FieldPart dfs vs off d' v' → FieldPart (fs := .cons name t fs) (.cons name' d dfs) (v, vs) (k + off) d' v'
end

mutual
/-- `Put d v off d' x w`: replacing the part of `v` at this place by `x` gives `w`. -/
inductive Put : {t : Ty} → DType → t.Val → Nat → {t' : Ty} → DType → t'.Val → t.Val → Prop
  | self {t : Ty} {d : DType} {v x : t.Val} : Put d v 0 d x x
  | elem {t t' : Ty} {n k off i : Nat} {d d' : DType} {v : { l : List t.Val // l.length = n }} {x : t'.Val} {w : t.Val} (hi : i < v.1.length) :
      exactBytes d = some k → Put d v.1[i] off d' x w →
      Put (t := .array n t) (.array n d) v (i * k + off) d' x (⟨v.1.set i w, by rw [List.length_set]; exact v.2⟩ : { l : List t.Val // l.length = n })
  | field {fs : TFields} {t' : Ty} {dfs : Fields} {off : Nat} {d' : DType} {v w : fs.Val} {x : t'.Val} :
      FieldPut dfs v off d' x w → Put (t := .record fs) (.record dfs) v off d' x w
/-- The same for the fields of a struct. -/
inductive FieldPut : {fs : TFields} → Fields → fs.Val → Nat → {t' : Ty} → DType → t'.Val → fs.Val → Prop
  | first {name name' : Text} {t t' : Ty} {fs : TFields} {d d' : DType} {dfs : Fields} {off : Nat} {v w : t.Val} {vs : fs.Val} {x : t'.Val} :
      Put d v off d' x w → FieldPut (fs := .cons name t fs) (.cons name' d dfs) (v, vs) off d' x (w, vs)
  | later {name name' : Text} {t t' : Ty} {fs : TFields} {d d' : DType} {dfs : Fields} {k off : Nat} {v : t.Val} {vs ws : fs.Val} {x : t'.Val} :
      exactBytes d = some k → FieldPut dfs vs off d' x ws → FieldPut (fs := .cons name t fs) (.cons name' d dfs) (v, vs) (k + off) d' x (v, ws)
end

/-- The `n` bytes at position `a`. -/
def slice (bs : Bytes) (a n : Nat) : Bytes := (bs.drop a).take n

/-- Overwrite the bytes at position `a`. -/
def patch (bs : Bytes) (a : Nat) (new : Bytes) : Bytes := bs.take a ++ new ++ bs.drop (a + new.length)

end Npyz.Spec
