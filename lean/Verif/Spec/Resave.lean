import Verif.Spec.Writer
/-!
Independent description of what it takes to copy an array: the element type must hold every item of the dtype, as it is.
-/
set_option autoImplicit false
namespace Npyz.Spec

mutual
/-- No type of bounded capacity is too small for the items of the dtype; raw data need exactly their size. -/
def Roomy : Ty → DType → Prop
  | .arrayVecU8 n, .plain s => if s.typeChar = .rawData then s.size = n else s.size ≤ n
  | .arrayVecU32 n, .plain s | .arrayVecChar n, .plain s | .arrayString n, .plain s => s.size ≤ n
  | .array _ t, .array _ d => Roomy t d
  | .record fs, .record dfs => RoomyFields fs dfs
  | _, _ => True
def RoomyFields : TFields → Fields → Prop
  | .cons _ t fs, .cons _ d dfs => Roomy t d ∧ RoomyFields fs dfs
  | _, _ => True
end

mutual
/-- Types without a fixed capacity. -/
def Unbounded : Ty → Prop
  | .arrayVecU8 _ | .arrayVecU32 _ | .arrayVecChar _ | .arrayString _ => False
  | .array _ t => Unbounded t
  | .record fs => UnboundedFields fs
  | _ => True
def UnboundedFields : TFields → Prop
  | .nil => True
  | .cons _ t fs => Unbounded t ∧ UnboundedFields fs
end

/-- The bytes of the elements of an open file. -/
def dataBytes (f : NpyFile Src) (size : Nat) : Bytes := (f.src.data.drop f.src.pos).take (f.header.nRecords * size)

end Npyz.Spec
