import Verif.Model.Npz
/-!
Archives with the same contents.
-/
set_option autoImplicit false
namespace Npyz.Spec

/-- The members with one of these file names. -/
def named (files : List Text) (a : NpzArchive) : List (Text × Bytes) := a.members.filter fun m => files.contains m.1

/-- Both archives have the same members with these file names, each at most once, in any order; what else is in them is free. -/
structure SameMembers (files : List Text) (a b : NpzArchive) : Prop where
  same : (named files a).Perm (named files b)
  once : ((named files a).map (·.1)).Nodup

/-- Both archives have the same members, each at most once, in any order. -/
structure SameContents (a b : NpzArchive) : Prop where
  same : a.members.Perm b.members
  once : (a.members.map (·.1)).Nodup

/-- What scipy stores a sparse matrix in. -/
def sparseFiles : List Text :=
  ["format.npy", "shape.npy", "data.npy", "row.npy", "col.npy", "indices.npy", "indptr.npy", "offsets.npy"].map String.toList

end Npyz.Spec
