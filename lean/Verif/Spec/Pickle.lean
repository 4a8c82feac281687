import Verif.Model.Read
/-!
Specification of C132: files that give no items.
-/
namespace Npyz.Spec
set_option autoImplicit false

/-- No element type, of the library or of the user, gets items from the file: `data` says that the array is pickled. -/
def GivesNoItems {σ : Type} (f : NpyFile σ) : Prop :=
  ∀ (V : Type) (reader : DType → DRes (RProg V)), f.dataWith reader = .err .requiresPickle

end Npyz.Spec
