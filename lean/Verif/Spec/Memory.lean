import Verif.Model.IO
/-!
The buffers a reading program asks for.  `read_exact` fills a buffer that was allocated beforehand, so the sizes
of the `read_exact` calls are the sizes of the buffers.
-/
set_option autoImplicit false
namespace Npyz.Spec

/-- The sizes of the buffers that `p` asks for when it reads from `bs`, in order; the last one may be larger than
what is left. -/
def buffers {α : Type} : RProg α → Bytes → List Nat
  | .ret _, _ => []
  | .read n _ k, bs => n :: if n ≤ bs.length then buffers (k (bs.take n)) (bs.drop n) else []

end Npyz.Spec
