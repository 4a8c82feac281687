import Verif.Model.Compose
import Verif.Spec.User
/-!
Element types made of other element types, where these need not be the library's.
-/
namespace Npyz.Spec
set_option autoImplicit false

/-- A stream on which changing the result of a program, after it has run, changes nothing else. -/
def Lawful {σ : Type} (T : Target σ) : Prop :=
  ∀ {α β : Type} (g : α → β) (p : WProg α) (s : σ), T.exec (p >>= fun a => pure (g a)) s = ((T.exec p s).1.map g, (T.exec p s).2)

/-- An implementation of `Deserialize` that does its job: for every dtype that it accepts, with items of at most `lim` bytes, its
`read_one` consumes one item and decodes it by `dec`. -/
def GoodReader {V : Type} (lim : Nat) (reader : DType → DRes (RProg V)) (dec : DType → Bytes → Option V) : Prop :=
  ∀ d n p, d.Wf → exactBytes d = some n → n ≤ lim → reader d = .ok p → Decodes p n (dec d)

/-- An implementation of `Serialize` that does its job: its `write_one` writes the bytes of one item. -/
def GoodWriter {V : Type} (lim : Nat) (writer : DType → DRes (V → WProg Unit)) (enc : DType → V → Option Bytes) : Prop :=
  ∀ d n w, d.Wf → exactBytes d = some n → n ≤ lim → writer d = .ok w → WritesItems w n (enc d)

/-- The same for the fields of a struct. -/
def GoodFields {V : Type} (lim : Nat) (s : StructReader V) (dec : Fields → Bytes → Option V) : Prop :=
  ∀ dfs n p, dfs.names = s.names → dfs.Wf → exactFieldBytes dfs = some n → n ≤ lim → s.fields dfs = .ok p → Decodes p n (dec dfs)

/-- The same for the fields of a struct. -/
def GoodFieldWriters {V : Type} (lim : Nat) (s : StructWriter V) (enc : Fields → V → Option Bytes) : Prop :=
  ∀ dfs n w, dfs.names = s.names → dfs.Wf → exactFieldBytes dfs = some n → n ≤ lim → s.fields dfs = .ok w → WritesItems w n (enc dfs)

/-- The items of an array, one after the other. -/
def decodeArray {V : Type} (n : Nat) (dec : DType → Bytes → Option V) (d : DType) (bs : Bytes) : Option { l : List V // l.length = n } :=
  d |> onArray fun d => (exactBytes d).bind fun k => decodeMany (dec d) k n bs

/-- The items of an array, one after the other. -/
def encodeArray {V : Type} (n : Nat) (enc : DType → V → Option Bytes) (d : DType) (v : { l : List V // l.length = n }) : Option Bytes :=
  d |> onArray fun d => encodeAll (enc d) v.1

/-- The first field, then the others, without padding. -/
def decodeField {V W : Type} (dec : DType → Bytes → Option V) (decs : Fields → Bytes → Option W) : Fields → Bytes → Option (V × W)
  | .nil, _ => none
  | .cons _ d dfs, bs => (exactBytes d).bind fun k => decodePair k (dec d) (decs dfs) bs

/-- The first field, then the others, without padding. -/
def encodeField {V W : Type} (enc : DType → V → Option Bytes) (encs : Fields → W → Option Bytes) : Fields → V × W → Option Bytes
  | .nil, _ => none
  | .cons _ d dfs, v => both (enc d v.1) (encs dfs v.2)

/-- The bytes of a value, in any dtype that the writer accepts, are decoded to the value. -/
def RoundTrips {V : Type} (writer : DType → DRes (V → WProg Unit)) (enc : DType → V → Option Bytes) (dec : DType → Bytes → Option V) : Prop :=
  ∀ d n w, writer d = .ok w → exactBytes d = some n → ∀ v bs, enc d v = some bs → bs.length = n ∧ dec d bs = some v

/-- The same for the fields of a struct. -/
def FieldsRoundTrip {V : Type} (s : StructWriter V) (enc : Fields → V → Option Bytes) (dec : Fields → Bytes → Option V) : Prop :=
  ∀ dfs n w, dfs.names = s.names → s.fields dfs = .ok w → exactFieldBytes dfs = some n →
    ∀ v bs, enc dfs v = some bs → bs.length = n ∧ dec dfs bs = some v

end Npyz.Spec
