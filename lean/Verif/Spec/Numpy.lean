import Verif.Spec.Header
import Verif.Spec.DType
/-!
NumPy's side of the format, after `numpy/lib/format.py`: what NumPy writes, and what it accepts.
`Py.parse` stands for `ast.literal_eval`.
-/
namespace Npyz.Spec

/-! ### Values -/

mutual
/-- What NumPy understands by the `descr` entry (`descr_to_dtype`). -/
inductive DescrOf : PyVal → DType → Prop
  | plain {s t} : Spells s t → DescrOf (.str s) (.plain t)
  | record {vs fs} : FieldsOf vs fs → DescrOf (.list vs) (.record fs)
inductive FieldsOf : List PyVal → Fields → Prop
  | nil : FieldsOf [] .nil
  | scalar {name v d vs fs} : DescrOf v d → FieldsOf vs fs → FieldsOf (.tuple [.str name, v] :: vs) (.cons name d fs)
  | array {name v d dims vs fs} : DescrOf v d → dims ≠ [] → (∀ n ∈ dims, n < 2 ^ 64) → FieldsOf vs fs →
      FieldsOf (.tuple [.str name, v, .tuple (dims.map fun n : Nat => .int n)] :: vs) (.cons name (dims.foldr .array d) fs)
end

/-- What NumPy understands by the header: a dict with exactly three entries. -/
def HeaderOf (v : PyVal) (d : DType) (o : Order) (dims : List Nat) : Prop :=
  ∃ descr, DescrOf descr d ∧ v = .dict [(.str "descr".toList, descr), (.str "fortran_order".toList, .bool (o == .fortran)),
    (.str "shape".toList, .tuple (dims.map fun n : Nat => .int n))]

/-! ### Field names -/

mutual
/-- No field name in the dtype contains a NUL character. -/
def NoNul : DType → Prop
  | .plain _ => True
  | .array _ d => NoNul d
  | .record fs => FieldsNoNul fs
def FieldsNoNul : Fields → Prop
  | .nil => True
  | .cons name d rest => '\x00' ∉ name ∧ NoNul d ∧ FieldsNoNul rest
end

/-- The names of the fields. -/
def fieldNames : Fields → List Text
  | .nil => []
  | .cons name _ rest => name :: fieldNames rest

mutual
/-- The field names of every record in the dtype are distinct and not empty. -/
def DistinctNames : DType → Prop
  | .plain _ => True
  | .array _ d => DistinctNames d
  | .record fs => FieldsDistinct fs
def FieldsDistinct : Fields → Prop
  | .nil => True
  | .cons name d rest => name ≠ [] ∧ name ∉ fieldNames rest ∧ DistinctNames d ∧ FieldsDistinct rest
end

/-! ### Bytes -/

/-- The text of the header as bytes: Latin-1 in versions 1 and 2, UTF-8 in version 3. -/
def Encoded (version : Nat) (text : Text) (bs : Bytes) : Prop :=
  if version = 3 then bs = encodeUtf8 text
  else (∀ c ∈ text, c.toNat < 256) ∧ bs = text.map fun c => UInt8.ofNat c.toNat

/-- The bytes between the length field and the data. -/
def headerBody (bs : Bytes) : Bytes := (bs.take (headerEnd bs)).drop (if byteAt bs 6 = 1 then 10 else 12)

/-- NumPy reads the stream as an array of this dtype, order and shape: known preamble, complete header of
one line, no NUL character (`ast.literal_eval` refuses it), a literal with the right contents.  NumPy refuses repeated
field names, and renames fields without a name. -/
def NumpyReads (bs : Bytes) (d : DType) (o : Order) (dims : List Nat) : Prop :=
  GoodPreamble bs ∧ headerEnd bs ≤ bs.length ∧ ∃ text v, Encoded (byteAt bs 6) (text ++ ['\n']) (headerBody bs) ∧
    '\x00' ∉ text ∧ Py.parse text = some v ∧ HeaderOf v d o dims ∧ DistinctNames d

/-! ### What NumPy prints -/

/-- Python's `repr` of a string of printable characters, tabs and line breaks: double quotes if there are single
quotes in it but no double ones. -/
def pyReprChar (q c : Char) : Text :=
  if c = q ∨ c = '\\' then ['\\', c]
  else if c = '\t' then ['\\', 't']
  else if c = '\r' then ['\\', 'r']
  else if c = '\n' then ['\\', 'n']
  else [c]

def pyReprQuote (s : Text) : Char := if '\'' ∈ s ∧ '"' ∉ s then '"' else '\''

def pyRepr (s : Text) : Text := [pyReprQuote s] ++ s.flatMap (pyReprChar (pyReprQuote s)) ++ [pyReprQuote s]

/-- Python's `repr` of a tuple of numbers: `()`, `(3,)`, `(3, 4)`. -/
def pyTuple : List Nat → Text
  | [n] => ['('] ++ Nat.toDigits 10 n ++ [',', ')']
  | ns => ['('] ++ List.intercalate [',', ' '] (ns.map (Nat.toDigits 10)) ++ [')']

mutual
/-- `t` is Python's `repr` of the description NumPy makes of a dtype; type strings in any valid spelling. -/
inductive DescrText : Text → DType → Prop
  | plain {s t} : Spells s t → DescrText (['\''] ++ s ++ ['\'']) (.plain t)
  | record {ts fs} : FieldsText ts fs → DescrText (['['] ++ List.intercalate [',', ' '] ts ++ [']']) (.record fs)
inductive FieldsText : List Text → Fields → Prop
  | nil : FieldsText [] .nil
  | scalar {name t d ts fs} : DescrText t d → FieldsText ts fs →
      FieldsText ((['('] ++ pyRepr name ++ [',', ' '] ++ t ++ [')']) :: ts) (.cons name d fs)
  | array {name t d dims ts fs} : DescrText t d → dims ≠ [] → (∀ n ∈ dims, n < 2 ^ 64) → FieldsText ts fs →
      FieldsText ((['('] ++ pyRepr name ++ [',', ' '] ++ t ++ [',', ' '] ++ pyTuple dims ++ [')']) :: ts)
        (.cons name (dims.foldr .array d) fs)
end

/-- The line NumPy writes, without the line break. -/
def numpyLine (descr : Text) (o : Order) (dims : List Nat) (blanks : Nat) : Text :=
  "{'descr': ".toList ++ descr ++ ", 'fortran_order': ".toList ++ (if o = .fortran then "True" else "False").toList
    ++ ", 'shape': ".toList ++ pyTuple dims ++ ", }".toList ++ List.replicate blanks ' '

/-- The stream begins with a header as NumPy writes it for this dtype, order and shape; `text` is its line. -/
def NumpyWrote (bs : Bytes) (d : DType) (o : Order) (dims : List Nat) (text : Text) : Prop :=
  GoodPreamble bs ∧ headerEnd bs ≤ bs.length ∧ ∃ descr blanks, DescrText descr d ∧ text = numpyLine descr o dims blanks ∧
    Encoded (byteAt bs 6) (text ++ ['\n']) (headerBody bs)

end Npyz.Spec
