import Verif.Model.TypeStr
/-!
Independent description of the NumPy array-interface type-string language, as documented in
`/repo/src/type_str.rs` (doc comments) and the NumPy docs.  Only the data types of the model are
used here, none of its functions, except that `Explained` quotes a type string by its `Display` text.
-/
namespace Npyz.Spec

/-- First character of a type string. -/
def endianTable : List (Char × Endianness) :=
  [('<', .little), ('>', .big), ('|', .irrelevant)]

/-- Second character of a type string (`a` is an old alias of `S`). -/
def typeTable : List (Char × TypeChar) :=
  [('b', .bool), ('i', .int), ('u', .uint), ('f', .float), ('c', .complex), ('m', .timeDelta),
   ('M', .dateTime), ('S', .byteStr), ('a', .byteStr), ('U', .unicodeStr), ('O', .object),
   ('V', .rawData)]

/-- Unit names inside the brackets. -/
def unitTable : List (Text × TimeUnits) :=
  [(['Y'], .year), (['M'], .month), (['W'], .week), (['D'], .day), (['h'], .hour), (['m'], .minute),
   (['s'], .second), (['m','s'], .millisecond), (['u','s'], .microsecond), (['n','s'], .nanosecond),
   (['p','s'], .picosecond), (['f','s'], .femtosecond), (['a','s'], .attosecond)]

/-- Sizes numpy supports for each type character. -/
def SizeAllowed : TypeChar → Nat → Prop
  | .bool, n => n = 1
  | .int, n | .uint, n => n = 1 ∨ n = 2 ∨ n = 4 ∨ n = 8
  | .float, n => n = 2 ∨ n = 4 ∨ n = 8 ∨ n = 16
  | .complex, n => n = 8 ∨ n = 16 ∨ n = 32
  | .timeDelta, n | .dateTime, n => n = 8
  | .byteStr, _ | .unicodeStr, _ | .object, _ | .rawData, _ => True

/-- Types whose items consist of multi-byte machine words, so that the byte order matters. -/
def OrderMatters (c : TypeChar) (n : Nat) : Prop :=
  c = .unicodeStr ∨ (c ≠ .byteStr ∧ c ≠ .object ∧ c ≠ .rawData ∧ n ≠ 1)

/-- The documented validity rules. -/
structure Valid (t : TypeStr) : Prop where
  size_allowed : SizeAllowed t.typeChar t.size
  order_given : OrderMatters t.typeChar t.size → t.endianness ≠ .irrelevant
  units_iff : (∃ u, t.timeUnits = some u) ↔ (t.typeChar = .timeDelta ∨ t.typeChar = .dateTime)

/-- `digits` is the spelling of the size field: absent for `O`, otherwise a nonempty string of
decimal digits whose value is a `u64`. -/
def SizeText (c : TypeChar) (digits : Text) (n : Nat) : Prop :=
  if c = .object then digits = [] ∧ n = 0
  else digits ≠ [] ∧ (∀ d ∈ digits, d.isDigit = true) ∧ n = Nat.ofDigitChars 10 digits 0 ∧ n < 2 ^ 64

/-- `text` is the spelling of the units field. -/
def UnitsText (text : Text) : Option TimeUnits → Prop
  | none => text = []
  | some u => ∃ name, (name, u) ∈ unitTable ∧ text = '[' :: name ++ [']']

/-- `s` is a spelling of the type string `t`. -/
def Spells (s : Text) (t : TypeStr) : Prop :=
  ∃ e c digits units,
    s = e :: c :: (digits ++ units) ∧
    (e, t.endianness) ∈ endianTable ∧
    (c, t.typeChar) ∈ typeTable ∧
    SizeText t.typeChar digits t.size ∧
    UnitsText units t.timeUnits ∧
    Valid t

/-- `s` has the form of a type string, with the meaning `t`; validity apart. -/
def HasForm (s : Text) (t : TypeStr) : Prop :=
  ∃ e c digits units,
    s = e :: c :: (digits ++ units) ∧
    (e, t.endianness) ∈ endianTable ∧
    (c, t.typeChar) ∈ typeTable ∧
    SizeText t.typeChar digits t.size ∧
    UnitsText units t.timeUnits

/-- `s` begins like a type string, but its size field is no `u64`. -/
def HugeSize (s : Text) : Prop :=
  ∃ e c digits rest, s = e :: c :: (digits ++ rest) ∧ (∃ en, (e, en) ∈ endianTable) ∧
    (∃ tc, (c, tc) ∈ typeTable ∧ tc ≠ .object) ∧ (∀ d ∈ digits, d.isDigit = true) ∧
    (∀ d, rest.head? = some d → d.isDigit = false) ∧ 2 ^ 64 ≤ Nat.ofDigitChars 10 digits 0

/-- Decimal numbers in brackets. -/
def numList (l : List Nat) : Text := ['['] ++ List.intercalate [',', ' '] (l.map (Nat.toDigits 10)) ++ [']']

/-- The message `m` truly tells what is wrong with `s`; where it quotes a type string, that is the meaning of `s`. -/
inductive Explained (s : Text) : Text → Prop
  | noForm : (∀ t, ¬ HasForm s t) → ¬ HugeSize s → Explained s "Invalid type-string".toList
  | huge : HugeSize s → Explained s "number too large to fit in target type".toList
  | order {t} : HasForm s t → OrderMatters t.typeChar t.size → t.endianness = .irrelevant →
      Explained s ("Type string '".toList ++ t.display ++ "' has invalid endianness".toList)
  | size {t l} : HasForm s t → ¬ SizeAllowed t.typeChar t.size → (∀ n, n ∈ l ↔ SizeAllowed t.typeChar n) →
      Explained s ("Type string '".toList ++ t.display ++ "' has invalid size. Valid sizes are: ".toList ++ numList l)
  | missing {t} : HasForm s t → (t.typeChar = .timeDelta ∨ t.typeChar = .dateTime) → t.timeUnits = none →
      Explained s ("Type string '".toList ++ t.display ++ "' is missing time units.".toList)
  | unexpected {t u} : HasForm s t → ¬ (t.typeChar = .timeDelta ∨ t.typeChar = .dateTime) → t.timeUnits = some u →
      Explained s ("Unexpected time units in type string '".toList ++ t.display ++ "'.".toList)

/-- Exact number of bytes of one item, as a mathematical integer: `none` for pickled objects. -/
def itemBytes (t : TypeStr) : Option Nat :=
  if t.typeChar = .object then none
  else if t.typeChar = .unicodeStr then some (4 * t.size)
  else some t.size

end Npyz.Spec

namespace Npyz
open Spec

/-- What it takes for a `TypeStr` to be one the API can produce. -/
structure TypeStr.Wf (t : TypeStr) : Prop where
  valid : Valid t
  size_lt : t.size < 2 ^ 64
  obj : t.typeChar = .object → t.size = 0

end Npyz
