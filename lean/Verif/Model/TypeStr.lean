import Verif.Model.Basic
/-!
Model of `/repo/src/type_str.rs`.
-/
namespace Npyz

/-- type_str.rs 62-75 `enum Endianness`. -/
inductive Endianness where
  | little | big | irrelevant
deriving DecidableEq, Repr

namespace Endianness

/-- type_str.rs 78-85 `Endianness::from_char`. -/
def fromChar (c : Char) : Option Endianness :=
  if c = '<' then some little
  else if c = '>' then some big
  else if c = '|' then some irrelevant
  else none

/-- type_str.rs 88-94 `Endianness::to_str`. -/
def toStr : Endianness → Text
  | little => ['<']
  | big => ['>']
  | irrelevant => ['|']

/-- type_str.rs 99-105 `Endianness::of_machine`; the machine is a parameter. -/
def ofMachine (M : Machine) : Endianness := if M.bigEndian then big else little

/-- type_str.rs 109-116 `requires_swap`. -/
def requiresSwap : Endianness → Endianness → Bool
  | little, big => true
  | big, little => true
  | _, _ => false

end Endianness

/-- type_str.rs 120-191 `enum TypeChar`. -/
inductive TypeChar where
  | bool | int | uint | float | complex | timeDelta | dateTime | byteStr | unicodeStr | object | rawData
deriving DecidableEq, Repr

namespace TypeChar

/-- type_str.rs 195-210 `TypeChar::from_char`. -/
def fromChar (c : Char) : Option TypeChar :=
  if c = 'b' then some bool
  else if c = 'i' then some int
  else if c = 'u' then some uint
  else if c = 'f' then some float
  else if c = 'c' then some complex
  else if c = 'm' then some timeDelta
  else if c = 'M' then some dateTime
  else if c = 'S' ∨ c = 'a' then some byteStr
  else if c = 'U' then some unicodeStr
  else if c = 'O' then some object
  else if c = 'V' then some rawData
  else none

/-- type_str.rs 213-227 `TypeChar::to_str`. -/
def toStr : TypeChar → Text
  | bool => ['b']
  | int => ['i']
  | uint => ['u']
  | float => ['f']
  | complex => ['c']
  | timeDelta => ['m']
  | dateTime => ['M']
  | byteStr => ['S']
  | unicodeStr => ['U']
  | object => ['O']
  | rawData => ['V']

/-- type_str.rs 232-256 `valid_sizes`; `none` means all sizes are valid. -/
def validSizes : TypeChar → Option (List Nat)
  | bool => some [1]
  | int | uint => some [1, 2, 4, 8]
  | float => some [2, 4, 8, 16]
  | complex => some [8, 16, 32]
  | timeDelta | dateTime => some [8]
  | byteStr | unicodeStr | object | rawData => none

/-- type_str.rs 259-275 `requires_endianness`. -/
def requiresEndianness (c : TypeChar) (size : Nat) : Bool :=
  match c with
  | bool | int | uint | float | timeDelta | dateTime | complex => size != 1
  | unicodeStr => true
  | byteStr | object | rawData => false

/-- type_str.rs 278-285 `has_units`. -/
def hasUnits : TypeChar → Bool
  | timeDelta | dateTime => true
  | _ => false

end TypeChar

/-- type_str.rs 322-349 `enum TimeUnits`. -/
inductive TimeUnits where
  | year | month | week | day | hour | minute | second | millisecond | microsecond | nanosecond
  | picosecond | femtosecond | attosecond
deriving DecidableEq, Repr

namespace TimeUnits

/-- type_str.rs 353-370 `TimeUnits::from_str`. -/
def fromStr (s : Text) : Option TimeUnits :=
  if s = ['Y'] then some year
  else if s = ['M'] then some month
  else if s = ['W'] then some week
  else if s = ['D'] then some day
  else if s = ['h'] then some hour
  else if s = ['m'] then some minute
  else if s = ['s'] then some second
  else if s = ['m', 's'] then some millisecond
  else if s = ['u', 's'] then some microsecond
  else if s = ['n', 's'] then some nanosecond
  else if s = ['p', 's'] then some picosecond
  else if s = ['f', 's'] then some femtosecond
  else if s = ['a', 's'] then some attosecond
  else none

/-- type_str.rs 373-389 `TimeUnits::to_str`. -/
def toStr : TimeUnits → Text
  | year => ['Y']
  | month => ['M']
  | week => ['W']
  | day => ['D']
  | hour => ['h']
  | minute => ['m']
  | second => ['s']
  | millisecond => ['m', 's']
  | microsecond => ['u', 's']
  | nanosecond => ['n', 's']
  | picosecond => ['p', 's']
  | femtosecond => ['f', 's']
  | attosecond => ['a', 's']

end TimeUnits

/-- type_str.rs 23-28 `struct TypeStr`; `size` is a `u64`. -/
structure TypeStr where
  endianness : Endianness
  typeChar : TypeChar
  size : Nat
  timeUnits : Option TimeUnits
deriving DecidableEq, Repr

/-- type_str.rs 432-438 `ErrorKind` (payload of `ParseIntError` dropped). -/
inductive TypeStrErr where
  | syntaxError
  | parseIntError
  | invalidEndianness (t : TypeStr)
  | invalidSize (t : TypeStr)
  | missingOrUnexpectedUnits (t : TypeStr)
deriving DecidableEq, Repr

/-- Byte length of a `str` (UTF-8). -/
def utf8Len (s : Text) : Nat := (s.map Char.utf8Size).sum

namespace TypeStr

/-- type_str.rs 53-57 `uses_pickled_array`. -/
def usesPickledArray (t : TypeStr) : Bool := t.typeChar == .object

/-- type_str.rs 416-418: the `[units]` suffix of `Display for TypeStr`. -/
def displayUnits : Option TimeUnits → Text
  | some u => ['['] ++ u.toStr ++ [']']
  | none => []

/-- type_str.rs 410-421 `Display for TypeStr`. -/
def display (t : TypeStr) : Text :=
  t.endianness.toStr ++ t.typeChar.toStr
    ++ (if t.usesPickledArray then [] else Nat.toDigits 10 t.size)
    ++ displayUnits t.timeUnits

/-- type_str.rs 541-545, inside `validate`: `if let Some(valid_sizes) = .. { !valid_sizes.contains(&size) }`. -/
def sizeIsInvalid (t : TypeStr) : Bool :=
  match t.typeChar.validSizes with
  | some sizes => !sizes.contains t.size
  | none => false

/-- type_str.rs 532-552 `validate`. -/
def validate (t : TypeStr) : Out TypeStrErr TypeStr :=
  if t.typeChar.requiresEndianness t.size ∧ t.endianness = .irrelevant then
    .err (.invalidEndianness t)
  else if t.sizeIsInvalid then
    .err (.invalidSize t)
  else if t.typeChar.hasUnits ≠ t.timeUnits.isSome then
    .err (.missingOrUnexpectedUnits t)
  else .ok t

/-- type_str.rs 500-511: the size digits.  `"".parse::<u64>()` cannot occur here; a digit string
parses to its value unless it exceeds `u64::MAX`. -/
def parseSize (c : TypeChar) (digits : Text) : Out TypeStrErr Nat :=
  match c, digits with
  | .object, [] => .ok 0
  | .object, _ :: _ => .err .syntaxError
  | _, [] => .err .syntaxError
  | _, d :: ds =>
    if Nat.ofDigitChars 10 (d :: ds) 0 < u64Lim then .ok (Nat.ofDigitChars 10 (d :: ds) 0)
    else .err .parseIntError

/-- type_str.rs 513-526: the optional `[units]` suffix, via `chars.next()` and `next_back()`. -/
def parseUnits (remainder : Text) : Out TypeStrErr (Option TimeUnits) :=
  match remainder with
  | [] => .ok none
  | c :: rest =>
    match c == '[', rest.getLast? with
    | true, some ']' =>
      match TimeUnits.fromStr rest.dropLast with
      | none => .err .syntaxError
      | some u => .ok (some u)
    | _, _ => .err .syntaxError

/-- type_str.rs 478-528 `FromStr::from_str`.  The two `unwrap`s on `chars.next()` are explicit
panics.  Rust finds the end of the digits bytewise; non-digit bytes and non-digit chars begin at the
same place, so here it is a `span` over chars (`split_at` is then at a char boundary). -/
def parse (input : Text) : Out TypeStrErr TypeStr :=
  if utf8Len input < 2 then .err .syntaxError
  else
    match input with
    | [] => .panic
    | c :: chars =>
      match Endianness.fromChar c with
      | none => .err .syntaxError
      | some endianness =>
        match chars with
        | [] => .panic
        | c :: remainder =>
          match TypeChar.fromChar c with
          | none => .err .syntaxError
          | some typeChar => do
            let size ← parseSize typeChar (remainder.takeWhile Char.isDigit)
            let timeUnits ← parseUnits (remainder.dropWhile Char.isDigit)
            validate { endianness, typeChar, size, timeUnits }

/-- type_str.rs 289-295 `with_auto_endianness`: `validate().unwrap()` panics on an error. -/
def withAutoEndianness (M : Machine) (c : TypeChar) (size : Nat) (u : Option TimeUnits) :
    Out TypeStrErr TypeStr :=
  let endianness := if c.requiresEndianness size then Endianness.ofMachine M else .irrelevant
  match validate { endianness, typeChar := c, size, timeUnits := u } with
  | .ok t => .ok t
  | .err _ => .panic
  | .panic => .panic

/-- type_str.rs 298-315 `type_str_num_bytes_as_usize` (`TypeStr::num_bytes`). -/
def numBytes (M : Machine) (t : TypeStr) : Option Nat :=
  if t.size < M.usizeLim then
    match t.typeChar with
    | .unicodeStr => if t.size * 4 < M.usizeLim then some (t.size * 4) else none
    | .object => none
    | _ => some t.size
  else none

end TypeStr

/-- Text literals. -/
def txt (s : String) : Text := s.toList

/-- `", "` between items. -/
def commaSep : List Text → Text
  | [] => []
  | [x] => x
  | x :: xs => x ++ txt ", " ++ commaSep xs

/-- `{:?}` of a `&[u64]`. -/
def debugNums (l : List Nat) : Text := txt "[" ++ commaSep (l.map (Nat.toDigits 10)) ++ txt "]"

/-- type_str.rs 441-462 `Display for ParseTypeStrError`; the `unwrap` of line 449 is an explicit panic.
`u64::from_str` fails on a nonempty string of digits only by overflow, whence the text of `ParseIntError`. -/
def TypeStrErr.message : TypeStrErr → Out Empty Text
  | .syntaxError => .ok (txt "Invalid type-string")
  | .invalidEndianness t => .ok (txt "Type string '" ++ t.display ++ txt "' has invalid endianness")
  | .invalidSize t =>
    match t.typeChar.validSizes with
    | some sizes => .ok (txt "Type string '" ++ t.display ++ txt "' has invalid size." ++ txt " Valid sizes are: " ++ debugNums sizes)
    | none => .panic
  | .missingOrUnexpectedUnits t =>
    if t.typeChar.hasUnits then .ok (txt "Type string '" ++ t.display ++ txt "' is missing time units.")
    else .ok (txt "Unexpected time units in type string '" ++ t.display ++ txt "'.")
  | .parseIntError => .ok (txt "number too large to fit in target type")

end Npyz
