import Verif.Model.Basic
/-!
Python literals, standing in for the external crate `py_literal` (absent from the sandbox).

`PyVal` models `py_literal::Value` as far as npyz looks at it; `Py.parse` is a reference parser for
the sublanguage npyz itself writes (and a bit more).  Functions that parse headers take the literal
parser as a parameter, see `Model/Header.lean`.
-/
namespace Npyz

/-- `py_literal::Value`.  Variants npyz never distinguishes (bytes, float, complex, set) are `other`. -/
inductive PyVal where
  | str (s : Text)
  | int (n : Int)
  | bool (b : Bool)
  | none
  | tuple (vs : List PyVal)
  | list (vs : List PyVal)
  | dict (kvs : List (PyVal × PyVal))
  | other

/-- A parser of Python literals: `None` for `py_literal::ParseError`. -/
abbrev PyParser := Text → Option PyVal

namespace Py

/-- Blanks allowed between tokens. -/
def skipWs (s : Text) : Text := s.dropWhile (· == ' ')

/-- Escape sequences. -/
def escape (c : Char) : Option Char :=
  if c = '\\' then some '\\'
  else if c = '\'' then some '\''
  else if c = '"' then some '"'
  else if c = 'n' then some '\n'
  else if c = 'r' then some '\r'
  else if c = 't' then some '\t'
  else Option.none

/-- Prepend a decoded character to the result of `strBody`. -/
def consChar (c : Option Char) (r : Option (Text × Text)) : Option (Text × Text) :=
  match c, r with
  | some c, some (s, rest) => some (c :: s, rest)
  | _, _ => Option.none

/-- Body of a string literal opened by the quote `q`: contents and what follows the closing quote. -/
def strBody (q : Char) : Text → Option (Text × Text)
  | [] => Option.none
  | c :: r =>
    if c = q then some ([], r)
    else if c = '\\' then
      match r with
      | [] => Option.none
      | e :: r' => consChar (escape e) (strBody q r')
    else if c = '\n' ∨ c = '\r' then Option.none
    else consChar (some c) (strBody q r)

/-- Value of a run of decimal digits; no redundant leading zeros. -/
def digitsVal : Text → Option Nat
  | [] => Option.none
  | d :: ds => if d = '0' ∧ ds ≠ [] then Option.none else some (Nat.ofDigitChars 10 (d :: ds) 0)

/-- A decimal integer literal (without sign). -/
def parseNat (s : Text) : Option (Nat × Text) :=
  match digitsVal (s.takeWhile Char.isDigit) with
  | some n => some (n, s.dropWhile Char.isDigit)
  | Option.none => Option.none

/-- `True`, `False`, `None`. -/
def parseKeyword : Text → Option (PyVal × Text)
  | 'T' :: 'r' :: 'u' :: 'e' :: r => some (.bool true, r)
  | 'F' :: 'a' :: 'l' :: 's' :: 'e' :: r => some (.bool false, r)
  | 'N' :: 'o' :: 'n' :: 'e' :: r => some (.none, r)
  | _ => Option.none

/-- `(v)` is not a tuple; `()`, `(v,)`, `(v, w)` are. -/
def mkTuple : Option (List PyVal × Bool × Text) → Option (PyVal × Text)
  | some (vs, sawComma, r) => if vs.length = 1 ∧ sawComma = false then Option.none else some (.tuple vs, r)
  | Option.none => Option.none

/-- `[...]`. -/
def mkList : Option (List PyVal × Bool × Text) → Option (PyVal × Text)
  | some (vs, _, r) => some (.list vs, r)
  | Option.none => Option.none

/-- `{...}`. -/
def mkDict : Option (List (PyVal × PyVal) × Text) → Option (PyVal × Text)
  | some (kvs, r) => some (.dict kvs, r)
  | Option.none => Option.none

/-- After the item `v`: either the closing bracket, or a comma and further items. -/
def itemTail (close : Char) (v : PyVal) (more : Text → Option (List PyVal × Bool × Text)) :
    Text → Option (List PyVal × Bool × Text)
  | [] => Option.none
  | c :: r =>
    if c = close then some ([v], false, r)
    else if c = ',' then
      match more (skipWs r) with
      | some (vs, _, r') => some (v :: vs, true, r')
      | Option.none => Option.none
    else Option.none

/-- After the dict entry `k: v`: either the closing brace, or a comma and further entries. -/
def entryTail (kv : PyVal × PyVal) (more : Text → Option (List (PyVal × PyVal) × Text)) :
    Text → Option (List (PyVal × PyVal) × Text)
  | [] => Option.none
  | c :: r =>
    if c = '}' then some ([kv], r)
    else if c = ',' then
      match more (skipWs r) with
      | some (kvs, r') => some (kv :: kvs, r')
      | Option.none => Option.none
    else Option.none

/-- Drop the colon after a dict key. -/
def expectColon : Text → Option Text
  | [] => Option.none
  | c :: r => if c = ':' then some (skipWs r) else Option.none

mutual

/-- Reference parser: one literal at the start of the text.  `fuel` bounds the number of nested
calls; `parse` supplies enough. -/
def parseVal : Nat → Text → Option (PyVal × Text)
  | 0, _ => Option.none
  | _ + 1, [] => Option.none
  | fuel + 1, c :: r =>
    if c = '\'' ∨ c = '"' then
      match strBody c r with
      | some (s, r') => some (.str s, r')
      | Option.none => Option.none
    else if c = '(' then mkTuple (parseItems fuel ')' (skipWs r))
    else if c = '[' then mkList (parseItems fuel ']' (skipWs r))
    else if c = '{' then mkDict (parseEntries fuel (skipWs r))
    else if c.isDigit then
      match parseNat (c :: r) with
      | some (n, r') => some (.int n, r')
      | Option.none => Option.none
    else if c = '-' then
      match parseNat r with
      | some (n, r') => some (.int (-n), r')
      | Option.none => Option.none
    else parseKeyword (c :: r)

/-- Items of a tuple or list up to the closing bracket. -/
def parseItems : Nat → Char → Text → Option (List PyVal × Bool × Text)
  | 0, _, _ => Option.none
  | _ + 1, _, [] => Option.none
  | fuel + 1, close, c :: r =>
    if c = close then some ([], false, r)
    else
      match parseVal fuel (c :: r) with
      | some (v, r') => itemTail close v (parseItems fuel close) (skipWs r')
      | Option.none => Option.none

/-- Entries of a dict up to the closing brace. -/
def parseEntries : Nat → Text → Option (List (PyVal × PyVal) × Text)
  | 0, _ => Option.none
  | _ + 1, [] => Option.none
  | fuel + 1, c :: r =>
    if c = '}' then some ([], r)
    else
      match parseVal fuel (c :: r) with
      | some (k, r') =>
        match expectColon (skipWs r') with
        | some r'' =>
          match parseVal fuel r'' with
          | some (v, r''') => entryTail (k, v) (parseEntries fuel) (skipWs r''')
          | Option.none => Option.none
        | Option.none => Option.none
      | Option.none => Option.none

end

/-- Only blanks may follow the literal. -/
def finish : Option (PyVal × Text) → Option PyVal
  | some (v, r) => if skipWs r = [] then some v else Option.none
  | Option.none => Option.none

/-- The reference parser. -/
def parse : PyParser := fun s => finish (parseVal (s.length + 1) (skipWs s))

end Py

/-- `py` agrees with the reference parser wherever the latter succeeds. -/
def PyParser.ExtendsRef (py : PyParser) : Prop := ∀ s v, Py.parse s = some v → py s = some v

/-- `py` rejects what the reference parser rejects among the texts that begin with `start` and consist,
from there on, of digits, commas, blanks, stars and closing brackets. -/
def PyParser.StrictAfter (py : PyParser) (start : Text) : Prop :=
  ∀ x, (∀ c ∈ x, c.isDigit = true ∨ c ∈ [',', ')', ' ', '}', '*']) → Py.parse (start ++ x) = none → py (start ++ x) = none

end Npyz
