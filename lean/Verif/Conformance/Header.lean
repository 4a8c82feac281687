import Verif.Model.Header
/-!
The project's own unit tests, run on the model: `/repo/src/type_str.rs` 558-721 and `/repo/src/header.rs` 343-590.

These examples prove nothing about all inputs.  They check that the model behaves like the program on the cases
its authors wrote down; each example names the test it comes from.
-/
namespace Npyz.Conformance

deriving instance DecidableEq for DType, Fields

/-- `s.parse::<TypeStr>()`. -/
def ts (s : String) : Out TypeStrErr TypeStr := TypeStr.parse s.toList

/-- The kinds of errors that the tests distinguish. -/
inductive Kind where
  | syntaxError | endianness | size | units | other
deriving DecidableEq

/-- `ParseTypeStrError(kind)`. -/
def kind : Out TypeStrErr TypeStr → Option Kind
  | .err .syntaxError => some .syntaxError
  | .err (.invalidEndianness ..) => some .endianness
  | .err (.invalidSize ..) => some .size
  | .err (.missingOrUnexpectedUnits ..) => some .units
  | .err _ => some .other
  | _ => none

-- `errors` (type_str.rs 584-642)
example : ["", ">", ">m", ">m8[", ">m8[us", ">m8[us]garbage", ">m8[us]]", ">i", "|O4", ">i8garbage", ">m[us]"].all
    (fun s => kind (ts s) == some .syntaxError) = true := by decide +kernel
example : [">m8[us]", ">m8[D]", ">i8", ">c16", "|O", "<i8", "|i1", "|S7", "|V7", "|S0", ">U0", "|V0"].all
    (fun s => (ts s).isOk) = true := by decide +kernel
example : [">m999999999999999999999999999999[us]", ">i999999999999999999999999999999", "*i8", "<p8", ">m8[bus]", ">m8[usb]",
    ">m8[xq]"].all (fun s => (kind (ts s)).isSome) = true := by decide +kernel
example : ["|i8", "|U1"].all (fun s => kind (ts s) == some .endianness) = true := by decide +kernel
example : [">i9", ">m4[us]", ">b4"].all (fun s => kind (ts s) == some .size) = true := by decide +kernel
example : [">i8[us]", ">m8"].all (fun s => kind (ts s) == some .units) = true := by decide +kernel

-- `display_simple` (651-689)
example : (⟨.little, .int, 8, none⟩ : TypeStr).display = "<i8".toList := by decide +kernel
example : (⟨.irrelevant, .byteStr, 13, none⟩ : TypeStr).display = "|S13".toList := by decide +kernel
example : (⟨.irrelevant, .object, 0, none⟩ : TypeStr).display = "|O".toList := by decide +kernel
example : (⟨.big, .timeDelta, 8, some .nanosecond⟩ : TypeStr).display = ">m8[ns]".toList := by decide +kernel

/-- `text.parse()` and `to_string`. -/
def again (s : String) : Bool :=
  match ts s with
  | .ok t => t.display == s.toList
  | _ => false

-- `roundtrip` (692-720)
example : [">i8", ">f16", "<i8", "<i1", ">i1", "|i1", "|S7", "|S0", "<S0", ">U3", "|O", "<m8[D]", ">m8[ms]"].all again = true := by
  decide +kernel

/-- A scalar dtype. -/
def plain (s : String) : DType :=
  match ts s with
  | .ok t => .plain t
  | _ => .record .nil

/-- A record dtype. -/
def rec (fs : List (String × DType)) : DType := .record (fs.foldr (fun f r => .cons f.1.toList f.2 r) .nil)

/-- `parse` of the tests, then `DType::from_descr`. -/
def fromDescr (s : String) : Option (Res DType) := (Py.parse s.toList).map DType.fromDescr

-- `description_of_record_array_as_python_list_of_tuples`, `description_of_unstructured_primitive_array`,
-- `description_of_nested_record_dtype` (header.rs 351-389)
example : (rec [("float", plain ">f4"), ("byte", plain "<u1")]).descr = "[('float', '>f4'), ('byte', '<u1'), ]".toList := by decide +kernel
example : (plain ">f8").descr = "'>f8'".toList := by decide +kernel
example : (rec [("parent", rec [("child", plain "<i4")])]).descr = "[('parent', [('child', '<i4'), ]), ]".toList := by decide +kernel

-- `converts_*` (392-435), `handles_variable_size_record`
example : DType.fromDescr (.str ">f8".toList) = .ok (plain ">f8") := by decide +kernel
example : DType.fromDescr (.str "|u1".toList) = .ok (plain "|u1") := by decide +kernel
example : DType.fromDescr (.str "|O".toList) = .ok (plain "|O") := by decide +kernel
example : fromDescr "[('a', '<u2'), ('b', '<f4')]" = some (.ok (rec [("a", plain "<u2"), ("b", plain "<f4")])) := by decide +kernel
example : fromDescr "[('a', '<u2'), ('b', '|O')]" = some (.ok (rec [("a", plain "<u2"), ("b", plain "|O")])) := by decide +kernel

-- `funny_member_name_roundtrips` (456-466)
example : (Py.parse (rec [(" '\"\r\n\\ ", plain "<u2")]).descr).map DType.fromDescr = some (.ok (rec [(" '\"\r\n\\ ", plain "<u2")])) := by
  decide +kernel

-- `record_description_with_onedimensional_field_shape_declaration`, `record_description_with_nested_record_field`,
-- `nested_record_field_array` (469-516)
example : fromDescr "[('a', '>f8', (1,))]" = some (.ok (rec [("a", .array 1 (plain ">f8"))])) := by decide +kernel
example : fromDescr "[('parent', [('child', '<i4')])]" = some (.ok (rec [("parent", rec [("child", plain "<i4")])])) := by decide +kernel
example : fromDescr "[('parent', [('child', '<i4')], (2,))]" = some (.ok (rec [("parent", .array 2 (rec [("child", plain "<i4")]))])) := by
  decide +kernel

/-- `num_bytes` and `uses_pickled_array` of a description. -/
def sizeOf (s : String) : Option (Option Nat × Bool) :=
  match fromDescr s with
  | some (.ok d) => some (d.numBytes ⟨false, 64, true⟩, d.usesPickled)
  | _ => none

-- `test_size_of_packed_data`, `test_variable_size` (519-533)
example : sizeOf "[('a', '<u2'), ('b', '>i4')]" = some (some 6, false) := by decide +kernel
example : sizeOf "[('a', '<u2'), ('b', '|O')]" = some (none, true) := by decide +kernel

/-- `is_err`. -/
def isErr {ε α : Type} : Out ε α → Bool
  | .err _ => true
  | _ => false

-- `errors_*` (536-585)
example : isErr (DType.fromDescr (.bool false)) = true := by decide +kernel
example : ["['a', 123]", "[('a',)]", "[('a', 1, 2, 3)]", "[(1, 2)]"].all (fun s => ((fromDescr s).map isErr) == some true) = true := by
  decide +kernel
example : (Py.parse "1".toList).map (fun v => isErr (convertShape v)) = some true := by decide +kernel
example : ["[]", "-1", "18446744073709551616"].all (fun s => ((Py.parse s.toList).map fun v => isErr (shapeInteger v)) == some true) = true := by
  decide +kernel

end Npyz.Conformance
