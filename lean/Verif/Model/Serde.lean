import Verif.Model.Pnts

/-!
# Model of `serde` for layouts and bounding boxes (feature `serde` of `pasture-core`)

`pasture-core/src/layout/point_layout.rs` and `pasture-core/src/math/bounds.rs`, with `serde_json::to_value` and
`serde_json::from_value` as the format. The code derived by `serde` is modelled from the types and their attributes:

* a struct is written as an object with its fields; it is read from an object (unknown entries are ignored, a missing
  one is an error; a `serde_json::Map` has no entry twice) or from an array with exactly its fields in order;
* a variant without fields is written as its name; it is read from its name or from an object with the name and `null`.
  A variant with fields is an object with one entry; for `Custom` its content must be an object;
* an integer is read from a non-negative integer, an `f64` from any number;
* nalgebra writes a point as the array of its coordinates and reads it from an array of exactly three numbers;
* the crate `uuid` writes 32 hexadecimal digits in five groups, and reads them with or without the hyphens, and with
  `{…}` or `urn:uuid:` around the hyphenated form.
-/

namespace Pasture.Serde

open Tiles3d

/-! ## `Uuid` (crate `uuid`, not in /repo), the `name` of `PointAttributeDataType::Custom`, point_layout.rs:84-88 -/

/-- The lower case hexadecimal digit of a number below 16. -/
def hexChar (n : Nat) : Char := Char.ofNat (if n < 10 then 48 + n else 87 + n)

/-- The last `k` hexadecimal digits of `n`. -/
def hexDigits : Nat → Nat → List Char
  | 0, _ => []
  | k + 1, n => hexDigits k (n / 16) ++ [hexChar (n % 16)]

/-- The value of a hexadecimal digit in lower or upper case. -/
def hexValue (c : Char) : Option Nat :=
  let n := c.toNat
  if 48 ≤ n ∧ n ≤ 57 then some (n - 48)
  else if 97 ≤ n ∧ n ≤ 102 then some (n - 87)
  else if 65 ≤ n ∧ n ≤ 70 then some (n - 55)
  else none

/-- The number with the given hexadecimal digits. -/
def hexNumber (cs : List Char) : Option Nat :=
  cs.foldl (fun acc c => do
    let n ← acc
    let d ← hexValue c
    pure (n * 16 + d)) (some 0)

/-- The groups of 8, 4, 4, 4 and 12 digits. -/
def hyphenate (ds : List Char) : List Char :=
  ds.take 8 ++ '-' :: ((ds.drop 8).take 4 ++ '-' :: ((ds.drop 12).take 4 ++ '-' ::
    ((ds.drop 16).take 4 ++ '-' :: ds.drop 20)))

/-- The digits of the hyphenated form, which has 36 characters. -/
def unhyphenate (cs : List Char) : Option (List Char) :=
  if cs.length = 36 ∧ cs[8]? = some '-' ∧ cs[13]? = some '-' ∧ cs[18]? = some '-' ∧ cs[23]? = some '-' then
    some (cs.take 8 ++ ((cs.drop 9).take 4 ++ ((cs.drop 14).take 4 ++ ((cs.drop 19).take 4 ++ cs.drop 24))))
  else none

/-- `Serialize for Uuid` in a human-readable format. -/
def uuidToJson (n : Nat) : Json := .string (String.ofList (hyphenate (hexDigits 32 n)))

/-- `Uuid::try_parse`. -/
def uuidOfChars (cs : List Char) : Option Nat :=
  if cs.length = 32 then hexNumber cs
  else if cs.length = 36 then (unhyphenate cs).bind hexNumber
  else if cs.length = 38 ∧ cs[0]? = some '{' ∧ cs[37]? = some '}' then
    (unhyphenate ((cs.drop 1).take 36)).bind hexNumber
  else if cs.length = 45 ∧ cs.take 9 = "urn:uuid:".toList then (unhyphenate (cs.drop 9)).bind hexNumber
  else none

/-- `Deserialize for Uuid` in a human-readable format. -/
def uuidOfJson : Json → Out Nat
  | .string s => orErr (uuidOfChars s.toList)
  | _ => .error .err

/-! ## Structs -/

/-- The fields of a struct with the given names, as `serde_json` finds them in an object or an array. -/
def jsonFields (names : List String) : Json → Out (List Json)
  | .object entries => names.mapM fun n => orErr (entries.lookup n)
  | .array xs => if xs.length = names.length then .ok xs else .error .err
  | _ => .error .err

/-- `u64` and (on a 64-bit target) `usize`. -/
def natOfJson (v : Json) : Out Nat := orErr v.asU64

/-- `String`, and `Cow<'static, str>`. -/
def textOfJson : Json → Out String
  | .string s => .ok s
  | _ => .error .err

/-! ## `PointAttributeDataType`, point_layout.rs:46-91 -/

/-- `Serialize for PointAttributeDataType`, derived at point_layout.rs:45. -/
def dataTypeToJson : DataType → Json
  | .u8 => .string "U8" | .i8 => .string "I8" | .u16 => .string "U16" | .i16 => .string "I16"
  | .u32 => .string "U32" | .i32 => .string "I32" | .u64 => .string "U64" | .i64 => .string "I64"
  | .f32 => .string "F32" | .f64 => .string "F64"
  | .vec3u8 => .string "Vec3u8" | .vec3u16 => .string "Vec3u16" | .vec3f32 => .string "Vec3f32"
  | .vec3i32 => .string "Vec3i32" | .vec3f64 => .string "Vec3f64" | .vec4u8 => .string "Vec4u8"
  | .byteArray n => .object [("ByteArray", .int n)]
  | .custom size align uuid =>
    .object [("Custom", .object [("size", .int size), ("min_alignment", .int align), ("name", uuidToJson uuid)])]

/-- The variants without fields, by name. -/
def unitVariant : String → Option DataType
  | "U8" => some .u8 | "I8" => some .i8 | "U16" => some .u16 | "I16" => some .i16
  | "U32" => some .u32 | "I32" => some .i32 | "U64" => some .u64 | "I64" => some .i64
  | "F32" => some .f32 | "F64" => some .f64
  | "Vec3u8" => some .vec3u8 | "Vec3u16" => some .vec3u16 | "Vec3f32" => some .vec3f32
  | "Vec3i32" => some .vec3i32 | "Vec3f64" => some .vec3f64 | "Vec4u8" => some .vec4u8
  | _ => none

/-- The content of a `Custom` variant: an object only. -/
def customOfJson (v : Json) : Out DataType :=
  match v with
  | .object entries => do
    let size ← orErr (entries.lookup "size")
    let size ← natOfJson size
    let align ← orErr (entries.lookup "min_alignment")
    let align ← natOfJson align
    let name ← orErr (entries.lookup "name")
    let name ← uuidOfJson name
    pure (.custom size align name)
  | _ => .error .err

/-- `Deserialize for PointAttributeDataType`, derived at point_layout.rs:45. -/
def dataTypeOfJson : Json → Out DataType
  | .string s => orErr (unitVariant s)
  | .object [(k, v)] =>
    if k = "ByteArray" then do
      let n ← natOfJson v
      pure (.byteArray n)
    else if k = "Custom" then customOfJson v
    else do
      let t ← orErr (unitVariant k)
      match v with
      | .null => pure t
      | _ => .error .err
  | _ => .error .err

/-! ## Definitions, members and layouts -/

/-- `Serialize for PointAttributeDefinition`, derived at point_layout.rs:283. -/
def definitionToJson (d : AttrDef) : Json :=
  .object [("name", .string d.name), ("datatype", dataTypeToJson d.datatype)]

/-- `Deserialize for PointAttributeDefinition`, derived at point_layout.rs:283. -/
def definitionOfJson (v : Json) : Out AttrDef := do
  match ← jsonFields ["name", "datatype"] v with
  | [name, datatype] =>
    let name ← textOfJson name
    let datatype ← dataTypeOfJson datatype
    pure ⟨name, datatype⟩
  | _ => .error .err

/-- `PointAttributeMember` with all its fields, point_layout.rs:376-381. `Member` leaves out `size`, which is that of
    the datatype in every member made by a constructor, but not in one that was deserialised. -/
structure StoredMember where
  definition : AttrDef
  offset : Nat
  size : Nat
  deriving DecidableEq, Repr

/-- `PointLayout` with members like that, point_layout.rs:671-676. -/
structure StoredLayout where
  members : List StoredMember
  size : Nat
  align : Nat
  deriving DecidableEq, Repr

/-- A member made by a constructor (`custom` 398-410, `at_offset_in_type` 357-363). -/
def StoredMember.ofMember (m : Member) : StoredMember := ⟨m.definition, m.offset, m.definition.size⟩

/-- A layout made by a constructor. -/
def StoredLayout.ofLayout (l : PointLayout) : StoredLayout :=
  ⟨l.attributes.map StoredMember.ofMember, l.size, l.align⟩

/-- `Serialize for PointAttributeMember`, derived at point_layout.rs:375. -/
def memberToJson (m : StoredMember) : Json :=
  .object [("attribute_definition", definitionToJson m.definition), ("offset", .int m.offset), ("size", .int m.size)]

/-- `Deserialize for PointAttributeMember`, derived at point_layout.rs:375. -/
def memberOfJson (v : Json) : Out StoredMember := do
  match ← jsonFields ["attribute_definition", "offset", "size"] v with
  | [definition, offset, size] =>
    let definition ← definitionOfJson definition
    let offset ← natOfJson offset
    let size ← natOfJson size
    pure ⟨definition, offset, size⟩
  | _ => .error .err

/-- `serde_layout::serialize`, point_layout.rs:1130-1139. -/
def memoryToJson (size align : Nat) : Json := .object [("size", .int size), ("align", .int align)]

/-- `serde_layout::deserialize`, point_layout.rs:1141-1147. -/
def memoryOfJson (v : Json) : Out (Nat × Nat) := do
  match ← jsonFields ["size", "align"] v with
  | [size, align] =>
    let size ← natOfJson size
    let align ← natOfJson align
    match memoryLayout size align with
    | .ok x => pure x
    | .error _ => .error .err
  | _ => .error .err

/-- `Serialize for PointLayout`, derived at point_layout.rs:670. -/
def layoutToJson (l : StoredLayout) : Json :=
  .object [("attributes", .array (l.members.map memberToJson)), ("memory_layout", memoryToJson l.size l.align)]

/-- The elements of a `Vec<PointAttributeMember>`. -/
def membersOfJson : Json → Out (List StoredMember)
  | .array xs => xs.mapM memberOfJson
  | _ => .error .err

/-- `Deserialize for PointLayout`, derived at point_layout.rs:670. -/
def layoutOfJson (v : Json) : Out StoredLayout := do
  match ← jsonFields ["attributes", "memory_layout"] v with
  | [attributes, memory] =>
    let members ← membersOfJson attributes
    let (size, align) ← memoryOfJson memory
    pure ⟨members, size, align⟩
  | _ => .error .err

/-! ## `AABB<f64>`, bounds.rs:7-12 -/

/-- A `Point3<f64>`. -/
def pointToJson (p : P3 F64) : Json := .array [.ofF64 p.x, .ofF64 p.y, .ofF64 p.z]

/-- A `Point3<f64>`. -/
def pointOfJson : Json → Out (P3 F64)
  | .array [x, y, z] => do
    let x ← orErr x.asF64
    let y ← orErr y.asF64
    let z ← orErr z.asF64
    pure ⟨x, y, z⟩
  | _ => .error .err

/-- `Serialize for AABB<f64>`, derived at bounds.rs:8. -/
def boundsToJson (b : AABB F64) : Json := .object [("min", pointToJson b.min), ("max", pointToJson b.max)]

/-- `Deserialize for AABB<f64>`, derived at bounds.rs:8: no check that the minimum is not above the maximum. -/
def boundsOfJson (v : Json) : Out (AABB F64) := do
  match ← jsonFields ["min", "max"] v with
  | [mn, mx] =>
    let mn ← pointOfJson mn
    let mx ← pointOfJson mx
    pure ⟨mn, mx⟩
  | _ => .error .err

end Pasture.Serde
