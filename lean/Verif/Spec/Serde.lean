import Verif.Model.Serde

/-!
# Specification: which JSON documents describe a layout or a bounding box

Independent of the code: what a reader of the format knows about structs and enums in `serde_json`, about UUIDs
(RFC 4122) and about `std::alloc::Layout`.
-/

namespace Pasture.Spec

open Tiles3d Serde

/-- `c` is the hexadecimal digit of value `v`. -/
def IsHexDigit (c : Char) (v : Nat) : Prop :=
  "0123456789abcdef".toList[v]? = some c ∨ "0123456789ABCDEF".toList[v]? = some c

/-- `n` is written with the hexadecimal digits `ds`, the most significant one first. -/
def HexOf (ds : List Char) (n : Nat) : Prop :=
  ∃ vs : List Nat, List.Forall₂ IsHexDigit ds vs ∧ n = vs.foldl (fun n v => 16 * n + v) 0

/-- `s` is the hyphenated form of the 32 digits `ds`. -/
def Hyphenated (s ds : List Char) : Prop :=
  ∃ a b c d e : List Char, a.length = 8 ∧ b.length = 4 ∧ c.length = 4 ∧ d.length = 4 ∧ e.length = 12 ∧
    ds = a ++ b ++ c ++ d ++ e ∧ s = a ++ ['-'] ++ b ++ ['-'] ++ c ++ ['-'] ++ d ++ ['-'] ++ e

/-- `s` is one of the four ways to write the UUID `n`. -/
def IsUuidText (s : List Char) (n : Nat) : Prop :=
  ∃ ds h, HexOf ds n ∧ ds.length = 32 ∧ Hyphenated h ds ∧
    (s = ds ∨ s = h ∨ s = ['{'] ++ h ++ ['}'] ∨ s = "urn:uuid:".toList ++ h)

/-- `v` is a struct with the given fields: an object that has them (and perhaps others), or the array of their
    values. -/
def IsStruct (v : Json) (fields : List (String × Json)) : Prop :=
  (∃ entries : List (String × Json), v = .object entries ∧ ∀ f ∈ fields, entries.lookup f.1 = some f.2) ∨
    v = .array (fields.map Prod.snd)

/-- The names of the data types without parameters. -/
def typeNames : List (String × DataType) :=
  [("U8", .u8), ("I8", .i8), ("U16", .u16), ("I16", .i16), ("U32", .u32), ("I32", .i32), ("U64", .u64), ("I64", .i64),
   ("F32", .f32), ("F64", .f64), ("Vec3u8", .vec3u8), ("Vec3u16", .vec3u16), ("Vec3f32", .vec3f32),
   ("Vec3i32", .vec3i32), ("Vec3f64", .vec3f64), ("Vec4u8", .vec4u8)]

/-- `v` describes the data type `t`. -/
def DescribesType (v : Json) (t : DataType) : Prop :=
  (∃ name, (name, t) ∈ typeNames ∧ (v = .string name ∨ v = .object [(name, .null)])) ∨
  (∃ n : Nat, v = .object [("ByteArray", .int n)] ∧ t = .byteArray n) ∨
  (∃ (size align uuid : Nat) (entries : List (String × Json)) (s : String),
    v = .object [("Custom", .object entries)] ∧ entries.lookup "size" = some (.int size) ∧
    entries.lookup "min_alignment" = some (.int align) ∧ entries.lookup "name" = some (.string s) ∧
    IsUuidText s.toList uuid ∧ t = .custom size align uuid)

/-- `v` describes the attribute `d`. -/
def DescribesDefinition (v : Json) (d : AttrDef) : Prop :=
  ∃ t, IsStruct v [("name", .string d.name), ("datatype", t)] ∧ DescribesType t d.datatype

/-- `v` describes the attribute `m` of a layout. -/
def DescribesMember (v : Json) (m : StoredMember) : Prop :=
  ∃ d, IsStruct v [("attribute_definition", d), ("offset", .int m.offset), ("size", .int m.size)] ∧
    DescribesDefinition d m.definition

/-- What `std::alloc::Layout` promises: the alignment is a power of two, and the size, rounded up to it, is at most
    `isize::MAX`. -/
def IsAllocLayout (size align : Nat) : Prop := (∃ k, align = 2 ^ k) ∧ size + align ≤ 2 ^ 63

/-- `v` describes the layout `l`. -/
def DescribesLayout (v : Json) (l : StoredLayout) : Prop :=
  ∃ (attributes : List Json) (memory : Json),
    IsStruct v [("attributes", .array attributes), ("memory_layout", memory)] ∧
    List.Forall₂ DescribesMember attributes l.members ∧
    IsStruct memory [("size", .int l.size), ("align", .int l.align)] ∧ IsAllocLayout l.size l.align

/-- A UUID has 128 bits. -/
def HasUuid : DataType → Prop
  | .custom _ _ uuid => uuid < 2 ^ 128
  | _ => True

/-- A value of type `PointLayout`: 128 bits in every UUID, and a memory layout that exists. -/
def IsStoredLayout (l : StoredLayout) : Prop :=
  (∀ m ∈ l.members, HasUuid m.definition.datatype) ∧ IsAllocLayout l.size l.align

/-- What `from_attributes` and `from_members_and_alignment` guarantee: different names, no two attributes share a byte,
    all attributes lie within the point, and each has the size of its data type. -/
structure IsLayout (l : StoredLayout) : Prop where
  names : (l.members.map fun m => m.definition.name).Nodup
  disjoint : l.members.Pairwise fun a b => a.offset + a.size ≤ b.offset ∨ b.offset + b.size ≤ a.offset
  inside : ∀ m ∈ l.members, m.offset + m.size ≤ l.size
  sizes : ∀ m ∈ l.members, m.size = m.definition.datatype.size

/-- `v` is a number and `x` its value as `f64`. -/
def IsNumber (v : Json) (x : F64) : Prop := v = .float x ∨ ∃ z : Int, v = .int z ∧ x = Flt.ofInt .f64 z

/-- `v` describes the point `p`. -/
def DescribesPoint (v : Json) (p : P3 F64) : Prop :=
  ∃ x y z, v = .array [x, y, z] ∧ IsNumber x p.x ∧ IsNumber y p.y ∧ IsNumber z p.z

/-- `v` describes the bounding box `b`. -/
def DescribesBounds (v : Json) (b : AABB F64) : Prop :=
  ∃ mn mx, IsStruct v [("min", mn), ("max", mx)] ∧ DescribesPoint mn b.min ∧ DescribesPoint mx b.max

/-- The coordinates of a bounding box. -/
def coordinates (b : AABB F64) : List F64 := [b.min.x, b.min.y, b.min.z, b.max.x, b.max.y, b.max.z]

end Pasture.Spec
