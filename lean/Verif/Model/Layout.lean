import Verif.Model.Basic
import Mathlib.Data.List.Sort

/-!
# Model of `pasture-core/src/layout/point_layout.rs`

and of `pasture-core/src/math/arithmetic.rs` (`Alignable`).
Sizes and offsets (`u64`) are natural numbers: overflow of `u64` additions is not
modelled, but the `isize::MAX` check of `std::alloc::Layout` is.
-/

namespace Pasture

/-- `Alignable::align_to`, pasture-core/src/math/arithmetic.rs:12-58
    (the same body for u8, u16, u32, u64, usize). -/
def alignTo (x a : Nat) : Nat :=
  if a = 0 then x else ((x + a - 1) / a) * a

/-- `PointAttributeDataType`, point_layout.rs:46-91. The `Uuid` of `Custom` is a number. -/
inductive DataType where
  | u8 | i8 | u16 | i16 | u32 | i32 | u64 | i64 | f32 | f64
  | vec3u8 | vec3u16 | vec3f32 | vec3i32 | vec3f64 | vec4u8
  | byteArray (length : Nat)
  | custom (size minAlignment uuid : Nat)
  deriving DecidableEq, Repr

namespace DataType

/-- `PointAttributeDataType::size`, point_layout.rs:95-120. -/
def size : DataType → Nat
  | u8 => 1 | i8 => 1 | u16 => 2 | i16 => 2 | u32 => 4 | i32 => 4 | u64 => 8 | i64 => 8
  | f32 => 4 | f64 => 8
  | vec3u8 => 3 | vec3u16 => 6 | vec3i32 => 12 | vec3f32 => 12 | vec3f64 => 24 | vec4u8 => 4
  | byteArray n => n
  | custom s _ _ => s

/-- `PointAttributeDataType::min_alignment`, point_layout.rs:123-149, with the values of
    `align_of` on a 64-bit target; nalgebra vectors have the alignment of their component. -/
def minAlignment : DataType → Nat
  | u8 => 1 | i8 => 1 | u16 => 2 | i16 => 2 | u32 => 4 | i32 => 4 | u64 => 8 | i64 => 8
  | f32 => 4 | f64 => 8
  | vec3u8 => 1 | vec3u16 => 2 | vec3i32 => 4 | vec3f32 => 4 | vec3f64 => 8 | vec4u8 => 1
  | byteArray _ => 1
  | custom _ a _ => a

end DataType

/-- `PointAttributeDefinition`, point_layout.rs:284-363. -/
structure AttrDef where
  name : String
  datatype : DataType
  deriving DecidableEq, Repr

/-- `PointAttributeDefinition::size`, point_layout.rs:330-333. -/
def AttrDef.size (d : AttrDef) : Nat := d.datatype.size

/-- `PointAttributeDefinition::with_custom_datatype`, point_layout.rs:340-345. -/
def AttrDef.withDatatype (d : AttrDef) (t : DataType) : AttrDef := { d with datatype := t }

/-- `PointAttributeMember`, point_layout.rs:376-453. The stored `size` field is omitted: both
    constructors (`custom` 398-410, `at_offset_in_type` 357-363) set it to `datatype.size()`
    and nothing changes it afterwards. -/
structure Member where
  definition : AttrDef
  offset : Nat
  deriving DecidableEq, Repr

namespace Member
/-- `PointAttributeMember::name`, point_layout.rs:413. -/
def name (m : Member) : String := m.definition.name
/-- `PointAttributeMember::datatype`, point_layout.rs:423. -/
def datatype (m : Member) : DataType := m.definition.datatype
/-- `PointAttributeMember::size`, point_layout.rs:443. -/
def size (m : Member) : Nat := m.definition.size
/-- End of `byte_range_within_point`, point_layout.rs:449-453. -/
def stop (m : Member) : Nat := m.offset + m.size
end Member

/-- `PointLayout`, point_layout.rs:671-675. `memory_layout` is split into `size` and `align`. -/
structure PointLayout where
  attributes : List Member
  size : Nat
  align : Nat
  deriving DecidableEq, Repr

/-- `FieldAlignment`, point_layout.rs:624-632. -/
inductive FieldAlignment where
  | default
  | packed (maxAlignment : Nat)
  deriving DecidableEq, Repr

/-- `usize::is_power_of_two`. -/
def isPow2 (a : Nat) : Bool := decide (2 ^ a.log2 = a)

/-- `std::alloc::Layout::from_size_align(size, align).expect(..)`: panics when `align` is not a
    power of two or when `size` rounded up to `align` exceeds `isize::MAX`. -/
def memoryLayout (size align : Nat) : Out (Nat × Nat) :=
  if isPow2 align ∧ size + align ≤ 2 ^ 63 then .ok (size, align) else panicked

namespace PointLayout

/-- `impl Default for PointLayout`, point_layout.rs:1040-1047. -/
def default : PointLayout := ⟨[], 0, 1⟩

/-- `get_attribute_by_name`, point_layout.rs:910-914. -/
def getAttributeByName (l : PointLayout) (n : String) : Option Member :=
  l.attributes.find? (fun a => a.name = n)

/-- The predicate shared by `has_attribute`, `get_attribute`, `index_of`, `offset_of`. -/
def matchesDef (d : AttrDef) (m : Member) : Bool :=
  m.name = d.name ∧ m.datatype = d.datatype

/-- `has_attribute_with_name`, point_layout.rs:854-858. -/
def hasAttributeWithName (l : PointLayout) (n : String) : Bool :=
  l.attributes.any (fun a => a.name = n)

/-- `has_attribute`, point_layout.rs:873-878. -/
def hasAttribute (l : PointLayout) (d : AttrDef) : Bool := l.attributes.any (matchesDef d)

/-- `get_attribute`, point_layout.rs:891-899. -/
def getAttribute (l : PointLayout) (d : AttrDef) : Option Member :=
  l.attributes.find? (matchesDef d)

/-- `at`, point_layout.rs:921-923; panics when out of bounds. -/
def at? (l : PointLayout) (i : Nat) : Out Member := expectSome l.attributes[i]?

/-- `index_of`, point_layout.rs:974-979. -/
def indexOf (l : PointLayout) (d : AttrDef) : Option Nat :=
  l.attributes.findIdx? (matchesDef d)

/-- `offset_of`, point_layout.rs:998-1006. -/
def offsetOf (l : PointLayout) (d : AttrDef) : Option Nat :=
  (l.attributes.find? (matchesDef d)).map Member.offset

/-- `compare_without_offsets`, point_layout.rs:983-994. -/
def compareWithoutOffsets (l o : PointLayout) : Bool :=
  if l.attributes.length ≠ o.attributes.length then false
  else l.attributes.all fun a =>
    match (o.getAttributeByName a.name).map (fun b => decide (b.datatype = a.datatype)) with
    | some b => b
    | none => false

/-- `packed_offset_of_next_field`, point_layout.rs:1010-1019. -/
def packedOffsetOfNextField (l : PointLayout) : Nat :=
  match l.attributes.getLast? with
  | none => 0
  | some m => m.offset + m.size

/-- Alignment of the new field in `add_attribute`, point_layout.rs:813-818. -/
def fieldAlign (d : AttrDef) : FieldAlignment → Nat
  | .default => d.datatype.minAlignment
  | .packed m => min m d.datatype.minAlignment

/-- `new_max_alignment` in `add_attribute`, point_layout.rs:823-832. -/
def newAlign (l : PointLayout) (d : AttrDef) : FieldAlignment → Nat
  | .default => max l.align d.datatype.minAlignment
  | .packed m => min m l.align

/-- `add_attribute`, point_layout.rs:801-845. -/
def addAttribute (l : PointLayout) (d : AttrDef) (fa : FieldAlignment) : Out PointLayout :=
  if (l.getAttributeByName d.name).isSome then panicked
  else
    let offset := alignTo l.packedOffsetOfNextField (fieldAlign d fa)
    let newSize := alignTo (max l.size (offset + d.size)) (l.newAlign d fa)
    match memoryLayout newSize (l.newAlign d fa) with
    | .error e => .error e
    | .ok (s, a) => .ok ⟨l.attributes ++ [⟨d, offset⟩], s, a⟩

/-- `from_attributes` / `FromIterator`, point_layout.rs:692-694, 1049-1057. -/
def fromAttributes (ds : List AttrDef) : Out PointLayout :=
  forLoop ds default fun l d => l.addAttribute d .default

/-- `from_attributes_packed`, point_layout.rs:716-725. -/
def fromAttributesPacked (ds : List AttrDef) (maxAlignment : Nat) : Out PointLayout :=
  forLoop ds default fun l d => l.addAttribute d (.packed maxAlignment)

/-- The neighbour check of `from_members_and_alignment`, point_layout.rs:755-762. -/
def neighboursDisjoint : List Rng → Bool
  | a :: b :: rest => decide (a.stop ≤ b.start) && neighboursDisjoint (b :: rest)
  | _ => true

/-- `Iterator::max_by` on the offsets: of several maximal elements the last one is returned. -/
def maxByOffset : List Member → Option Member
  | [] => none
  | m :: ms => some (ms.foldl (fun best x => if best.offset ≤ x.offset then x else best) m)

/-- `unaligned_ranges` sorted by start, point_layout.rs:753-757. `Vec::sort_by` is a stable sort;
    the model uses insertion sort, which is stable too and hence gives the same list. -/
def sortedRanges (ms : List Member) : List Rng :=
  (ms.map fun m => (⟨m.offset, m.offset + m.size⟩ : Rng)).insertionSort
    (fun a b => a.start ≤ b.start)

/-- `unaligned_size`, point_layout.rs:766-770. -/
def unalignedSize (ms : List Member) : Nat :=
  match maxByOffset ms with
  | some m => m.offset + m.size
  | none => 0

/-- `from_members_and_alignment`, point_layout.rs:742-782.
    The `unique().count()` test is `List.Nodup` on the names. -/
def fromMembersAndAlignment (ms : List Member) (typeAlign : Nat) : Out PointLayout :=
  if ¬ (ms.map Member.name).Nodup then panicked
  else if ¬ neighboursDisjoint (sortedRanges ms) then panicked
  else
    match memoryLayout (alignTo (unalignedSize ms) typeAlign) typeAlign with
    | .error e => .error e
    | .ok (s, a) => .ok ⟨ms, s, a⟩

end PointLayout
end Pasture
