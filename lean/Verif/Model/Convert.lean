import Verif.Model.Numbers
import Verif.Model.Layout

/-!
# Model of `pasture-core/src/layout/conversion/attribute_conversion.rs`
-/

namespace Pasture

/-- A conversion function: `convert_unit`, `convert_scalar_using_as::<From, To>` or
    `convert_vec3_using_as::<From, To>`. -/
inductive Converter where
  | unit
  | scalar (source target : Prim)
  | vec3 (source target : Prim)
  deriving DecidableEq, Repr

namespace Converter

/-- Bytes `i * k .. (i + 1) * k`. -/
def component (k i : Nat) (b : Bytes) : Bytes := (b.drop (i * k)).take k

/-- Apply a conversion function to a source slice and the current contents of the target slice. The
    raw pointers of `convert_scalar_using_as` (attribute_conversion.rs:310-321) and
    `convert_vec3_using_as` (332-343) must not reach past the slices, and they write only the bytes of
    one value; `convert_unit` is 297-299. -/
def run (c : Converter) (source target : Bytes) : Out Bytes :=
  match c with
  | unit => copyFromSlice target source
  | scalar p q =>
    if p.size ≤ source.length ∧ q.size ≤ target.length then
      .ok (put target 0 (writeNum q (asNum q (readNum p (source.take p.size)))))
    else .error .ub
  | vec3 p q =>
    if 3 * p.size ≤ source.length ∧ 3 * q.size ≤ target.length then
      let f := fun i => writeNum q (asNum q (readNum p (component p.size i source)))
      .ok (put target 0 (f 0 ++ f 1 ++ f 2))
    else .error .ub

end Converter

/-- The datatype of a scalar attribute, `PrimitiveType::data_type` for the numeric types. -/
def Prim.dataType : Prim → DataType
  | u8 => .u8 | i8 => .i8 | u16 => .u16 | i16 => .i16 | u32 => .u32 | i32 => .i32
  | u64 => .u64 | i64 => .i64 | f32 => .f32 | f64 => .f64

/-- The arguments of `insert_scalar_converter_using_as!`, attribute_conversion.rs:194-246, in order. -/
def scalarPairs : List (Prim × DataType × Prim × DataType) :=
  [(.u8, .u8, .u16, .u16), (.u8, .u8, .u32, .u32), (.u8, .u8, .u64, .u64), (.u8, .u8, .i8, .i8),
   (.u8, .u8, .i16, .i16), (.u8, .u8, .i32, .i32), (.u8, .u8, .i64, .i64), (.u8, .u8, .f32, .f32),
   (.u8, .u8, .f64, .f64),
   (.u16, .u16, .u32, .u32), (.u16, .u16, .u64, .u64), (.u16, .u16, .i8, .i8), (.u16, .u16, .i16, .i16),
   (.u16, .u16, .i32, .i32), (.u16, .u16, .i64, .i64), (.u16, .u16, .f32, .f32), (.u16, .u16, .f64, .f64),
   (.u32, .u32, .u64, .u64), (.u32, .u32, .i8, .i8), (.u32, .u32, .i16, .i16), (.u32, .u32, .i32, .i32),
   (.u32, .u32, .i64, .i64), (.u32, .u32, .f32, .f32), (.u32, .u32, .f64, .f64),
   (.u64, .u64, .i8, .i8), (.u64, .u64, .i16, .i16), (.u64, .u64, .i32, .i32), (.u64, .u64, .i64, .i64),
   (.u64, .u64, .f32, .f32), (.u64, .u64, .f64, .f64),
   (.i8, .i8, .i16, .i16), (.i8, .i8, .i32, .i32), (.i8, .i8, .i64, .i64), (.i8, .i8, .f32, .f32),
   (.i8, .i8, .f64, .f64),
   (.i16, .i16, .i32, .i32), (.i16, .i16, .i64, .i64), (.i16, .i16, .f32, .f32), (.i16, .i16, .f64, .f64),
   (.i32, .i32, .i64, .i64), (.i32, .i32, .f32, .f32), (.i32, .i32, .f64, .f64),
   (.i64, .i64, .f32, .f32), (.i64, .i64, .f64, .f64),
   (.f32, .f32, .f64, .f64)]

/-- The arguments of `insert_vec3_converter_using_as!`, attribute_conversion.rs:248-260, in order. -/
def vec3Pairs : List (Prim × DataType × Prim × DataType) :=
  [(.f32, .vec3f32, .f64, .vec3f64),
   (.u8, .vec3u8, .u16, .vec3u16), (.u8, .vec3u8, .i32, .vec3i32), (.u8, .vec3u8, .f32, .vec3f32),
   (.u8, .vec3u8, .f64, .vec3f64),
   (.u16, .vec3u16, .i32, .vec3i32), (.u16, .vec3u16, .f32, .vec3f32), (.u16, .vec3u16, .f64, .vec3f64),
   (.i32, .vec3i32, .f32, .vec3f32), (.i32, .vec3i32, .f64, .vec3f64)]

/-- `GENERIC_CONVERTERS`, attribute_conversion.rs:188-264; each macro call (134-180) inserts both
    directions. -/
def genericConverters : List ((DataType × DataType) × Converter) :=
  scalarPairs.flatMap (fun (p, a, q, b) => [((a, b), .scalar p q), ((b, a), .scalar q p)]) ++
  vec3Pairs.flatMap (fun (p, a, q, b) => [((a, b), .vec3 p q), ((b, a), .vec3 q p)])

/-- `get_generic_converter`, attribute_conversion.rs:184-271. It returns `Some` or panics. -/
def getGenericConverter (source target : DataType) : Out (Option Converter) := do
  let f ← expectSome (genericConverters.lookup (source, target))
  pure (some f)

/-- `get_converter_for_attributes`, attribute_conversion.rs:122-132. -/
def getConverterForAttributes (source target : AttrDef) : Out (Option Converter) := do
  assertThat (source.name = target.name)
  if source.datatype = target.datatype then pure none
  else getGenericConverter source.datatype target.datatype

/-- `RawAttributeConverter`, attribute_conversion.rs:25-51. -/
structure RawAttributeConverter where
  converter : Converter
  source : Rng
  target : Rng
  deriving DecidableEq, Repr

/-- `RawAttributeConverter::convert`, attribute_conversion.rs:54-59: the converter runs on a part of
    each of the two points. -/
def RawAttributeConverter.convert (c : RawAttributeConverter) (source target : Bytes) : Out Bytes := do
  let s ← sliceGet source c.source.start c.source.stop
  let t ← sliceGet target c.target.start c.target.stop
  let t ← c.converter.run s t
  slicePut target c.target.start c.target.stop t

/-- The closure of `RawPointConverter::from_to`, attribute_conversion.rs:73-90. -/
def rawConverterFor (target : PointLayout) (m : Member) : Out (Option RawAttributeConverter) := do
  if target.hasAttributeWithName m.name then
    let t ← expectSome (target.getAttributeByName m.name)
    let c ← getConverterForAttributes m.definition t.definition
    pure (c.map fun c => ⟨c, ⟨m.offset, m.offset + m.size⟩, ⟨t.offset, t.offset + t.size⟩⟩)
  else pure none

/-- `RawPointConverter::from_to`, attribute_conversion.rs:69-96. -/
def rawPointConverter (source target : PointLayout) : Out (List RawAttributeConverter) := do
  let cs ← source.attributes.mapM (rawConverterFor target)
  pure (cs.filterMap id)

/-- `RawPointConverter::convert`, attribute_conversion.rs:104-108. -/
def rawPointConvert (cs : List RawAttributeConverter) (source target : Bytes) : Out Bytes :=
  forLoop cs target fun target c => c.convert source target

end Pasture
