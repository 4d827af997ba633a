import Verif.Model.Layout

/-!
# Model of `pasture-derive` (the `#[derive(PointType)]` macro)

The input is the list of `repr` arguments and the list of (attribute name, primitive type) of the
fields; how both come from the syntax tree of the struct is in `Model/DeriveSyntax.lean`.
-/

namespace Pasture.Derive

/-- `PasturePrimitiveType`, pasture-derive/src/lib.rs:17-33. -/
inductive PrimType where
  | u8 | i8 | u16 | i16 | u32 | i32 | u64 | i64 | f32 | f64
  | vec3u8 | vec3u16 | vec3f32 | vec3f64 | vec3i32 | vec4u8
  deriving DecidableEq, Repr

namespace PrimType

/-- `PasturePrimitiveType::min_alignment`, pasture-derive/src/lib.rs:36-55. -/
def minAlignment : PrimType → Nat
  | u8 => 1 | i8 => 1 | u16 => 2 | i16 => 2 | u32 => 4 | i32 => 4 | u64 => 8 | i64 => 8
  | f32 => 4 | f64 => 8
  | vec3u8 => 1 | vec3u16 => 2 | vec3f32 => 4 | vec3f64 => 8 | vec3i32 => 4 | vec4u8 => 1

/-- `PasturePrimitiveType::size`, pasture-derive/src/lib.rs:57-76. -/
def size : PrimType → Nat
  | u8 => 1 | i8 => 1 | u16 => 2 | i16 => 2 | u32 => 4 | i32 => 4 | u64 => 8 | i64 => 8
  | f32 => 4 | f64 => 8
  | vec3u8 => 3 | vec3u16 => 6 | vec3f32 => 12 | vec3f64 => 24 | vec3i32 => 12 | vec4u8 => 4

/-- `PasturePrimitiveType::as_token_stream`, pasture-derive/src/lib.rs:78-108: the core datatype
    the generated code names. -/
def toDataType : PrimType → DataType
  | u8 => .u8 | i8 => .i8 | u16 => .u16 | i16 => .i16 | u32 => .u32 | i32 => .i32
  | u64 => .u64 | i64 => .i64 | f32 => .f32 | f64 => .f64
  | vec3u8 => .vec3u8 | vec3u16 => .vec3u16 | vec3f32 => .vec3f32 | vec3f64 => .vec3f64
  | vec3i32 => .vec3i32 | vec4u8 => .vec4u8

end PrimType

/-- Arguments of a `#[repr(..)]` attribute. -/
inductive ReprArg where
  | c
  | packed
  | packedN (n : Nat)
  | align (n : Nat)
  | other
  deriving DecidableEq, Repr

/-- `StructMemberLayout`, pasture-derive/src/layout.rs:5-8. -/
inductive StructMemberLayout where
  | c
  | packed (n : Nat)
  deriving DecidableEq, Repr

/-- `arg_is_packed` + `get_packing_from_arg`, pasture-derive/src/layout.rs:22-95. -/
def packingOf : ReprArg → Option Nat
  | .packed => some 1
  | .packedN n => some n
  | _ => none

/-- `get_struct_member_layout`, pasture-derive/src/layout.rs:97-144, for a struct whose
    `#[repr(..)]` attributes have the given argument lists: only the first attribute is looked at
    (`find`, line 102). `Err` is a compile error. -/
def structMemberLayout : List (List ReprArg) → Out StructMemberLayout
  | [] => .error .err
  | args :: _ =>
    match args.findSome? packingOf with
    | some n => .ok (.packed n)
    | none => if args.contains .c then .ok .c else .error .err

/-- `FieldLayoutDescription`, pasture-derive/src/lib.rs:306-309. -/
structure FieldDesc where
  attributeName : String
  primitiveType : PrimType
  deriving DecidableEq, Repr

/-- `min_alignment` of a field in `calculate_offsets_and_alignment`, lib.rs:367-372. -/
def fieldAlignment (sl : StructMemberLayout) (t : PrimType) : Nat :=
  match sl with
  | .c => t.minAlignment
  | .packed n => min n t.minAlignment

/-- The loop of `calculate_offsets_and_alignment`, pasture-derive/src/lib.rs:363-378
    (state: offsets, current_offset, max_alignment). -/
def offsetsLoop (sl : StructMemberLayout) :
    List FieldDesc → List Nat → Nat → Nat → List Nat × Nat
  | [], offs, _, maxA => (offs, maxA)
  | f :: fs, offs, cur, maxA =>
    let a := fieldAlignment sl f.primitiveType
    let aligned := ((cur + a - 1) / a) * a
    offsetsLoop sl fs (offs ++ [aligned]) (aligned + f.primitiveType.size) (max a maxA)

/-- `calculate_offsets_and_alignment`, pasture-derive/src/lib.rs:346-381. -/
def calculateOffsetsAndAlignment (sl : StructMemberLayout) (fs : List FieldDesc) :
    List Nat × Nat :=
  offsetsLoop sl fs [] 0 1

/-- The generated `PointType::layout()`, pasture-derive/src/lib.rs:454-472. -/
def layout (sl : StructMemberLayout) (fs : List FieldDesc) : Out PointLayout :=
  let (offsets, align) := calculateOffsetsAndAlignment sl fs
  PointLayout.fromMembersAndAlignment
    ((fs.zip offsets).map fun (f, o) => ⟨⟨f.attributeName, f.primitiveType.toDataType⟩, o⟩) align

/-- `derive_point_type` on a struct with the given `repr` attributes. -/
def derivePointType (repr : List (List ReprArg)) (fs : List FieldDesc) : Out PointLayout :=
  match structMemberLayout repr with
  | .error e => .error e
  | .ok sl => layout sl fs

end Pasture.Derive
