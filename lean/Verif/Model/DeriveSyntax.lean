import Verif.Model.Derive

/-!
# The syntactic part of `#[derive(PointType)]`

`pasture-derive/src/lib.rs:112-344, 423-475` and `pasture-derive/src/layout.rs`, on the syntax trees of the crate
`syn` (parsing tokens into them is not modelled). `Err` is a compile error.
-/

namespace Pasture.Derive

mutual
/-- `syn::Type`; all but paths are alike to the macro. -/
inductive RustType where
  | path (qualified leadingColon : Bool) (segments : List Segment)
  | other

/-- `syn::PathSegment`. -/
inductive Segment where
  | mk (ident : String) (arguments : PathArguments)

/-- `syn::PathArguments`. -/
inductive PathArguments where
  | none
  | angleBracketed (args : List GenericArgument)
  | parenthesized

/-- `syn::GenericArgument`; all but types are alike to the macro. -/
inductive GenericArgument where
  | type (t : RustType)
  | other
end

/-- `syn::Lit`; all but strings and integers are alike to the macro. -/
inductive Lit where
  | str (s : String)
  | int (n : Nat)
  | other

/-- `syn::Path` without arguments, as attributes have it. -/
structure MetaPath where
  leadingColon : Bool := false
  segments : List String

mutual
/-- `syn::Meta`. -/
inductive Meta where
  | path (p : MetaPath)
  | list (p : MetaPath) (nested : List NestedMeta)
  | nameValue (p : MetaPath) (lit : Lit)

/-- `syn::NestedMeta`. -/
inductive NestedMeta where
  | nested (m : Meta)
  | lit (l : Lit)
end

/-- `syn::Attribute`: the content, if it can be parsed as a `Meta` (`parse_meta`). A comment `/// text` is the
    attribute `doc = "text"`. -/
structure FieldAttribute where
  parsed : Option Meta

/-- `syn::Attribute` of a struct: its path, and its content if it can be parsed as a `Meta` (`parse_meta`). -/
structure StructAttribute where
  path : MetaPath
  parsed : Option Meta

/-- `syn::Field`. -/
structure StructField where
  attrs : List FieldAttribute
  ty : RustType

/-- `syn::DeriveInput`, as far as the macro looks at it. -/
structure Item where
  isStruct : Bool
  /-- `generics.params.is_empty()` is false. -/
  isGeneric : Bool
  attrs : List StructAttribute
  fields : List StructField

/-- `syn::Path::get_ident` of the path of a type (crate `syn`): one segment, without a leading colon and arguments. -/
def identOfType (leadingColon : Bool) (segments : List Segment) : Option String :=
  match leadingColon, segments with
  | false, [.mk ident .none] => some ident
  | _, _ => none

/-- `syn::Path::get_ident` of the path of an attribute. -/
def MetaPath.ident (p : MetaPath) : Option String :=
  match p.leadingColon, p.segments with
  | false, [ident] => some ident
  | _, _ => none

/-- `get_primitive_type_for_ident_type`, lib.rs:112-130. -/
def identType (ident : String) : Out PrimType :=
  if ident = "u8" then .ok .u8
  else if ident = "u16" then .ok .u16
  else if ident = "u32" then .ok .u32
  else if ident = "u64" then .ok .u64
  else if ident = "i8" then .ok .i8
  else if ident = "i16" then .ok .i16
  else if ident = "i32" then .ok .i32
  else if ident = "i64" then .ok .i64
  else if ident = "f32" then .ok .f32
  else if ident = "f64" then .ok .f64
  else .error .err

/-- The inner `match` of `get_primitive_type_for_non_ident_type`, lib.rs:169-189. -/
def vectorType (vector component : String) : Out PrimType :=
  if vector = "Vector3" then
    if component = "u8" then .ok .vec3u8
    else if component = "u16" then .ok .vec3u16
    else if component = "f32" then .ok .vec3f32
    else if component = "f64" then .ok .vec3f64
    else if component = "i32" then .ok .vec3i32
    else .error .err
  else if vector = "Vector4" then
    if component = "u8" then .ok .vec4u8 else .error .err
  else .error .err

/-- `get_primitive_type_for_non_ident_type`, lib.rs:132-193. -/
def nonIdentType (segments : List Segment) : Out PrimType :=
  match segments with
  | [] => .error .err
  | .mk ident arguments :: _ =>
    if ident ≠ "Vector3" ∧ ident ≠ "Vector4" then .error .err
    else match arguments with
      | .angleBracketed (.type (.path _ leading inner) :: _) =>
        match identOfType leading inner with
        | some component => vectorType ident component
        | none => .error .err
      | _ => .error .err

/-- `type_path_to_primitive_type`, lib.rs:195-213, and the `match` on the type in `get_field_layout_descriptions`
    (314-327). -/
def typeOf : RustType → Out PrimType
  | .path qualified leading segments =>
    if qualified then .error .err
    else match identOfType leading segments with
      | some ident => identType ident
      | none => nonIdentType segments
  | .other => .error .err

/-- The names of the builtin attributes, lib.rs:248-274. -/
def builtinNames : List (String × String) :=
  [("BUILTIN_POSITION_3D", "Position3D"), ("BUILTIN_INTENSITY", "Intensity"),
   ("BUILTIN_RETURN_NUMBER", "ReturnNumber"), ("BUILTIN_NUMBER_OF_RETURNS", "NumberOfReturns"),
   ("BUILTIN_CLASSIFICATION_FLAGS", "ClassificationFlags"), ("BUILTIN_SCANNER_CHANNEL", "ScannerChannel"),
   ("BUILTIN_SCAN_DIRECTION_FLAG", "ScanDirectionFlag"), ("BUILTIN_EDGE_OF_FLIGHT_LINE", "EdgeOfFlightLine"),
   ("BUILTIN_CLASSIFICATION", "Classification"), ("BUILTIN_SCAN_ANGLE_RANK", "ScanAngleRank"),
   ("BUILTIN_SCAN_ANGLE", "ScanAngle"), ("BUILTIN_USER_DATA", "UserData"),
   ("BUILTIN_POINT_SOURCE_ID", "PointSourceID"), ("BUILTIN_COLOR_RGB", "ColorRGB"), ("BUILTIN_GPS_TIME", "GpsTime"),
   ("BUILTIN_NIR", "NIR"), ("BUILTIN_WAVE_PACKET_DESCRIPTOR_INDEX", "WavePacketDescriptorIndex"),
   ("BUILTIN_WAVEFORM_DATA_OFFSET", "WaveformDataOffset"), ("BUILTIN_WAVEFORM_PACKET_SIZE", "WaveformPacketSize"),
   ("BUILTIN_RETURN_POINT_WAVEFORM_LOCATION", "ReturnPointWaveformLocation"),
   ("BUILTIN_WAVEFORM_PARAMETERS", "WaveformParameters"), ("BUILTIN_POINT_ID", "PointID"),
   ("BUILTIN_NORMAL", "Normal")]

/-- `get_attribute_name_from_field`, lib.rs:215-302. -/
def nameOf (attrs : List FieldAttribute) : Out String :=
  match attrs with
  | [a] =>
    match a.parsed with
    | some (.list _ (.nested (.path p) :: _)) =>
      match p.ident with
      | some ident =>
        match builtinNames.lookup ident with
        | some name => .ok name
        | none => .error .err
      | none => .error .err
    | some (.list _ (.nested (.nameValue p lit) :: _)) =>
      match p.ident, lit with
      | some ident, .str name => if ident ≠ "attribute" then .error .err else .ok name
      | _, _ => .error .err
    | _ => .error .err
  | _ => .error .err

/-- The closure in `get_field_layout_descriptions`, lib.rs:314-328. -/
def describe (f : StructField) : Out FieldDesc := do
  let type ← typeOf f.ty
  let name ← nameOf f.attrs
  pure ⟨name, type⟩

/-- `is_repr_attribute`, layout.rs:11-17. -/
def isReprAttribute (a : StructAttribute) : Bool := a.path.ident = some "repr"

/-- `arg_is_c`, layout.rs:19-26. -/
def argIsC : NestedMeta → Bool
  | .nested (.path p) => p.ident = some "C"
  | _ => false

/-- `arg_is_packed`, layout.rs:28-43. -/
def argIsPacked : NestedMeta → Bool
  | .nested (.path p) => p.ident = some "packed"
  | .nested (.list p _) => p.ident = some "packed"
  | _ => false

/-- `get_packing_from_arg`, layout.rs:46-95. A path in the place of the number is parsed as a number (59-75), which
    fails because identifiers do not start with a digit. -/
def packingFromArg : NestedMeta → Out Nat
  | .nested (.path _) => .ok 1
  | .nested (.list _ (.lit (.int n) :: _)) => if n < 2 ^ 64 then .ok n else .error .err
  | _ => .error .err

/-- `get_struct_member_layout`, layout.rs:97-144. -/
def memberLayoutOf (attrs : List StructAttribute) : Out StructMemberLayout :=
  match attrs.find? isReprAttribute with
  | none => .error .err
  | some a =>
    match a.parsed with
    | some (.list _ args) =>
      match args.find? argIsPacked with
      | some arg => (packingFromArg arg).map .packed
      | none => if (args.find? argIsC).isSome then .ok .c else .error .err
    | _ => .error .err

/-- `derive_point_type`, lib.rs:423-475, with `field_parameters` (329-344) and the first lines of
    `calculate_offsets_and_alignment` (346-361): the layout that the generated `layout()` returns. -/
def deriveItem (i : Item) : Out PointLayout :=
  if i.isGeneric then .error .err
  else if i.isStruct then do
    let fields ← i.fields.mapM describe
    let sl ← memberLayoutOf i.attrs
    layout sl fields
  else .error .err

end Pasture.Derive
