import Verif.Model.DeriveSyntax
import Verif.Model.Las
import Verif.Model.Voxel
import Verif.Model.Pnts
import Verif.Spec.Layout

/-!
# The structs that the documentation of `derive(PointType)` describes
-/

namespace Pasture.Spec
open Pasture.Derive

/-- A type without arguments, `name`. -/
def plainType (name : String) : RustType := .path false false [.mk name .none]

/-- `vector<component>`. -/
def vectorOf (vector component : String) : RustType :=
  .path false false [.mk vector (.angleBracketed [.type (plainType component)])]

/-- The Rust type of each primitive type of Pasture, as documented at `PointAttributeDataType`. -/
def documentedType : PrimType → RustType
  | .u8 => plainType "u8" | .i8 => plainType "i8" | .u16 => plainType "u16" | .i16 => plainType "i16"
  | .u32 => plainType "u32" | .i32 => plainType "i32" | .u64 => plainType "u64" | .i64 => plainType "i64"
  | .f32 => plainType "f32" | .f64 => plainType "f64"
  | .vec3u8 => vectorOf "Vector3" "u8" | .vec3u16 => vectorOf "Vector3" "u16" | .vec3f32 => vectorOf "Vector3" "f32"
  | .vec3f64 => vectorOf "Vector3" "f64" | .vec3i32 => vectorOf "Vector3" "i32" | .vec4u8 => vectorOf "Vector4" "u8"

/-- The builtin attributes in the documentation of `derive(PointType)`, lib.rs:395-417, and the attribute of the
    library that each stands for. -/
def documentedAttributes : List (String × AttrDef) :=
  [("BUILTIN_POSITION_3D", Las.position3D), ("BUILTIN_INTENSITY", Las.intensity),
   ("BUILTIN_RETURN_NUMBER", Las.returnNumber), ("BUILTIN_NUMBER_OF_RETURNS", Las.numberOfReturns),
   ("BUILTIN_CLASSIFICATION_FLAGS", Las.classificationFlags), ("BUILTIN_SCANNER_CHANNEL", Las.scannerChannel),
   ("BUILTIN_SCAN_DIRECTION_FLAG", Las.scanDirectionFlag), ("BUILTIN_EDGE_OF_FLIGHT_LINE", Las.edgeOfFlightLine),
   ("BUILTIN_CLASSIFICATION", Las.classification), ("BUILTIN_SCAN_ANGLE_RANK", Las.scanAngleRank),
   ("BUILTIN_SCAN_ANGLE", Las.scanAngle), ("BUILTIN_USER_DATA", Las.userData),
   ("BUILTIN_POINT_SOURCE_ID", Las.pointSourceId), ("BUILTIN_COLOR_RGB", Las.colorRgb),
   ("BUILTIN_GPS_TIME", Las.gpsTime), ("BUILTIN_NIR", Las.nir),
   ("BUILTIN_WAVE_PACKET_DESCRIPTOR_INDEX", Las.wavePacketDescriptorIndex),
   ("BUILTIN_WAVEFORM_DATA_OFFSET", Las.waveformDataOffset), ("BUILTIN_WAVEFORM_PACKET_SIZE", Las.waveformPacketSize),
   ("BUILTIN_RETURN_POINT_WAVEFORM_LOCATION", Las.returnPointWaveformLocation),
   ("BUILTIN_WAVEFORM_PARAMETERS", Las.waveformParameters), ("BUILTIN_POINT_ID", Voxel.pointId),
   ("BUILTIN_NORMAL", Tiles3d.normal)]

/-- The path of one identifier. -/
def oneIdent (name : String) : MetaPath := ⟨false, [name]⟩

/-- `#[pasture(tag)]`. -/
def builtinTag (tag : String) : FieldAttribute := ⟨some (.list (oneIdent "pasture") [.nested (.path (oneIdent tag))])⟩

/-- `#[pasture(attribute = "name")]`. -/
def customTag (name : String) : FieldAttribute :=
  ⟨some (.list (oneIdent "pasture") [.nested (.nameValue (oneIdent "attribute") (.str name))])⟩

/-- `/// text` -/
def docComment (text : String) : FieldAttribute := ⟨some (.nameValue (oneIdent "doc") (.str text))⟩

/-- The attribute gives the field this name. -/
inductive Tagged : FieldAttribute → String → Prop
  | builtin {tag : String} {d : AttrDef} (h : (tag, d) ∈ documentedAttributes) : Tagged (builtinTag tag) d.name
  | custom (name : String) : Tagged (customTag name) name

/-- A field as documented: its type is a primitive type, and its only attribute is `#[pasture(..)]`. -/
structure DocumentedField (f : StructField) (d : FieldDesc) : Prop where
  type : f.ty = documentedType d.primitiveType
  name : ∃ a, f.attrs = [a] ∧ Tagged a d.attributeName

/-- An argument of `#[repr(..)]` as it is written. -/
def writtenArg : ReprArg → NestedMeta
  | .c => .nested (.path (oneIdent "C"))
  | .packed => .nested (.path (oneIdent "packed"))
  | .packedN n => .nested (.list (oneIdent "packed") [.lit (.int n)])
  | .align n => .nested (.list (oneIdent "align") [.lit (.int n)])
  | .other => .nested (.path (oneIdent "transparent"))

/-- `#[repr(args)]`. -/
def reprAttribute (args : List ReprArg) : StructAttribute :=
  ⟨oneIdent "repr", some (.list (oneIdent "repr") (args.map writtenArg))⟩

/-- The only `repr` attribute of a struct is `#[repr(args)]`; there may be other attributes and comments. -/
def HasRepr (i : Item) (args : List ReprArg) : Prop :=
  ∃ before after, i.attrs = before ++ reprAttribute args :: after ∧
    ∀ a ∈ before ++ after, a.path ≠ oneIdent "repr"

/-- What the arguments of `#[repr(..)]` say to the compiler about a struct with fields in the written order: the largest
    alignment of the fields, if `packed` or `packed(N)` is there (with the same `N` if several times, which the compiler
    makes sure of). -/
def Packs (args : List ReprArg) (packing : Option Nat) : Prop :=
  .c ∈ args ∧ (∀ n, .align n ∉ args) ∧
    match packing with
    | none => .packed ∉ args ∧ ∀ n, .packedN n ∉ args
    | some n => (.packed ∈ args ∧ n = 1 ∨ .packedN n ∈ args) ∧ (.packed ∈ args → n = 1) ∧ ∀ m, .packedN m ∈ args → m = n

/-- A layout that the compiler may give to a struct with `#[repr(packed(n))]` but not `C`: the fields in an order of its
    choice (the Rust reference promises no more than that they do not overlap and are aligned). -/
def MayLayOut (n : Nat) (fields : List Field) (offsets : List Nat) (size align : Nat) : Prop :=
  ∃ placed : List (Field × Nat), placed.Perm (fields.zip offsets) ∧ offsets.length = fields.length ∧
    RustStructLayout (some n) 1 (placed.map Prod.fst) (placed.map Prod.snd) size align

/-- `packed` or `packed(..)`. -/
def PackedArg (a : NestedMeta) : Prop :=
  a = .nested (.path (oneIdent "packed")) ∨ ∃ nested, a = .nested (.list (oneIdent "packed") nested)

/-- The attributes of a struct, as far as the macro looks: in the first `repr` attribute, the first of `packed` and
    `packed(n, ..)`, or else `C`. -/
def LooksRepr (attrs : List StructAttribute) (sl : StructMemberLayout) : Prop :=
  ∃ before m args after, attrs = before ++ ⟨oneIdent "repr", some (.list m args)⟩ :: after ∧
    (∀ a ∈ before, a.path ≠ oneIdent "repr") ∧
    match sl with
    | .c => .nested (.path (oneIdent "C")) ∈ args ∧ ∀ a ∈ args, ¬ PackedArg a
    | .packed n => ∃ first arg rest, args = first ++ arg :: rest ∧ (∀ a ∈ first, ¬ PackedArg a) ∧
        (arg = .nested (.path (oneIdent "packed")) ∧ n = 1 ∨
          ∃ more, arg = .nested (.list (oneIdent "packed") (.lit (.int n) :: more)))

/-- A struct as documented, whose fields have these names and types. -/
structure DocumentedStruct (i : Item) (fields : List FieldDesc) : Prop where
  struct : i.isStruct = true
  notGeneric : i.isGeneric = false
  fields : List.Forall₂ DocumentedField i.fields fields

/-- The type of a field, as far as the macro looks: the primitive type as documented, or for vectors a path that starts
    with `Vector3<component` or `Vector4<component`. -/
def LooksLike (t : RustType) (p : PrimType) : Prop :=
  t = documentedType p ∨ ∃ vector component leading qualified args rest, documentedType p = vectorOf vector component ∧
    t = .path false leading (.mk vector (.angleBracketed
      (.type (.path qualified false [.mk component .none]) :: args)) :: rest)

/-- The attributes of a field, as far as the macro looks: one attribute, of whichever macro, whose list starts with a
    builtin attribute or with `attribute = "name"`. -/
def NamedBy (attrs : List FieldAttribute) (name : String) : Prop :=
  ∃ m first more, attrs = [⟨some (.list m (first :: more))⟩] ∧
    ((∃ tag d, first = .nested (.path (oneIdent tag)) ∧ (tag, d) ∈ documentedAttributes ∧ d.name = name) ∨
      first = .nested (.nameValue (oneIdent "attribute") (.str name)))

end Pasture.Spec
