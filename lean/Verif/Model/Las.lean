import Verif.Model.Derive
import Verif.Model.Numbers

/-!
# Model of the LAS record layer of pasture-io

`pasture-io/src/las/las_layout.rs`, `las_types.rs`, `write_helpers.rs` and the attribute constants of
`pasture-core/src/layout/point_layout.rs`. `las::point::Format` comes from the external crate `las` 0.8
(not in /repo): its fields, `new`, `to_u8` and `len` are modelled as documented there.
-/

namespace Pasture.Las

open PointLayout

/-! ## Attribute constants, pasture-core/src/layout/point_layout.rs:483-609 -/

/-- point_layout.rs:483. -/
def position3D : AttrDef := ⟨"Position3D", .vec3f64⟩
/-- point_layout.rs:489. -/
def intensity : AttrDef := ⟨"Intensity", .u16⟩
/-- point_layout.rs:495. -/
def returnNumber : AttrDef := ⟨"ReturnNumber", .u8⟩
/-- point_layout.rs:501. -/
def numberOfReturns : AttrDef := ⟨"NumberOfReturns", .u8⟩
/-- point_layout.rs:507. -/
def classificationFlags : AttrDef := ⟨"ClassificationFlags", .u8⟩
/-- point_layout.rs:513. -/
def scannerChannel : AttrDef := ⟨"ScannerChannel", .u8⟩
/-- point_layout.rs:519. -/
def scanDirectionFlag : AttrDef := ⟨"ScanDirectionFlag", .u8⟩
/-- point_layout.rs:525. -/
def edgeOfFlightLine : AttrDef := ⟨"EdgeOfFlightLine", .u8⟩
/-- point_layout.rs:531. -/
def classification : AttrDef := ⟨"Classification", .u8⟩
/-- point_layout.rs:537. -/
def scanAngleRank : AttrDef := ⟨"ScanAngleRank", .i8⟩
/-- point_layout.rs:543. -/
def scanAngle : AttrDef := ⟨"ScanAngle", .i16⟩
/-- point_layout.rs:549. -/
def userData : AttrDef := ⟨"UserData", .u8⟩
/-- point_layout.rs:555. -/
def pointSourceId : AttrDef := ⟨"PointSourceID", .u16⟩
/-- point_layout.rs:561. -/
def colorRgb : AttrDef := ⟨"ColorRGB", .vec3u16⟩
/-- point_layout.rs:567. -/
def gpsTime : AttrDef := ⟨"GpsTime", .f64⟩
/-- point_layout.rs:575. -/
def nir : AttrDef := ⟨"NIR", .u16⟩
/-- point_layout.rs:581. -/
def wavePacketDescriptorIndex : AttrDef := ⟨"WavePacketDescriptorIndex", .u8⟩
/-- point_layout.rs:587. -/
def waveformDataOffset : AttrDef := ⟨"WaveformDataOffset", .u64⟩
/-- point_layout.rs:593. -/
def waveformPacketSize : AttrDef := ⟨"WaveformPacketSize", .u32⟩
/-- point_layout.rs:599. -/
def returnPointWaveformLocation : AttrDef := ⟨"ReturnPointWaveformLocation", .f32⟩
/-- point_layout.rs:605. -/
def waveformParameters : AttrDef := ⟨"WaveformParameters", .vec3f32⟩

/-- `ATTRIBUTE_BASIC_FLAGS`, las_layout.rs:37-38. -/
def basicFlags : AttrDef := ⟨"LASBasicFlags", .u8⟩
/-- `ATTRIBUTE_EXTENDED_FLAGS`, las_layout.rs:40-43. -/
def extendedFlags : AttrDef := ⟨"LASExtendedFlags", .u16⟩
/-- `ATTRIBUTE_LOCAL_LAS_POSITION`, las_layout.rs:45-48. -/
def localPosition : AttrDef := ⟨"LASLocalPosition", .vec3i32⟩

/-! ## Point formats -/

/-- `las::point::Format` (crate `las`), used by las_layout.rs:6. -/
structure Format where
  hasGpsTime : Bool
  hasColor : Bool
  isExtended : Bool
  hasWaveform : Bool
  hasNir : Bool
  extraBytes : Nat
  isCompressed : Bool
  deriving DecidableEq, Repr

namespace Format

/-- `Format::new` (crate `las`), called at las_layout.rs:220 and raw_writers.rs:201. The compression bit
    of the record format number is dropped from `n` by the callers modelled here. -/
def new (n : Nat) : Out Format :=
  if n > 10 then .error .err
  else .ok {
    hasGpsTime := n = 1 || n > 2
    hasColor := n = 2 || n = 3 || n = 5 || n = 7 || n = 8 || n = 10
    isExtended := n > 5
    hasWaveform := n = 4 || n = 5 || n = 9 || n = 10
    hasNir := n = 8 || n = 10
    extraBytes := 0
    isCompressed := false }

/-- `Format::to_u8` (crate `las`, feature `laz` on), called at las_layout.rs:68. -/
def toU8 (f : Format) : Out Nat :=
  if f.isExtended then
    if f.hasGpsTime then
      if f.hasColor then
        if f.hasNir then (if f.hasWaveform then .ok 10 else .ok 8)
        else if f.hasWaveform then .error .err else .ok 7
      else if f.hasNir then .error .err
      else if f.hasWaveform then .ok 9 else .ok 6
    else .error .err
  else if f.hasNir then .error .err
  else if f.hasWaveform then
    if f.hasGpsTime then (if f.hasColor then .ok 5 else .ok 4) else .error .err
  else .ok ((if f.hasGpsTime then 1 else 0) + (if f.hasColor then 2 else 0))

/-- `Format::len` (crate `las`), called at las_layout.rs:32. -/
def len (f : Format) : Nat :=
  (if f.isExtended then 22 else 20) + (if f.hasGpsTime then 8 else 0) + (if f.hasColor then 6 else 0)
    + (if f.hasNir then 2 else 0) + (if f.hasWaveform then 29 else 0) + f.extraBytes

end Format

/-- `offset_to_extra_bytes`, las_layout.rs:28-34. -/
def offsetToExtraBytes (f : Format) : Option Nat :=
  if f.extraBytes = 0 then none else some (f.len - f.extraBytes)

/-! ## The point types of las_types.rs -/

open Derive in
/-- The fields all of `LasPointFormat0..5` start with, e.g. las_types.rs:14-34. -/
def basicFields : List FieldDesc :=
  [⟨position3D.name, .vec3f64⟩, ⟨intensity.name, .u16⟩, ⟨returnNumber.name, .u8⟩,
   ⟨numberOfReturns.name, .u8⟩, ⟨scanDirectionFlag.name, .u8⟩, ⟨edgeOfFlightLine.name, .u8⟩,
   ⟨classification.name, .u8⟩, ⟨scanAngleRank.name, .i8⟩, ⟨userData.name, .u8⟩,
   ⟨pointSourceId.name, .u16⟩]

open Derive in
/-- The fields all of `LasPointFormat6..10` start with, e.g. las_types.rs:398-424. -/
def extendedFields : List FieldDesc :=
  [⟨position3D.name, .vec3f64⟩, ⟨intensity.name, .u16⟩, ⟨returnNumber.name, .u8⟩,
   ⟨numberOfReturns.name, .u8⟩, ⟨classificationFlags.name, .u8⟩, ⟨scannerChannel.name, .u8⟩,
   ⟨scanDirectionFlag.name, .u8⟩, ⟨edgeOfFlightLine.name, .u8⟩, ⟨classification.name, .u8⟩,
   ⟨userData.name, .u8⟩, ⟨scanAngle.name, .i16⟩, ⟨pointSourceId.name, .u16⟩, ⟨gpsTime.name, .f64⟩]

open Derive in
/-- `color_rgb`, e.g. las_types.rs:146-147. -/
def colorField : List FieldDesc := [⟨colorRgb.name, .vec3u16⟩]

open Derive in
/-- `gps_time`, e.g. las_types.rs:89-90. -/
def gpsField : List FieldDesc := [⟨gpsTime.name, .f64⟩]

open Derive in
/-- `nir`, las_types.rs:501-502, 587-588. -/
def nirField : List FieldDesc := [⟨nir.name, .u16⟩]

open Derive in
/-- The waveform fields, e.g. las_types.rs:271-280. -/
def waveformFields : List FieldDesc :=
  [⟨wavePacketDescriptorIndex.name, .u8⟩, ⟨waveformDataOffset.name, .u64⟩,
   ⟨waveformPacketSize.name, .u32⟩, ⟨returnPointWaveformLocation.name, .f32⟩,
   ⟨waveformParameters.name, .vec3f32⟩]

/-- The fields of `LasPointFormatN`, las_types.rs:14-34 (0), 68-90 (1), 125-147 (2), 185-209 (3),
    248-280 (4), 321-355 (5), 398-424 (6), 434-462 (7), 472-502 (8), 512-548 (9), 558-598 (10). -/
def lasPointFields : Nat → Option (List Derive.FieldDesc)
  | 0 => some basicFields
  | 1 => some (basicFields ++ gpsField)
  | 2 => some (basicFields ++ colorField)
  | 3 => some (basicFields ++ gpsField ++ colorField)
  | 4 => some (basicFields ++ gpsField ++ waveformFields)
  | 5 => some (basicFields ++ gpsField ++ colorField ++ waveformFields)
  | 6 => some extendedFields
  | 7 => some (extendedFields ++ colorField)
  | 8 => some (extendedFields ++ colorField ++ nirField)
  | 9 => some (extendedFields ++ waveformFields)
  | 10 => some (extendedFields ++ colorField ++ nirField ++ waveformFields)
  | _ => none

/-- `#[repr(C, packed)]`, las_types.rs:10, 64, 121, … -/
def lasPointRepr : List (List Derive.ReprArg) := [[.c, .packed]]

/-! ## Layouts -/

/-- Add attributes one after another with `FieldAlignment::Packed(1)`, las_layout.rs:73-104. -/
def addPacked (l : PointLayout) (ds : List AttrDef) : Out PointLayout :=
  forLoop ds l fun l d => l.addAttribute d (.packed 1)

/-- The attributes added at las_layout.rs:73-104, in order. -/
def exactAttributes (f : Format) : List AttrDef :=
  [localPosition, intensity]
    ++ (if f.isExtended then [extendedFlags] else [basicFlags])
    ++ [classification]
    ++ (if f.isExtended then [userData, scanAngle] else [scanAngleRank, userData])
    ++ [pointSourceId]
    ++ (if f.hasGpsTime then [gpsTime] else [])
    ++ (if f.hasColor then [colorRgb] else [])
    ++ (if f.hasNir then [nir] else [])
    ++ (if f.hasWaveform then
          [wavePacketDescriptorIndex, waveformDataOffset, waveformPacketSize,
           returnPointWaveformLocation, waveformParameters]
        else [])

/-- `point_layout_from_las_point_format`, las_layout.rs:64-125. -/
def pointLayoutFromFormat (f : Format) (exact : Bool) : Out PointLayout := do
  let n ← f.toU8
  if exact then addPacked PointLayout.default (exactAttributes f)
  else
    match lasPointFields n with
    | some fs => Derive.derivePointType lasPointRepr fs
    | none => .error .err

/-- `las_point_format_from_point_layout`, las_layout.rs:202-232. -/
def formatFromPointLayout (l : PointLayout) : Out Format := do
  let hasGps := l.hasAttributeWithName gpsTime.name
  let hasColors := l.hasAttributeWithName colorRgb.name
  let hasWaveform := l.hasAttributeWithName wavePacketDescriptorIndex.name
    || l.hasAttributeWithName waveformDataOffset.name
    || l.hasAttributeWithName waveformPacketSize.name
    || l.hasAttributeWithName returnPointWaveformLocation.name
    || l.hasAttributeWithName waveformParameters.name
  let hasNir := l.hasAttributeWithName nir.name
  let hasScanAngle := l.hasAttributeWithName scanAngle.name
  let hasScannerChannel := l.hasAttributeWithName scannerChannel.name
  let hasClassificationFlags := l.hasAttributeWithName classificationFlags.name
  let f ← Format.new 0
  let f := { f with hasColor := hasColors, hasGpsTime := hasGps, hasNir := hasNir,
                    hasWaveform := hasWaveform }
  pure (if hasNir || hasScanAngle || hasScannerChannel || hasClassificationFlags
    then { f with isExtended := true } else f)

/-- `is_known_las_attribute`, las_layout.rs:240-270. -/
def isKnownLasAttribute (d : AttrDef) : Bool :=
  [position3D, intensity, returnNumber, numberOfReturns, classificationFlags, scannerChannel,
   scanDirectionFlag, edgeOfFlightLine, classification, userData, scanAngle, scanAngleRank,
   pointSourceId, gpsTime, colorRgb, nir, waveformDataOffset, waveformPacketSize, waveformParameters,
   wavePacketDescriptorIndex, returnPointWaveformLocation].any fun a => decide (a.name = d.name)

/-! ## Bit attributes -/

/-- `BitAttributesRegular`, las_types.rs:604-609. -/
structure BitsRegular where
  returnNumber : BitVec 8
  numberOfReturns : BitVec 8
  scanDirectionFlag : BitVec 8
  edgeOfFlightLine : BitVec 8
  deriving DecidableEq, Repr

/-- `BitAttributesExtended`, las_types.rs:612-619. -/
structure BitsExtended where
  returnNumber : BitVec 8
  numberOfReturns : BitVec 8
  classificationFlags : BitVec 8
  scannerChannel : BitVec 8
  scanDirectionFlag : BitVec 8
  edgeOfFlightLine : BitVec 8
  deriving DecidableEq, Repr

/-- `write_las_bit_attributes`, regular case, write_helpers.rs:31-37: the byte written. -/
def packRegular (a : BitsRegular) : Bytes :=
  [(a.returnNumber &&& 7#8) ||| (a.numberOfReturns &&& 7#8) <<< 3 ||| (a.scanDirectionFlag &&& 1#8) <<< 6
    ||| (a.edgeOfFlightLine &&& 1#8) <<< 7]

/-- `write_las_bit_attributes`, extended case, write_helpers.rs:38-47: the two bytes written. -/
def packExtended (a : BitsExtended) : Bytes :=
  let low := (a.returnNumber &&& 15#8) ||| (a.numberOfReturns &&& 15#8) <<< 4
  let high := (a.classificationFlags &&& 15#8) ||| (a.scannerChannel &&& 3#8) <<< 4
    ||| (a.scanDirectionFlag &&& 1#8) <<< 6 ||| (a.edgeOfFlightLine &&& 1#8) <<< 7
  [low, high]

/-- The closures on the basic flags, raw_readers.rs:67, 79, 91, 102. -/
def basicReturnNumber (flags : BitVec 8) : BitVec 8 := flags &&& 7#8
/-- raw_readers.rs:79. -/
def basicNumberOfReturns (flags : BitVec 8) : BitVec 8 := (flags >>> 3) &&& 7#8
/-- raw_readers.rs:91. -/
def basicScanDirectionFlag (flags : BitVec 8) : BitVec 8 := (flags >>> 6) &&& 1#8
/-- raw_readers.rs:102. -/
def basicEdgeOfFlightLine (flags : BitVec 8) : BitVec 8 := (flags >>> 7) &&& 1#8

/-- The closures on the extended flags, raw_readers.rs:113, 123, 133, 143, 153, 162. -/
def extendedReturnNumber (flags : BitVec 16) : BitVec 16 := flags &&& 15#16
/-- raw_readers.rs:123. -/
def extendedNumberOfReturns (flags : BitVec 16) : BitVec 16 := (flags >>> 4) &&& 15#16
/-- raw_readers.rs:133. -/
def extendedClassificationFlags (flags : BitVec 16) : BitVec 16 := (flags >>> 8) &&& 15#16
/-- raw_readers.rs:143. -/
def extendedScannerChannel (flags : BitVec 16) : BitVec 16 := (flags >>> 12) &&& 3#16
/-- raw_readers.rs:153. -/
def extendedScanDirectionFlag (flags : BitVec 16) : BitVec 16 := (flags >>> 14) &&& 1#16
/-- raw_readers.rs:162. -/
def extendedEdgeOfFlightLine (flags : BitVec 16) : BitVec 16 := (flags >>> 15) &&& 1#16

/-! ## Positions -/

/-- Offset and scale of one axis, `las::raw::Header` / `las::Transform`. -/
structure Axis where
  scale : Flt .f64
  offset : Flt .f64

/-- One axis of `write_position_as_las_position`, write_helpers.rs:15-17: `as i64` (saturating, NaN to
    0), then `try_into::<i32>().expect(..)`. -/
def quantize (a : Axis) (world : Flt .f64) : Out Int :=
  let q := ((world.sub a.offset).div a.scale).toIntSat (-2 ^ 63) (2 ^ 63 - 1)
  if -2 ^ 31 ≤ q ∧ q < 2 ^ 31 then .ok q else panicked

/-- One axis of the position transformation of the reader, raw_readers.rs:43-45: the local i32
    coordinate was converted to f64 before. -/
def dequantize (a : Axis) (stored : Int) : Flt .f64 :=
  ((Flt.ofInt .f64 stored).mul a.scale).add a.offset

end Pasture.Las
