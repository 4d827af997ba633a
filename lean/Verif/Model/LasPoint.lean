import Verif.Model.Las
import Verif.Model.Numbers

/-!
# Points of the `las` crate as points of Pasture

`pasture-io/src/las/las_types.rs`, `impl From<las::Point> for LasPointFormatN` for the formats 0 to 5 (there are no
others). The fields of `las::Point` are those the code uses; the classification is its number
(`las_point.classification.into()`), which the `las` crate makes.
-/

namespace Pasture.Las

/-- `las::point::ScanDirection`, las_types.rs:46-49. -/
inductive ScanDirection where
  | rightToLeft
  | leftToRight
  deriving DecidableEq

/-- `las::Color`, las_types.rs:178. -/
structure CrateColor where
  red : BitVec 16
  green : BitVec 16
  blue : BitVec 16

/-- `las::point` waveform, las_types.rs:307-311. -/
structure CrateWaveform where
  descriptorIndex : BitVec 8
  byteOffset : BitVec 64
  packetSize : BitVec 32
  location : F32
  xT : F32
  yT : F32
  zT : F32

/-- `las::Point`, the fields used in las_types.rs:39-390. -/
structure CratePoint where
  x : F64
  y : F64
  z : F64
  intensity : BitVec 16
  returnNumber : BitVec 8
  numberOfReturns : BitVec 8
  scanDirection : ScanDirection
  isEdgeOfFlightLine : Bool
  classification : BitVec 8
  scanAngle : F32
  userData : BitVec 8
  pointSourceId : BitVec 16
  gpsTime : Option F64
  color : Option CrateColor
  waveform : Option CrateWaveform

namespace CratePoint

/-- The fields all six conversions start with, in the order of the fields of the types: las_types.rs:42-58,
    98-114, 158-174, 220-236, 289-305, 365-381. -/
def basicValues (p : CratePoint) : List Bytes :=
  [writeNum .f64 (.double p.x) ++ writeNum .f64 (.double p.y) ++ writeNum .f64 (.double p.z),
   writeNum .u16 (.int p.intensity.toNat), writeNum .u8 (.int p.returnNumber.toNat),
   writeNum .u8 (.int p.numberOfReturns.toNat),
   writeNum .u8 (.int (match p.scanDirection with
    | .rightToLeft => 0
    | .leftToRight => 1)),
   writeNum .u8 (.int (if p.isEdgeOfFlightLine then 1 else 0)),
   writeNum .u8 (.int p.classification.toNat),
   writeNum .i8 (.int (p.scanAngle.toIntSat (-128) 127)),
   writeNum .u8 (.int p.userData.toNat), writeNum .u16 (.int p.pointSourceId.toNat)]

/-- `las_point.gps_time.unwrap_or(0.0)`, las_types.rs:115, 237, 306, 382. -/
def gpsValues (p : CratePoint) : List Bytes := [writeNum .f64 (.double (p.gpsTime.getD (.zero .f64)))]

/-- `color_rgb`, las_types.rs:175, 238, 383. -/
def colorValues (c : CrateColor) : List Bytes :=
  [writeNum .u16 (.int c.red.toNat) ++ writeNum .u16 (.int c.green.toNat) ++ writeNum .u16 (.int c.blue.toNat)]

/-- The waveform fields, las_types.rs:307-311, 384-388. -/
def waveformValues (w : CrateWaveform) : List Bytes :=
  [writeNum .u8 (.int w.descriptorIndex.toNat), writeNum .u64 (.int w.byteOffset.toNat),
   writeNum .u32 (.int w.packetSize.toNat), writeNum .f32 (.single w.location),
   writeNum .f32 (.single w.xT) ++ writeNum .f32 (.single w.yT) ++ writeNum .f32 (.single w.zT)]

/-- `LasPointFormatN::from`, las_types.rs:40-61 (0), 96-118 (1), 153-178 (2), 215-241 (3), 286-314 (4),
    361-391 (5): the values of the fields. -/
def toFields (p : CratePoint) : Nat → Out (List Bytes)
  | 0 => pure p.basicValues
  | 1 => pure (p.basicValues ++ p.gpsValues)
  | 2 => do
    let color ← expectSome p.color
    pure (p.basicValues ++ colorValues color)
  | 3 => do
    let color ← expectSome p.color
    pure (p.basicValues ++ p.gpsValues ++ colorValues color)
  | 4 => do
    let waveform ← expectSome p.waveform
    pure (p.basicValues ++ p.gpsValues ++ waveformValues waveform)
  | 5 => do
    let color ← expectSome p.color
    let waveform ← expectSome p.waveform
    pure (p.basicValues ++ p.gpsValues ++ colorValues color ++ waveformValues waveform)
  | _ => .error .err

/-- The memory of the point: the types are `#[repr(C, packed)]`, so that there is nothing between the fields. -/
def toRecord (p : CratePoint) (n : Nat) : Out Bytes := do
  let fields ← p.toFields n
  pure fields.flatten

end CratePoint

end Pasture.Las
