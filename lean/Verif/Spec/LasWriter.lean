import Verif.Model.LasWriter
import Verif.Spec.LasReader
import Verif.Spec.Las
import Verif.Spec.Bounds

/-!
# Specification: what a LAS writer stores

A point, of whatever layout, becomes one record of the point format of the file: the items of the format in
order (`lasItems`, the tables of LAS 1.4), each filled from the attribute of that name.
-/

namespace Pasture.Spec

open Pasture.Las

/-- The types of the attributes of LAS points in memory. -/
def lasTypes : List (String × DataType) :=
  [("Position3D", .vec3f64), ("Intensity", .u16), ("ReturnNumber", .u8), ("NumberOfReturns", .u8),
   ("ClassificationFlags", .u8), ("ScannerChannel", .u8), ("ScanDirectionFlag", .u8), ("EdgeOfFlightLine", .u8),
   ("Classification", .u8), ("ScanAngleRank", .i8), ("ScanAngle", .i16), ("UserData", .u8), ("PointSourceID", .u16),
   ("GpsTime", .f64), ("ColorRGB", .vec3u16), ("NIR", .u16), ("WavePacketDescriptorIndex", .u8),
   ("WaveformDataOffset", .u64), ("WaveformPacketSize", .u32), ("ReturnPointWaveformLocation", .f32),
   ("WaveformParameters", .vec3f32)]

/-- The value of the LAS attribute `name` of a point: that of the attribute with this name, converted to the
    LAS type; zero if the point has no such attribute. There is none if the types cannot be converted. -/
def lasValue (p : Point) (name : String) : Option Bytes := do
  let type ← lasTypes.lookup name
  match p.find? fun a => a.1.name = name with
  | some (d, v) => (conversion d.datatype type).map fun f => f v
  | none => some (List.replicate type.size 0)

/-- Bit fields packed into `size` bytes; values are reduced to the width of their field. -/
def packBits (size : Nat) (fields : List (String × Nat × Nat)) (p : Point) : Option Bytes := do
  let parts ← fields.mapM fun (name, shift, width) => (lasValue p name).map fun v => 2 ^ shift * (leNat v % 2 ^ width)
  pure (natLE size parts.sum)

/-- A coordinate as the file stores it, if it can be stored; `C37_error_partial` says how far that is from the
    coordinate. -/
def storedCoordinate (a : Axis) (x : F64) : Option Bytes := (quantize a x).toOption.map fun z => writeNum .i32 (.int z)

/-- A position as the file stores it. -/
def storedPosition (t : Transforms) (p : P3 F64) : Option Bytes := do
  let x ← storedCoordinate t.x p.x
  let y ← storedCoordinate t.y p.y
  let z ← storedCoordinate t.z p.z
  pure (x ++ y ++ z)

/-- World position of a point. -/
def lasPosition (p : Point) : Option (P3 F64) := (lasValue p "Position3D").map positionOf

/-- An item of the record for a point. -/
def storedItem (t : Transforms) (p : Point) (name : String) : Option Bytes :=
  if name = "LASLocalPosition" then (lasPosition p).bind (storedPosition t)
  else if name = "LASBasicFlags" then packBits 1 packedBasic p
  else if name = "LASExtendedFlags" then packBits 2 packedExtended p
  else lasValue p name

/-- The record of format `n` for a point; none if the point cannot be stored. -/
def storedRecord (n : Nat) (t : Transforms) (p : Point) : Option Bytes :=
  ((lasItems n).mapM fun item => storedItem t p item.1).map List.flatten

/-- The points can be stored, and these are their records. -/
def Stored (n : Nat) (t : Transforms) (ps : List Point) (recs : List Bytes) : Prop :=
  ps.mapM (storedRecord n t) = some recs

/-- A buffer passed to `write`, and the points in it. -/
structure Batch : Type 1 where
  β : Type
  [inst : BorrowedBuffer β]
  buffer : β
  layout : PointLayout
  points : List Point
  shows : ShowsPoints buffer layout points
  solid : Solid layout

attribute [instance] Batch.inst

/-- A call on an open writer. -/
inductive WriterCall : Type 1 where
  | write (b : Batch)
  | flush

/-- The points a call adds. -/
def WriterCall.points : WriterCall → List Point
  | .write b => b.points
  | .flush => []

/-- All points written. -/
def written (calls : List WriterCall) : List Point := calls.flatMap WriterCall.points

/-- The writes among the calls. -/
def writesOf (calls : List WriterCall) : List Batch :=
  calls.filterMap fun
    | .write b => some b
    | .flush => none

/-- Perform the calls on a LAS writer. -/
def runLas (encode : LasHeader → Bytes) : RawLasWriter → List WriterCall → Out RawLasWriter
  | w, [] => .ok w
  | w, .write b :: calls => do
    let w ← w.write b.buffer
    runLas encode w calls
  | w, .flush :: calls => runLas encode (w.flush encode) calls

/-- Perform the writes on a LAZ writer. -/
def runLaz : RawLazWriter → List Batch → Out RawLazWriter
  | w, [] => .ok w
  | w, b :: bs => do
    let w ← w.write b.buffer
    runLaz w bs

/-- The points with return number `k`. -/
def withReturn (k : Nat) (ps : List Point) : List Point :=
  ps.filter fun p => (lasValue p "ReturnNumber").map leNat = some k

/-- The box in a header. -/
def headerBox (h : LasHeader) : AABB F64 := ⟨h.min, h.max⟩

/-- A new LAS writer of point format `n` without extra bytes: `encode` turns headers into `H` bytes, `template`,
    `vlrs` and `evlrs` are given by the user. -/
structure OpenedLas (n : Nat) (encode : LasHeader → Bytes) (H : Nat) (template : LasHeader) (vlrs evlrs : Bytes)
    (w : RawLasWriter) : Prop where
  number : template.format % 64 = n
  header_size : ∀ h, (encode h).length = H
  opened : ∃ f, Format.new n = .ok f ∧
    RawLasWriter.new encode ⟨f, none⟩ template vlrs evlrs (H + vlrs.length) = .ok w

/-- A new LAZ writer of point format `n` without extra bytes. -/
structure OpenedLaz (n : Nat) (template : LasHeader) (w : RawLazWriter) : Prop where
  number : template.format % 64 = n
  length : template.recordLength = lasRecordLength n
  opened : ∃ f, Format.new n = .ok f ∧ RawLazWriter.new ⟨f, none⟩ template = .ok w

/-- The points a call writes in the layout `l`. -/
def WriterCall.pointsIn (l : PointLayout) : WriterCall → List Point
  | .write b => if b.layout = l then b.points else []
  | .flush => []

/-- All points written in the layout `l`. -/
def writtenIn (l : PointLayout) (calls : List WriterCall) : List Point := calls.flatMap (WriterCall.pointsIn l)

/-- `byReturn` has the numbers of points with return number 1 to 15. -/
def CountsReturns (byReturn : List Nat) (ps : List Point) : Prop :=
  byReturn.length = 15 ∧ ∀ k, 1 ≤ k → k ≤ 15 → byReturn[k - 1]? = some (withReturn k ps).length

/-- The header has the tightest box around the positions of the points. -/
def Bounded (h : LasHeader) (ps : List Point) : Prop :=
  ∃ qs, ps.mapM lasPosition = some qs ∧ Tightest NotNaN (headerBox h) qs

/-- No coordinate of a position is NaN. -/
def NoNaN (ps : List Point) : Prop := ∀ p ∈ ps, ∀ q, lasPosition p = some q → Coords NotNaN q

/-- Scales and offsets are finite and the scales are not zero. -/
def FiniteTransforms (t : Transforms) : Prop := FiniteAxis t.x ∧ FiniteAxis t.y ∧ FiniteAxis t.z

/-- What remains of a coordinate that was written and read again. -/
def restoredCoordinate (a : Axis) (x : F64) : Option Bytes :=
  (quantize a x).toOption.map fun z => writeNum .f64 (.double (dequantize a z))

/-- What remains of a position. -/
def restoredPosition (t : Transforms) (p : P3 F64) : Option Bytes := do
  let x ← restoredCoordinate t.x p.x
  let y ← restoredCoordinate t.y p.y
  let z ← restoredCoordinate t.z p.z
  pure (x ++ y ++ z)

/-- The bit fields of format `n`. -/
def packedFields (n : Nat) : List (String × Nat × Nat) := if n ≤ 5 then packedBasic else packedExtended

/-- What remains of the value of an attribute that was written to a file of format `n` and read again: positions
    are quantised, bit fields reduced to their width, everything else is as before. -/
def restored (n : Nat) (t : Transforms) (p : Point) (name : String) : Option Bytes :=
  if name = "Position3D" then (lasPosition p).bind (restoredPosition t)
  else match (packedFields n).lookup name with
    | some (_, width) => (lasValue p name).map fun v => natLE 1 (leNat v % 2 ^ width)
    | none => lasValue p name

/-- The point of layout `l` that is read back. -/
def restoredPoint (n : Nat) (t : Transforms) (l : PointLayout) (p : Point) : Option Point :=
  l.attributes.mapM fun m => (restored n t p m.name).map fun v => (m.definition, v)

end Pasture.Spec
