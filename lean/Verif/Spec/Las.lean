import Verif.Model.Las
import Verif.Spec.Float

/-!
# Specification: LAS point records

The tables are those of the LAS 1.4 R15 specification, section 2.6 (point data record formats).
-/

namespace Pasture.Spec

open Las

/-- LAS 1.4, tables 7-17: the length of a point record of format `n`. -/
def lasRecordLength : Nat → Nat
  | 0 => 20 | 1 => 28 | 2 => 26 | 3 => 34 | 4 => 57 | 5 => 63
  | 6 => 30 | 7 => 36 | 8 => 38 | 9 => 59 | 10 => 67
  | _ => 0

/-- LAS 1.4, table 7: the items of a record of format 0 with their sizes. The three coordinates and
    the bit fields are one item each. -/
def items0 : List (String × Nat) :=
  [("LASLocalPosition", 12), ("Intensity", 2), ("LASBasicFlags", 1), ("Classification", 1),
   ("ScanAngleRank", 1), ("UserData", 1), ("PointSourceID", 2)]

/-- LAS 1.4, table 13: the items of a record of format 6. -/
def items6 : List (String × Nat) :=
  [("LASLocalPosition", 12), ("Intensity", 2), ("LASExtendedFlags", 2), ("Classification", 1),
   ("UserData", 1), ("ScanAngle", 2), ("PointSourceID", 2), ("GpsTime", 8)]

/-- The wave packet items of formats 4, 5, 9 and 10. -/
def wavePackets : List (String × Nat) :=
  [("WavePacketDescriptorIndex", 1), ("WaveformDataOffset", 8), ("WaveformPacketSize", 4),
   ("ReturnPointWaveformLocation", 4), ("WaveformParameters", 12)]

/-- LAS 1.4, tables 7-17: the items of a record of format `n`. -/
def lasItems : Nat → List (String × Nat)
  | 0 => items0
  | 1 => items0 ++ [("GpsTime", 8)]
  | 2 => items0 ++ [("ColorRGB", 6)]
  | 3 => items0 ++ [("GpsTime", 8), ("ColorRGB", 6)]
  | 4 => items0 ++ [("GpsTime", 8)] ++ wavePackets
  | 5 => items0 ++ [("GpsTime", 8), ("ColorRGB", 6)] ++ wavePackets
  | 6 => items6
  | 7 => items6 ++ [("ColorRGB", 6)]
  | 8 => items6 ++ [("ColorRGB", 6), ("NIR", 2)]
  | 9 => items6 ++ wavePackets
  | 10 => items6 ++ [("ColorRGB", 6), ("NIR", 2)] ++ wavePackets
  | _ => []

/-- Items one after another without gaps, starting at `o`: name, offset, size. -/
def placed (o : Nat) : List (String × Nat) → List (String × Nat × Nat)
  | [] => []
  | (n, s) :: rest => (n, o, s) :: placed (o + s) rest

/-- In memory the position is three `f64` and each bit field has a byte of its own. -/
def expandItem : String × Nat → List (String × Nat)
  | ("LASLocalPosition", _) => [("Position3D", 24)]
  | ("LASBasicFlags", _) =>
    [("ReturnNumber", 1), ("NumberOfReturns", 1), ("ScanDirectionFlag", 1), ("EdgeOfFlightLine", 1)]
  | ("LASExtendedFlags", _) =>
    [("ReturnNumber", 1), ("NumberOfReturns", 1), ("ClassificationFlags", 1), ("ScannerChannel", 1),
     ("ScanDirectionFlag", 1), ("EdgeOfFlightLine", 1)]
  | item => [item]

/-- Name, offset and size of each attribute of a layout. -/
def shape (l : PointLayout) : List (String × Nat × Nat) :=
  l.attributes.map fun m => (m.name, m.offset, m.size)

/-- The optional parts of format `n`: GPS time, colour, near infrared, wave packets, and whether it is
    one of the formats of LAS 1.4. -/
def lasOptions (n : Nat) : Bool × Bool × Bool × Bool × Bool :=
  ((lasItems n).any (·.1 = "GpsTime"), (lasItems n).any (·.1 = "ColorRGB"), (lasItems n).any (·.1 = "NIR"),
    (lasItems n).any (·.1 = "WaveformDataOffset"), decide (6 ≤ n))

/-- The optional parts a format has. -/
def optionsOf (f : Format) : Bool × Bool × Bool × Bool × Bool :=
  (f.hasGpsTime, f.hasColor, f.hasNir, f.hasWaveform, f.isExtended)

/-- Some point format has exactly these optional parts. -/
def ValidOptions (o : Bool × Bool × Bool × Bool × Bool) : Prop := ∃ n ∈ List.range 11, lasOptions n = o

instance (o : Bool × Bool × Bool × Bool × Bool) : Decidable (ValidOptions o) := by
  unfold ValidOptions; infer_instance

/-- The exact position of the stored coordinate `z`. -/
def gridPosition (a : Axis) (z : Int) : ℚ := z * value a.scale + value a.offset

/-- Scale and offset of an axis are numbers and the scale is not zero (the writer refuses zero). -/
def FiniteAxis (a : Axis) : Prop := a.scale.isFinite = true ∧ a.offset.isFinite = true ∧ value a.scale ≠ 0

/-- Scale and offset of an axis are such that positions do not overflow and the offset is not so large
    that it swallows single steps. -/
structure OrdinaryAxis (a : Axis) : Prop where
  finite : FiniteAxis a
  scale : |value a.scale| ≤ 2 ^ 900
  offset : |value a.offset| ≤ 2 ^ 50 * |value a.scale|

end Pasture.Spec
