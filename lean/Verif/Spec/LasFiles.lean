import Verif.Model.LasFiles
import Verif.Spec.LasWriter

/-!
# Specification: what survives writing points to a LAS file and reading them again
-/

namespace Pasture.Spec

open Pasture.Las

/-- Point format `n` has exactly the optional parts that attributes of the layout ask for. -/
def FormatFor (l : PointLayout) (n : Nat) : Prop :=
  n ≤ 10 ∧ lasOptions n =
    (l.hasAttributeWithName "GpsTime", l.hasAttributeWithName "ColorRGB", l.hasAttributeWithName "NIR",
      ["WavePacketDescriptorIndex", "WaveformDataOffset", "WaveformPacketSize", "ReturnPointWaveformLocation",
        "WaveformParameters"].any l.hasAttributeWithName,
      ["NIR", "ScanAngle", "ScannerChannel", "ClassificationFlags"].any l.hasAttributeWithName)

/-- Attributes with the name of a LAS attribute have its type. -/
def LasTyped (l : PointLayout) : Prop :=
  ∀ m ∈ l.attributes, ∀ type, lasTypes.lookup m.name = some type → m.definition.datatype = type

/-- The coordinates are numbers within 2147483 metres of the origin. -/
def InMillimetreRange (p : P3 F64) : Prop := Coords (fun x => x.isFinite = true ∧ |value x| ≤ 2147483) p

/-- The coordinates differ by less than 1.001 mm. -/
def WithinMillimetre (p q : P3 F64) : Prop :=
  |value p.x - value q.x| < 1.001 / 1000 ∧ |value p.y - value q.y| < 1.001 / 1000 ∧
    |value p.z - value q.z| < 1.001 / 1000

/-- Bit fields of format `n` have values they can hold. -/
def BitsFit (n : Nat) (p : Point) : Prop :=
  ∀ fd ∈ packedFields n, ∀ a ∈ p, a.1.name = fd.1 → leNat a.2 < 2 ^ fd.2.2

/-- What has to be left of the point `p` in the file of format `n`: its LAS attributes have the values they had,
    positions up to rounding; only scan angle ranks get lost in formats that have scan angles instead. All other
    attributes of the new point are zero. -/
structure Survives (n : Nat) (p q : Point) : Prop where
  value : ∀ a ∈ p, a.1.name ≠ "Position3D" → (lasTypes.lookup a.1.name).isSome = true →
    (a.1.name = "ScanAngleRank" → n ≤ 5) → a ∈ q
  position : ∀ a ∈ p, a.1.name = "Position3D" → ∃ v, (a.1, v) ∈ q ∧ WithinMillimetre (positionOf a.2) (positionOf v)
  rest : ∀ a ∈ q, (∀ b ∈ p, b.1.name ≠ a.1.name) → a.2 = List.replicate a.1.size 0
  ranks : 6 ≤ n → ∀ a ∈ q, a.1.name ≠ "ScanAngleRank"

end Pasture.Spec
