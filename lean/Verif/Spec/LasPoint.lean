import Verif.Model.LasPoint
import Verif.Spec.Las
import Verif.Spec.Points
import Verif.Spec.Numbers
import Verif.Spec.Float

/-!
# What a converted point shows
-/

namespace Pasture.Spec
open Pasture.Las

/-- The value of the attribute with this name. -/
def valueNamed (q : Point) (name : String) : Option Bytes := (q.find? fun a => a.1.name = name).map Prod.snd

/-- The attribute is this integer of type `t`. -/
def HasInt (q : Point) (name : String) (t : Prim) (z : Int) : Prop := ∃ v, valueNamed q name = some v ∧ Holds t v z

/-- The attribute is this number in double precision. -/
def HasDouble (q : Point) (name : String) (x : F64) : Prop := ∃ v, valueNamed q name = some v ∧ HoldsF64 v x

/-- The attribute is this number in single precision. -/
def HasSingle (q : Point) (name : String) (x : F32) : Prop := ∃ v, valueNamed q name = some v ∧ HoldsF32 v x

/-- The attribute is a vector of three values of `size` bytes, of each of which this is true. -/
def HasVector (q : Point) (name : String) (size : Nat) (x y z : Bytes → Prop) : Prop :=
  ∃ v, valueNamed q name = some v ∧ v.length = 3 * size ∧ x (window v 0 size) ∧ y (window v size size) ∧
    z (window v (2 * size) size)

/-- The floating point numbers of the point are numbers of their format. -/
structure CrateValid (p : CratePoint) : Prop where
  x : p.x.mag < 2 ^ 63
  y : p.y.mag < 2 ^ 63
  z : p.z.mag < 2 ^ 63
  gps : ∀ t, p.gpsTime = some t → t.mag < 2 ^ 63
  wave : ∀ w, p.waveform = some w → w.location.mag < 2 ^ 31 ∧ w.xT.mag < 2 ^ 31 ∧ w.yT.mag < 2 ^ 31 ∧ w.zT.mag < 2 ^ 31

/-- Format `n` has this item. -/
def HasItem (n : Nat) (name : String) : Prop := name ∈ (lasItems n).map Prod.fst

instance (n : Nat) (name : String) : Decidable (HasItem n name) := by unfold HasItem; infer_instance

/-- `q` shows the values of `p`, as far as the point format `n` has them. -/
structure ShowsCratePoint (n : Nat) (p : CratePoint) (q : Point) : Prop where
  position : HasVector q "Position3D" 8 (HoldsF64 · p.x) (HoldsF64 · p.y) (HoldsF64 · p.z)
  intensity : HasInt q "Intensity" .u16 p.intensity.toNat
  returnNumber : HasInt q "ReturnNumber" .u8 p.returnNumber.toNat
  numberOfReturns : HasInt q "NumberOfReturns" .u8 p.numberOfReturns.toNat
  scanDirection : HasInt q "ScanDirectionFlag" .u8 (if p.scanDirection = .leftToRight then 1 else 0)
  edge : HasInt q "EdgeOfFlightLine" .u8 (if p.isEdgeOfFlightLine = true then 1 else 0)
  classification : HasInt q "Classification" .u8 p.classification.toNat
  /-- The part of the angle before the decimal point. -/
  scanAngle : ∃ a, HasInt q "ScanAngleRank" .i8 a ∧
    (p.scanAngle.isFinite = true → -129 < value p.scanAngle → value p.scanAngle < 128 → a = trunc (value p.scanAngle))
  userData : HasInt q "UserData" .u8 p.userData.toNat
  pointSourceId : HasInt q "PointSourceID" .u16 p.pointSourceId.toNat
  /-- The time; zero if the point has none. -/
  gpsTime : HasItem n "GpsTime" → HasDouble q "GpsTime" (match p.gpsTime with
    | some t => t
    | none => ⟨false, 0⟩)
  color : HasItem n "ColorRGB" → ∃ c, p.color = some c ∧
    HasVector q "ColorRGB" 2 (Holds .u16 · c.red.toNat) (Holds .u16 · c.green.toNat) (Holds .u16 · c.blue.toNat)
  waveform : HasItem n "WaveformDataOffset" → ∃ w, p.waveform = some w ∧
    HasInt q "WavePacketDescriptorIndex" .u8 w.descriptorIndex.toNat ∧
    HasInt q "WaveformDataOffset" .u64 w.byteOffset.toNat ∧ HasInt q "WaveformPacketSize" .u32 w.packetSize.toNat ∧
    HasSingle q "ReturnPointWaveformLocation" w.location ∧
    HasVector q "WaveformParameters" 4 (HoldsF32 · w.xT) (HoldsF32 · w.yT) (HoldsF32 · w.zT)

end Pasture.Spec
