import Verif.Model.PntsOpen
import Verif.Model.Bounds

/-!
# Model of `impl Metadata for PntsMetadata` (`pasture-io/src/tiles3d/pnts_metadata.rs`)
-/

namespace Pasture.Tiles3d

/-- The values behind the `Box<dyn Any>` of `get_named_field`, by their type. -/
inductive PntsField where
  | double (v : P3 F64)
  | single (v : P3 F32)
  | color (v : List Byte)
  | length (v : Option Nat)

namespace PntsMetadata

/-- `bounds`, pnts_metadata.rs:52-54. -/
def bounds (_ : PntsMetadata) : Option (AABB F64) := none

/-- `number_of_points`, pnts_metadata.rs:56-58. -/
def numberOfPoints (md : PntsMetadata) : Option Nat := some md.pointsLength

/-- `get_named_field`, pnts_metadata.rs:60-73. The last field is boxed as an `Option`. -/
def getNamedField (md : PntsMetadata) (name : String) : Option PntsField :=
  if name = "RTC_CENTER" then md.rtcCenter.map .double
  else if name = "QUANTIZED_VOLUME_OFFSET" then md.quantizedVolumeOffset.map .single
  else if name = "QUANTIZED_VOLUME_SCALE" then md.quantizedVolumeScale.map .single
  else if name = "CONSTANT_RGBA" then md.constantRgba.map .color
  else if name = "BATCH_LENGTH" then some (.length md.batchLength)
  else none

end PntsMetadata

end Pasture.Tiles3d
