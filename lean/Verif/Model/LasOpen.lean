import Verif.Model.LasReader
import Verif.Model.LasVlrs

/-!
# Opening LAS and LAZ files

From what the crate `las` reads out of the file header and the VLRs to a reader. Reading the header, decoding it and
setting up the decompressor are the work of the crates `las` and `laz`.
-/

namespace Pasture.Las

/-- The parts of the metadata that determine the layout. -/
def FileMetadata.layoutPart (m : FileMetadata) : LasMetadata := ⟨m.format, m.extraBytes⟩

/-- `RawLASReader::from_read`, raw_readers.rs:220-240. -/
def openLasFile (lossy : Bytes → String) (h : FileHeader) (data : Bytes) (t : Transforms) (offset size : Nat)
    (exact : Bool) : Out RawLasReader := do
  let m ← metadataOfHeader lossy h
  openLas data m.layoutPart m.pointCount t offset size exact

/-- `RawLAZReader::from_read`, raw_readers.rs:450-500: formats 9 and 10 are rejected before anything else is looked at. -/
def openLazFile (lossy : Bytes → String) (h : FileHeader) (records : List Bytes) (t : Transforms) (offset size : Nat)
    (exact : Bool) : Out RawLazReader := do
  bailIf (h.format.isExtended && h.format.hasWaveform)
  let m ← metadataOfHeader lossy h
  openLaz records m.layoutPart m.pointCount t offset size exact

end Pasture.Las
