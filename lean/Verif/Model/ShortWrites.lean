import Verif.Model.Pnts

/-!
# Model of the writer of 3D Tiles point clouds on a destination that takes fewer bytes than it is offered

`std::io::Write::write` may take only some of the bytes it is offered, and says how many; `write_all` calls it until
all of them are taken. This file models the part of `PntsWriter` that writes the file (pnts_writer.rs:158-228, 300-332)
with this difference. The destination is empty at the beginning; its position is the number of bytes in it. An
`ErrorKind::Interrupted`, after which `write_all` tries again, is not modelled.
-/

namespace Pasture.Tiles3d

open BorrowedBuffer

/-- `W: Write + Seek`: the bytes taken so far, the number of calls so far, and what a call with so many bytes on offer
    does: it fails, or takes that many of them. -/
structure Destination where
  data : Bytes
  calls : Nat
  takes : Nat → Nat → Option Nat

namespace Destination

/-- `Write::write`: the number of bytes taken. -/
def write (d : Destination) (b : Bytes) : Out (Nat × Destination) :=
  match d.takes d.calls b.length with
  | none => .error .err
  | some k => .ok (min k b.length, { d with data := d.data ++ b.take k, calls := d.calls + 1 })

/-- The loop of `Write::write_all`; every turn takes at least one byte, so `b.length` turns are enough. -/
def writeAllLoop : Nat → Destination → Bytes → Out Destination
  | _, d, [] => .ok d
  | 0, _, _ :: _ => .error .err
  | turns + 1, d, x :: b => do
    let (n, d) ← d.write (x :: b)
    bailIf (n = 0)
    writeAllLoop turns d ((x :: b).drop n)

/-- `Write::write_all`. -/
def writeAll (d : Destination) (b : Bytes) : Out Destination := writeAllLoop b.length d b

end Destination

/-- What `bincode::serialize_into` hands to `write_all` for a `PntsHeader`, pnts_writer.rs:214. -/
def PntsHeader.pieces (h : PntsHeader) : List Bytes :=
  h.magic.map (fun x => [x]) ++ [natLE 4 h.version, natLE 4 h.byteLength, natLE 4 h.featureTableJson,
    natLE 4 h.featureTableBinary, natLE 4 h.batchTableJson, natLE 4 h.batchTableBinary]

namespace PntsWriter

/-- Body of the loop of `write_feature_table_body`, pnts_writer.rs:303-320. -/
def writeColumnTo (w : PntsWriter) (d : Destination) (m : Member) : Out Destination := do
  let n := len w.cachedPoints
  let column ← ColumnarBuffer.getAttributeRangeRef w.cachedPoints m.definition ⟨0, n⟩
  let d ← d.writeAll column
  let size := m.size * n
  let padding := alignTo size maxAlignment - size
  if padding ≠ 0 then d.writeAll (zeros padding) else pure d

/-- `write_feature_table_body`, pnts_writer.rs:300-332. -/
def writeFeatureTableBodyTo (w : PntsWriter) (d : Destination) : Out Destination := do
  let d ← forLoop w.defaultLayout.attributes d w.writeColumnTo
  let padding := alignTo d.data.length 8 - d.data.length
  if padding > 0 then d.writeAll (zeros padding) else pure d

/-- `write_cached_points`, pnts_writer.rs:158-228. The feature table (216-218) and the batch table (220-222) are handed
    to `write`, the number it returns is not looked at. -/
def writeCachedPointsTo (J : JsonText) (w : PntsWriter) (d : Destination) : Out Destination := do
  let table ← w.createFeatureTable
  let featureTable := featureTableHeader J table headerLength
  let featureTableSize := featureTable.length
  let bodySize := w.calcFeatureTableBodyLength
  let bodySizeAligned := alignTo (headerLength + featureTableSize + bodySize) 8 - (headerLength + featureTableSize)
  let startOfBatchTable := headerLength + featureTableSize + bodySizeAligned
  let batchTable := jsonHeader J (.object []) startOfBatchTable
  let batchTableSize := batchTable.length
  let batchTableBodySize := 0
  let total := startOfBatchTable + batchTableSize + batchTableBodySize
  let total ← toU32 total
  let featureTableSize ← toU32 featureTableSize
  let bodySizeAligned ← toU32 bodySizeAligned
  let batchTableSize ← toU32 batchTableSize
  let batchTableBodySize ← toU32 batchTableBodySize
  let header : PntsHeader :=
    ⟨magicBytes, 1, total, featureTableSize, bodySizeAligned, batchTableSize, batchTableBodySize⟩
  let d ← forLoop header.pieces d Destination.writeAll
  let (_, d) ← d.write featureTable
  let d ← w.writeFeatureTableBodyTo d
  let (_, d) ← d.write batchTable
  pure d

/-- `flush`, pnts_writer.rs:391-396, on a writer over the destination `d`: the destination afterwards. -/
def flushTo (J : JsonText) (w : PntsWriter) (d : Destination) : Out Destination :=
  if ¬ w.requiresFlush then pure d else w.writeCachedPointsTo J d

end PntsWriter

end Pasture.Tiles3d
