import Verif.Model.LasWriter
import Verif.Model.BaseIo

/-!
# Model of whole LAS and LAZ files: `LASWriter`, `write_all`, `read_all`

`pasture-io/src/las/las_writer.rs`, `las_reader.rs` and `pasture-io/src/base/mod.rs`. A file is its header, as the
`las` crate parses it, and its contents. `encode` (with results of `size` bytes) is `raw::Header::write_to` of the
`las` crate. Which of the two formats a file name stands for is `openFile` (BaseIo).
-/

namespace Pasture.Las

/-- Scale 0.001 and offset 0, las_writer.rs:40-53. -/
def defaultAxis : Axis := ⟨.ofBits .f64 0x3F50624DD2F1A9FC, .zero .f64⟩

/-- The header for a layout, las_writer.rs:37-56. `Builder::into_header` and `Header::into_raw` (crate `las`) refuse
    formats without a number; the counts and bounds are overwritten by the writers. -/
def headerForLayout (l : PointLayout) : Out (Format × LasHeader) := do
  let f ← formatFromPointLayout l
  let n ← f.toU8
  let origin : P3 F64 := ⟨.zero .f64, .zero .f64, .zero .f64⟩
  pure (f, {
    min := origin, max := origin, transforms := ⟨defaultAxis, defaultAxis, defaultAxis⟩, format := n,
    recordLength := f.len, legacyCount := 0, legacyByReturn := List.replicate 5 0, count := 0,
    byReturn := List.replicate 15 0 })

/-- `LASWriter::from_writer_and_point_layout` without compression, las_writer.rs:31-73. The header has no VLRs, so the
    points start behind it. -/
def lasWriterForLayout (encode : LasHeader → Bytes) (size : Nat) (l : PointLayout) : Out RawLasWriter := do
  let (f, header) ← headerForLayout l
  RawLasWriter.new encode ⟨f, none⟩ header [] [] size

/-- `LASWriter::from_writer_and_point_layout` with compression. -/
def lazWriterForLayout (l : PointLayout) : Out RawLazWriter := do
  let (f, header) ← headerForLayout l
  RawLazWriter.new ⟨f, none⟩ header

/-- A LAS file. -/
structure LasContents where
  header : LasHeader
  data : Bytes

/-- A LAZ file: the records in it, without compression. -/
structure LazContents where
  header : LasHeader
  records : List Bytes

end Pasture.Las

namespace Pasture.BaseIo

open Las BorrowedBuffer

/-- `write_all` to a LAS file, base/mod.rs:57-72, with io_factory.rs:124-131 and las_writer.rs:93-118. -/
def writeAllLas {β : Type} [BorrowedBuffer β] (encode : LasHeader → Bytes) (size : Nat) (b : β) : Out LasContents := do
  let w ← lasWriterForLayout encode size (layout b)
  let w ← w.write b
  let w := w.flush encode
  pure ⟨w.header, w.writer.data⟩

/-- `write_all` to a LAZ file. -/
def writeAllLaz {β : Type} [BorrowedBuffer β] (b : β) : Out LazContents := do
  let w ← lazWriterForLayout (layout b)
  let w ← w.write b
  let w := w.flush
  pure ⟨w.header, (List.range (w.handed.length / w.header.recordLength)).map fun i =>
    (w.handed.drop (i * w.header.recordLength)).take w.header.recordLength⟩

/-- What `las::Header` and `LASMetadata` say about a file without VLRs: whatever the records have beyond the point
    format are extra bytes. -/
def metadataOf (h : LasHeader) : Out LasMetadata := do
  let f ← Format.new (h.format % 64)
  pure ⟨{ f with extraBytes := h.recordLength - f.len }, none⟩

/-- `read_all` of a LAS file, base/mod.rs:24-37, with io_factory.rs:54-60 and las_reader.rs:90-126. The number of points
    is known from the header. -/
def readAllLas (β : Type) [OwningBuffer β] [AsMemoryMut β] [MakeBufferFromLayout β] (size max : Nat) (file : LasContents) :
    Out β := do
  let md ← metadataOf file.header
  let r ← openLas file.data md file.header.count file.header.transforms size file.header.recordLength false
  let (b, _) ← readAll β max r (some file.header.count)
  pure b

/-- `read_all` of a LAZ file. -/
def readAllLaz (β : Type) [OwningBuffer β] [AsMemoryMut β] [MakeBufferFromLayout β] (size max : Nat) (file : LazContents) :
    Out β := do
  let md ← metadataOf file.header
  let r ← openLaz file.records md file.header.count file.header.transforms size file.header.recordLength false
  let (b, _) ← readAll β max r (some file.header.count)
  pure b

end Pasture.BaseIo
