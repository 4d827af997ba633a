import Verif.Model.LasMetadata
import Verif.Model.BufferConvert

/-!
# Model of the LAS and LAZ readers (`pasture-io/src/las/raw_readers.rs`) and of the reader traits
(`pasture-io/src/base/reader.rs`, `seek.rs`)

The stream a reader reads from is a byte list with a position; a LAZ stream is the list of bytes its
records have after decompression (the `laz` crate is not modelled). A read that fails part-way leaves the
reader in an unspecified state, so a failing call returns no state. `as_interleaved_mut` is the optional
class instance of `AsMemoryMut`. Point counts and byte positions are natural numbers (no overflow of
`usize`/`u64`), except for the `i64` arithmetic of `seek_point`.
-/

namespace Pasture.Las

open BorrowedBuffer BorrowedMutBuffer

/-! ## Byte streams -/

/-- Where point records come from. -/
class RecordSource (σ : Type) where
  /-- `Read::read_exact` / `LasZipDecompressor::decompress_many` on a slice with the given old contents:
      its new contents. -/
  fill : σ → Bytes → Out Bytes
  /-- The stream after such a call on a slice of `n` bytes. -/
  advance : σ → Nat → σ
  /-- The stream after seeking to record `i`, for records of `size` bytes starting at `offset`. -/
  toRecord : (offset size : Nat) → σ → Nat → σ

/-- `T: Read + Seek`. -/
structure Stream where
  data : Bytes
  pos : Nat

/-- `read_exact` fails when the stream ends too early, but never on an empty slice; seeking never fails. The position of record `i`:
    raw_readers.rs:407-410. -/
instance : RecordSource Stream where
  fill s old :=
    if old.length = 0 ∨ s.pos + old.length ≤ s.data.length then .ok ((s.data.drop s.pos).take old.length) else .error .err
  advance s n := { s with pos := s.pos + n }
  toRecord offset size s i := { s with pos := offset + i * size }

/-- `LasZipDecompressor`, as the records it has after decompression and the index of the next one. -/
structure LazStream where
  itemSize : Nat
  records : List Bytes
  next : Nat

/-- `decompress_many` decompresses one record into each whole chunk of `itemSize` bytes; a remainder of
    the slice is left alone. -/
instance : RecordSource LazStream where
  fill s old :=
    let n := old.length / s.itemSize
    if n = 0 ∨ s.next + n ≤ s.records.length then .ok (put old 0 ((s.records.drop s.next).take n).flatten)
    else .error .err
  advance s n := { s with next := s.next + n / s.itemSize }
  toRecord _ _ s i := { s with next := i }

/-! ## The default converter -/

/-- A closure on `Vector3<T>` that treats the three components separately, `p` being `T`. -/
def onComponents (p : Prim) (fx fy fz : Num → Num) (v : Bytes) : Bytes :=
  writeNum p (fx (readNum p (v.take p.size))) ++
    writeNum p (fy (readNum p ((v.drop p.size).take p.size))) ++
    writeNum p (fz (readNum p ((v.drop (2 * p.size)).take p.size)))

/-- The position transformations of a header, `las::Vector<Transform>`. -/
structure Transforms where
  x : Axis
  y : Axis
  z : Axis

/-- `(v * scale) + offset` on an f64 component, raw_readers.rs:44-46. -/
def toWorld64 (a : Axis) : Num → Num
  | .double v => .double ((v.mul a.scale).add a.offset)
  | n => n

/-- `((v as f64 * scale) + offset) as f32` on an f32 component, raw_readers.rs:51-53. -/
def toWorld32 (a : Axis) : Num → Num
  | .single v => .single ((((v.cast .f64).mul a.scale).add a.offset).cast .f32)
  | n => n

/-- A closure `|flags: u8| -> u8 { (flags >> k) & mask }`. -/
def bits8 (k mask : Nat) (v : Bytes) : Bytes := natLE 1 ((leNat v >>> k) &&& mask)

/-- A closure `|flags: u16| -> u16 { (flags >> k) & mask }`. -/
def bits16 (k mask : Nat) (v : Bytes) : Bytes := natLE 2 ((leNat v >>> k) &&& mask)

/-- The position part of `get_default_las_converter`, raw_readers.rs:38-58. -/
def mapPosition (conv : BufferLayoutConverter) (target : PointLayout) (t : Transforms) :
    Out BufferLayoutConverter :=
  match target.getAttributeByName position3D.name with
  | none => pure conv
  | some m =>
    match m.datatype with
    | .vec3f64 => conv.setCustomMappingWithTransformation localPosition m.definition .vec3f64
        (onComponents .f64 (toWorld64 t.x) (toWorld64 t.y) (toWorld64 t.z)) false
    | .vec3f32 => conv.setCustomMappingWithTransformation localPosition m.definition .vec3f32
        (onComponents .f32 (toWorld32 t.x) (toWorld32 t.y) (toWorld32 t.z)) false
    | _ => .error .err

/-- One `if let Some(attribute) = target_layout.get_attribute_by_name(..) { .. }` of
    raw_readers.rs:61-165. -/
def mapFlag (source : AttrDef) (ty : DataType) (target : PointLayout) (conv : BufferLayoutConverter)
    (name : String) (f : Bytes → Bytes) : Out BufferLayoutConverter :=
  match target.getAttributeByName name with
  | none => pure conv
  | some m => conv.setCustomMappingWithTransformation source m.definition ty f true

/-- `get_default_las_converter`, raw_readers.rs:31-167. -/
def defaultConverter (raw target : PointLayout) (t : Transforms) : Out BufferLayoutConverter := do
  let conv ← BufferLayoutConverter.forLayoutsWithDefault raw target
  let conv ← mapPosition conv target t
  if raw.hasAttribute basicFlags then
    let conv ← mapFlag basicFlags .u8 target conv returnNumber.name (bits8 0 7)
    let conv ← mapFlag basicFlags .u8 target conv numberOfReturns.name (bits8 3 7)
    let conv ← mapFlag basicFlags .u8 target conv scanDirectionFlag.name (bits8 6 1)
    mapFlag basicFlags .u8 target conv edgeOfFlightLine.name (bits8 7 1)
  else
    let conv ← mapFlag extendedFlags .u16 target conv returnNumber.name (bits16 0 15)
    let conv ← mapFlag extendedFlags .u16 target conv numberOfReturns.name (bits16 4 15)
    let conv ← mapFlag extendedFlags .u16 target conv classificationFlags.name (bits16 8 15)
    let conv ← mapFlag extendedFlags .u16 target conv scannerChannel.name (bits16 12 3)
    let conv ← mapFlag extendedFlags .u16 target conv scanDirectionFlag.name (bits16 14 1)
    mapFlag extendedFlags .u16 target conv edgeOfFlightLine.name (bits16 15 1)

/-! ## The readers -/

/-- `RawLASReader`, raw_readers.rs:175-183, and `RawLAZReader` 418-425 (which has no offset). Of the
    metadata the readers use the point count and the transforms. -/
structure RawReader (σ : Type) where
  reader : σ
  pointCount : Nat
  transforms : Transforms
  layout : PointLayout
  recordsLayout : PointLayout
  currentPointIndex : Nat
  offsetToFirstPoint : Nat
  sizeOfPoint : Nat

abbrev RawLasReader := RawReader Stream
abbrev RawLazReader := RawReader LazStream

namespace RawReader

variable {σ : Type} [RecordSource σ]

/-- The second half of `RawLASReader::from_read`, raw_readers.rs:216-240, and `RawLAZReader::from_read`
    457-487: from what the header says (`las` crate) to a reader before the first point. -/
def ofHeader (s : σ) (md : LasMetadata) (count : Nat) (t : Transforms) (offset size : Nat) (exact : Bool) :
    Out (RawReader σ) := do
  let layout ← pointLayoutFromMetadata md exact
  let recordsLayout ← pointLayoutFromMetadata md true
  pure ⟨s, count, t, layout, recordsLayout, 0, offset, size⟩

/-- `remaining_points`, raw_readers.rs:356-358, 577-579. -/
def remainingPoints (r : RawReader σ) : Nat := r.pointCount - r.currentPointIndex

/-- Body of the chunk loop of `read_into_default_layout`, raw_readers.rs:273-291, 519-537. -/
def readChunk {β : Type} [BorrowedMutBuffer β] (size perChunk numChunks n : Nat) (state : σ × β)
    (k : Nat) : Out (σ × β) := do
  let bytesInChunk := if k = numChunks - 1 then (n - k * perChunk) * size else perChunk * size
  let chunk ← sliceGet (zeros (perChunk * size)) 0 bytesInChunk
  let chunk ← RecordSource.fill state.1 chunk
  let b ← setPointRange state.2 ⟨k * perChunk, min ((k + 1) * perChunk) n⟩ chunk
  pure (RecordSource.advance state.1 bytesInChunk, b)

/-- `read_into_default_layout`, raw_readers.rs:247-297, 493-543: returns the number of points read, the
    buffer and the reader. Division by a record size of zero panics. -/
def readIntoDefaultLayout {β : Type} [BorrowedMutBuffer β] [AsMemoryMut β] (r : RawReader σ) (b : β)
    (count : Nat) : Out (Nat × β × RawReader σ) := do
  let n := min count r.remainingPoints
  if n = 0 then return (0, b, r)
  match AsMemoryMut.asInterleavedMut (β := β) with
  | some _ =>
    let b ← InterleavedBufferMut.getPointRangeMut b ⟨0, n⟩ (RecordSource.fill r.reader)
    let reader := RecordSource.advance r.reader (n * (BorrowedBuffer.layout b).size)
    pure (n, b, { r with reader, currentPointIndex := r.currentPointIndex + n })
  | none =>
    assertThat (r.sizeOfPoint ≠ 0)
    let perChunk := 2 ^ 20 / r.sizeOfPoint
    assertThat (perChunk ≠ 0)
    let numChunks := (n + perChunk - 1) / perChunk
    let (reader, b) ← forLoop (List.range numChunks) (r.reader, b) (readChunk r.sizeOfPoint perChunk numChunks n)
    pure (n, b, { r with reader, currentPointIndex := r.currentPointIndex + n })

/-- Body of the chunk loop of `RawLASReader::read_into_custom_layout`, raw_readers.rs:333-349. -/
def convertChunk {β : Type} [BorrowedMutBuffer β] [AsMemoryMut β] (conv : BufferLayoutConverter)
    (sizeOfChunk numChunks n : Nat) (state : RawReader σ × VectorBuffer × β) (k : Nat) :
    Out (RawReader σ × VectorBuffer × β) := do
  let points := if k = numChunks - 1 then n - (numChunks - 1) * sizeOfChunk else sizeOfChunk
  let (_, scratch, r) ← state.1.readIntoDefaultLayout state.2.1 points
  let first := k * sizeOfChunk
  let b ← conv.convertIntoRange scratch ⟨0, points⟩ state.2.2 ⟨first, first + points⟩
  pure (r, scratch, b)

/-- `RawLASReader::read_into_custom_layout`, raw_readers.rs:299-352. -/
def readIntoCustomLayout {β : Type} [BorrowedMutBuffer β] [AsMemoryMut β] (r : RawReader σ) (b : β)
    (count : Nat) : Out (Nat × β × RawReader σ) := do
  let n := min count r.remainingPoints
  if n = 0 then return (0, b, r)
  assertThat (r.recordsLayout.size ≠ 0)
  let perChunk := 2 ^ 20 / r.recordsLayout.size
  assertThat (perChunk ≠ 0)
  let numChunks := (n + perChunk - 1) / perChunk
  let sizeOfChunk := if numChunks > 1 then perChunk else n
  let scratch : VectorBuffer := OwningBuffer.resize (MakeBufferFromLayout.newFromLayout r.recordsLayout) sizeOfChunk
  let conv ← defaultConverter r.recordsLayout (BorrowedBuffer.layout b) r.transforms
  let (r, _, b) ← forLoop (List.range numChunks) (r, scratch, b) (convertChunk conv sizeOfChunk numChunks n)
  pure (n, b, r)

/-- `RawLAZReader::read_into_custom_layout`, raw_readers.rs:545-573: in one piece, and the converter is
    made after reading. -/
def readIntoCustomLayoutAtOnce {β : Type} [BorrowedMutBuffer β] [AsMemoryMut β] (r : RawReader σ) (b : β)
    (count : Nat) : Out (Nat × β × RawReader σ) := do
  let n := min count r.remainingPoints
  if n = 0 then return (0, b, r)
  let scratch : VectorBuffer := OwningBuffer.resize (MakeBufferFromLayout.newFromLayout r.recordsLayout) n
  let (_, scratch, r') ← r.readIntoDefaultLayout scratch n
  let conv ← defaultConverter r.recordsLayout (BorrowedBuffer.layout b) r.transforms
  let b ← conv.convertInto scratch b
  pure (n, b, r')

end RawReader

/-- `RawLASReader::from_read`, raw_readers.rs:191-240. Parsing the header is left to the `las` crate; what
    it yields is given. -/
def openLas (data : Bytes) (md : LasMetadata) (count : Nat) (t : Transforms) (offset size : Nat) (exact : Bool) :
    Out RawLasReader := RawReader.ofHeader ⟨data, offset⟩ md count t offset size exact

/-- `RawLAZReader::from_read`, raw_readers.rs:428-487: formats 9 and 10 are rejected (451-455). -/
def openLaz (records : List Bytes) (md : LasMetadata) (count : Nat) (t : Transforms) (offset size : Nat)
    (exact : Bool) : Out RawLazReader := do
  bailIf (md.format.isExtended && md.format.hasWaveform)
  RawReader.ofHeader ⟨size, records, 0⟩ md count t offset size exact

/-- `std::io::SeekFrom`; the argument of `Start` is a `u64`, the others are `i64`. -/
inductive SeekFrom where
  | start (n : Nat)
  | fromEnd (k : Int)
  | current (k : Int)

namespace RawReader

variable {σ : Type} [RecordSource σ]

/-- `new_position`, raw_readers.rs:396-400, 617-621. `i64` arithmetic wraps (with overflow checks it
    panics instead). -/
def newPosition (r : RawReader σ) : SeekFrom → Int
  | .start n => wrapInt .i64 n
  | .fromEnd k => wrapInt .i64 (wrapInt .i64 r.pointCount + k)
  | .current k => wrapInt .i64 (wrapInt .i64 r.currentPointIndex + k)

/-- `seek_point`, raw_readers.rs:395-415, 616-634. -/
def seekPoint (r : RawReader σ) (position : SeekFrom) : Out (Nat × RawReader σ) :=
  let new := r.newPosition position
  if new < 0 then panicked
  else
    let clamped := (wrapInt .u64 (min (wrapInt .i64 r.pointCount) new)).toNat
    let r := if r.currentPointIndex ≠ clamped then
        { r with
          reader := RecordSource.toRecord r.offsetToFirstPoint r.sizeOfPoint r.reader clamped
          currentPointIndex := clamped }
      else r
    pure (r.currentPointIndex, r)

end RawReader

/-! ## The reader traits -/

/-- `PointReader`, base/reader.rs:7-39. `get_metadata` is left out. The buffer type is a parameter of
    `read_into`, so the class has one method for every buffer type. -/
class PointReader (ρ : Type) where
  readInto : {β : Type} → [BorrowedMutBuffer β] → [AsMemoryMut β] → ρ → β → Nat → Out (Nat × β × ρ)
  defaultLayout : ρ → PointLayout

/-- `SeekToPoint::seek_point`, base/seek.rs:12. -/
class SeekToPoint (ρ : Type) where
  seekPoint : ρ → SeekFrom → Out (Nat × ρ)

/-- `read_into`, raw_readers.rs:366-383. -/
instance : PointReader RawLasReader where
  readInto r b count := do
    if len b < count then panicked
    else if layout b ≠ r.recordsLayout then r.readIntoCustomLayout b count
    else r.readIntoDefaultLayout b count
  defaultLayout r := r.layout

/-- `read_into`, raw_readers.rs:587-605. -/
instance : PointReader RawLazReader where
  readInto r b count := do
    if len b < count then panicked
    else if layout b ≠ r.recordsLayout then r.readIntoCustomLayoutAtOnce b count
    else r.readIntoDefaultLayout b count
  defaultLayout r := r.layout

instance {σ : Type} [RecordSource σ] : SeekToPoint (RawReader σ) where
  seekPoint := RawReader.seekPoint

/-- `PointReader::read` (provided method), base/reader.rs:23-32. -/
def readPoints {ρ : Type} [PointReader ρ] (β : Type) [OwningBuffer β] [AsMemoryMut β] [MakeBufferFromLayout β]
    (r : ρ) (count : Nat) : Out (β × ρ) := do
  let b : β := MakeBufferFromLayout.newFromLayout (PointReader.defaultLayout r)
  let b := OwningBuffer.resize b count
  let (actual, b, r) ← PointReader.readInto r b count
  pure (OwningBuffer.resize b actual, r)

/-- `SeekToPoint::point_index` (provided method), base/seek.rs:15-17. -/
def pointIndex {ρ : Type} [SeekToPoint ρ] (r : ρ) : Out (Nat × ρ) :=
  SeekToPoint.seekPoint r (.current 0)

/-- `SeekToPoint::point_count` (provided method), base/seek.rs:19-24. -/
def pointCount {ρ : Type} [SeekToPoint ρ] (r : ρ) : Out (Nat × ρ) := do
  let (cur, r) ← pointIndex r
  let (n, r) ← SeekToPoint.seekPoint r (.fromEnd 0)
  let (_, r) ← SeekToPoint.seekPoint r (.start cur)
  pure (n, r)

end Pasture.Las
