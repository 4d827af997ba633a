import Verif.Model.LasReader
import Verif.Model.Bounds

/-!
# Model of the LAS and LAZ writers (`pasture-io/src/las/raw_writers.rs`, `read_helpers.rs`,
`write_helpers.rs`)

The stream a LAS writer writes to is a byte list with a position; writing overwrites and extends, and never
fails. What the `laz` crate does with the bytes it is given is not modelled: the model records those bytes.
Of `las::raw::Header` the fields the writers use are modelled, and its binary form is a parameter. A call that
fails part-way returns no state. Counts are natural numbers (no overflow of `u64`).
-/

namespace Pasture.Las

open BorrowedBuffer

/-- `Write::write_all`: overwrite from the current position on, extending the stream if necessary (with zeros
    up to the position). -/
def Stream.write (s : Stream) (b : Bytes) : Stream :=
  let d := s.data ++ zeros (s.pos - s.data.length)
  ⟨d.take s.pos ++ b ++ d.drop (s.pos + b.length), s.pos + b.length⟩

/-- `Seek::seek(SeekFrom::Start(n))`. -/
def Stream.seek (s : Stream) (n : Nat) : Stream := { s with pos := n }

/-- `Read::read_exact` on the rest of a cursor: the bytes read and the new rest. -/
def readExact (k : Nat) (c : Bytes) : Out (Bytes × Bytes) :=
  if k ≤ c.length then .ok (c.take k, c.drop k) else .error .err

/-! ## The header -/

/-- The fields of `las::raw::Header` the writers use. The `large_file` field is always present: the
    constructors set it (raw_writers.rs:116, 639; for LAZ it is assumed to survive the
    round trip through the `las` crate in 670-691). -/
structure LasHeader where
  min : P3 F64
  max : P3 F64
  transforms : Transforms
  /-- `point_data_record_format`; bit 7 marks compression. -/
  format : Nat
  recordLength : Nat
  /-- `number_of_point_records` and `number_of_points_by_return` (5 entries), the legacy counts. -/
  legacyCount : Nat
  legacyByReturn : List Nat
  /-- The same (15 entries) in `large_file`. -/
  count : Nat
  byReturn : List Nat
  /-- `start_of_first_evlr`, made by the `las` crate from the header given to the writer
      (raw_writers.rs:111, 634). -/
  evlrStart : Nat := 0

/-- `update_bounds_in_las_header`, raw_writers.rs:28-47. -/
def LasHeader.updateBounds (h : LasHeader) (p : P3 F64) : LasHeader :=
  { h with
    min := ⟨if Flt.lt p.x h.min.x then p.x else h.min.x, if Flt.lt p.y h.min.y then p.y else h.min.y,
      if Flt.lt p.z h.min.z then p.z else h.min.z⟩
    max := ⟨if Flt.lt h.max.x p.x then p.x else h.max.x, if Flt.lt h.max.y p.y then p.y else h.max.y,
      if Flt.lt h.max.z p.z then p.z else h.max.z⟩ }

/-- `points_by_return: HashMap<u8, u64>`. -/
abbrev ReturnCounts := List (Nat × Nat)

/-- raw_writers.rs:202-210, 361-369, 728-736, 896-904: an entry for each of the return numbers 1 to 15. -/
def ReturnCounts.empty : ReturnCounts := (List.range 15).map fun k => (k + 1, 0)

/-- `if let Some(count) = points_by_return.get_mut(&return_number) { *count += 1; }`, raw_writers.rs:242-244, 260-262,
    769-771, 787-789. -/
def ReturnCounts.add (c : ReturnCounts) (returnNumber : Nat) : ReturnCounts :=
  c.map fun (k, n) => if k = returnNumber then (k, n + 1) else (k, n)

/-- `update_point_counts_in_las_header`, raw_writers.rs:50-66. -/
def LasHeader.updateCounts (h : LasHeader) (points : Nat) (byReturn : ReturnCounts) : Out LasHeader := do
  let h := { h with count := h.count + points }
  forLoop byReturn h fun h (k, n) =>
    if 1 ≤ k ∧ k - 1 < h.byReturn.length then
      pure { h with byReturn := h.byReturn.modify (k - 1) (· + n) }
    else panicked

/-- `finalize_las_header`, raw_writers.rs:69-92. -/
def LasHeader.finalize (h : LasHeader) : LasHeader :=
  if h.count > 2 ^ 32 - 1 then h
  else if h.format % 16 > 5 then h
  else { h with
    legacyCount := h.count % 2 ^ 32
    legacyByReturn := (h.byReturn.take 5).map (· % 2 ^ 32) }

/-! ## Records -/

/-- The attributes of a point that are written for a format, in the order the default layout has them and
    `write_points_default_layout` reads them (raw_writers.rs:226-330, 753-857). -/
def writtenAttributes (f : Format) : List AttrDef :=
  [position3D, intensity, returnNumber, numberOfReturns]
    ++ (if f.isExtended then [classificationFlags, scannerChannel] else [])
    ++ [scanDirectionFlag, edgeOfFlightLine, classification]
    ++ (if f.isExtended then [userData, scanAngle] else [scanAngleRank, userData])
    ++ [pointSourceId]
    ++ (if f.hasGpsTime then [gpsTime] else [])
    ++ (if f.hasColor then [colorRgb] else [])
    ++ (if f.hasNir then [nir] else [])
    ++ (if f.hasWaveform then [wavePacketDescriptorIndex, waveformDataOffset, waveformPacketSize,
        returnPointWaveformLocation, waveformParameters] else [])

/-- The values of one point, as bytes. -/
abbrev LasValues := List (AttrDef × Bytes)

/-- A value that was read before. -/
def LasValues.value (v : LasValues) (d : AttrDef) : Out Bytes := expectSome (v.lookup d)

/-- A `u8` value. -/
def LasValues.byte (v : LasValues) (d : AttrDef) : Out Byte := do
  let b ← v.value d
  pure (BitVec.ofNat 8 (leNat b))

/-- `write_position_as_las_position`, write_helpers.rs:10-23. -/
def localPositionBytes (t : Transforms) (p : P3 F64) : Out Bytes := do
  let x ← quantize t.x p.x
  let y ← quantize t.y p.y
  let z ← quantize t.z p.z
  pure (writeNum .i32 (.int x) ++ writeNum .i32 (.int y) ++ writeNum .i32 (.int z))

/-- The bit attributes of a point, packed: raw_writers.rs:240-273, 469-504, 767-800, 1006-1041. -/
def flagBytes (f : Format) (v : LasValues) : Out Bytes := do
  let r ← v.byte returnNumber
  let n ← v.byte numberOfReturns
  if f.isExtended then
    let c ← v.byte classificationFlags
    let s ← v.byte scannerChannel
    let d ← v.byte scanDirectionFlag
    let e ← v.byte edgeOfFlightLine
    pure (packExtended ⟨r, n, c, s, d, e⟩)
  else
    let d ← v.byte scanDirectionFlag
    let e ← v.byte edgeOfFlightLine
    pure (packRegular ⟨r, n, d, e⟩)

/-- The values of the attributes, if the format has them. -/
def optionalBytes (has : Bool) (ds : List AttrDef) (v : LasValues) : Out Bytes :=
  if has then do
    let bs ← ds.mapM v.value
    pure bs.flatten
  else pure []

/-- The bytes written for one point, raw_writers.rs:226-330 (default layout), 462-570 (custom layout); for LAZ
    753-857, 995-1102. Values are written as they were read (both little-endian). -/
def lasRecord (f : Format) (t : Transforms) (v : LasValues) : Out Bytes := do
  let position ← v.value position3D
  let position ← localPositionBytes t (readVec3F64 position)
  let i ← v.value intensity
  let flags ← flagBytes f v
  let c ← v.value classification
  let u ← v.value userData
  let angle ← if f.isExtended then v.value scanAngle else v.value scanAngleRank
  let source ← v.value pointSourceId
  let gps ← optionalBytes f.hasGpsTime [gpsTime] v
  let color ← optionalBytes f.hasColor [colorRgb] v
  let infrared ← optionalBytes f.hasNir [nir] v
  let wave ← optionalBytes f.hasWaveform [wavePacketDescriptorIndex, waveformDataOffset, waveformPacketSize,
    returnPointWaveformLocation, waveformParameters] v
  pure (position ++ i ++ flags ++ c ++ (if f.isExtended then u ++ angle else angle ++ u) ++ source ++ gps ++ color
    ++ infrared ++ wave)

/-! ## The loops over chunks and points -/

/-- What the body of the loop over the points of a chunk works on: the rest of the cursor `point_read`, the
    stream the records are written to, the header and the counts. -/
structure PointState where
  cursor : Bytes
  out : Stream
  header : LasHeader
  counts : ReturnCounts

/-- Read the values of one point in the default layout, one after the other. -/
def readValues : List AttrDef → Bytes → Out (LasValues × Bytes)
  | [], c => pure ([], c)
  | d :: ds, c => do
    let (v, c) ← readExact d.size c
    let (vs, c) ← readValues ds c
    pure ((d, v) :: vs, c)

/-- Body of the loop of `write_points_default_layout`, raw_writers.rs:225-331, 752-858. -/
def writeDefaultPoint (f : Format) (st : PointState) : Out PointState := do
  let (v, cursor) ← readValues (writtenAttributes f) st.cursor
  let record ← lasRecord f st.header.transforms v
  let position ← v.value position3D
  let r ← v.byte returnNumber
  pure ⟨cursor, st.out.write record, st.header.updateBounds (readVec3F64 position), st.counts.add r.toNat⟩

/-- A `ReaderFn`, read_helpers.rs:22: from the index of a point and the bytes of the chunk to a value. -/
abbrev ReaderFn := Nat → Bytes → Out Bytes

/-- `make_get_reader_fn!`, read_helpers.rs:305-347, with `read_*_in_default_layout` (44-303) and
    `read_attribute_in_custom_layout` (24-42): the default value is zero. -/
def attributeReader (l : PointLayout) (d : AttrDef) : Out ReaderFn :=
  match l.getAttributeByName d.name with
  | none => pure fun _ _ => pure (zeros d.size)
  | some m =>
    if m.datatype = d.datatype then
      pure fun i chunk => do
        let (v, _) ← readExact d.size (chunk.drop (i * l.size + m.offset))
        pure v
    else do
      let conv ← expectSome (← getConverterForAttributes m.definition d)
      pure fun i chunk => do
        let start := i * l.size + m.offset
        let s ← sliceGet chunk start (start + m.size)
        conv.run s (zeros d.size)

/-- The readers made in `write_points_custom_layout`, raw_writers.rs:374-446, 906-978. The order in which they are made
    differs; all of them fail in the same way. -/
def attributeReaders (l : PointLayout) (f : Format) : Out (List (AttrDef × ReaderFn)) :=
  (writtenAttributes f).mapM fun d => do
    let r ← attributeReader l d
    pure (d, r)

/-- Read the values of point `i` of the chunk. -/
def runReaders (readers : List (AttrDef × ReaderFn)) (i : Nat) (chunk : Bytes) : Out LasValues :=
  readers.mapM fun (d, r) => do
    let b ← r i chunk
    pure (d, b)

/-- Body of the loop of `write_points_custom_layout`, raw_writers.rs:461-571, 994-1103. The return number is
    not counted. -/
def writeCustomPoint (f : Format) (readers : List (AttrDef × ReaderFn)) (i : Nat) (st : PointState) :
    Out PointState := do
  let v : LasValues ← runReaders readers i st.cursor
  let record ← lasRecord f st.header.transforms v
  let position ← v.value position3D
  pure ⟨st.cursor, st.out.write record, st.header.updateBounds (readVec3F64 position), st.counts⟩

/-- Where the records of a chunk go: the stream to write them to, and what happens after the chunk (given the
    number of points in it). -/
structure Sink (σ : Type) where
  start : σ → Stream
  finish : σ → Nat → Stream → Out σ

/-- What the loop over the chunks works on. -/
structure ChunkState (σ : Type) where
  out : σ
  header : LasHeader
  counts : ReturnCounts
  chunk : Bytes

/-- `num_points_in_chunk`, raw_writers.rs:196, 355, 720, 888. -/
def chunkPoints : Nat := 50000

/-- Body of the loop over the chunks, raw_writers.rs:212-334, 448-574, 738-867, 980-1112; `size` is the size of
    a point. -/
def writeChunk {β σ : Type} [BorrowedBuffer β] (b : β) (size : Nat) (sink : Sink σ)
    (point : Nat → PointState → Out PointState) (st : ChunkState σ) (k : Nat) : Out (ChunkState σ) := do
  let n := min chunkPoints (len b - k * chunkPoints)
  let first := k * chunkPoints
  let slice ← sliceGet st.chunk 0 (n * size)
  let slice ← getPointRange b ⟨first, first + n⟩ slice
  let chunk := put st.chunk 0 slice
  let ps ← forLoop (List.range n) ⟨chunk, sink.start st.out, st.header, st.counts⟩ fun ps i => point i ps
  let out ← sink.finish st.out n ps.out
  pure ⟨out, ps.header, ps.counts, chunk⟩

/-- The frame of the four functions that write points (raw_writers.rs:184-344, 346-584, 708-877, 879-1122),
    without the test for an empty buffer. -/
def writeChunks {β σ : Type} [BorrowedBuffer β] (b : β) (size : Nat) (sink : Sink σ)
    (point : Nat → PointState → Out PointState) (out : σ) (header : LasHeader) : Out (σ × LasHeader) := do
  let numChunks := (len b + (chunkPoints - 1)) / chunkPoints
  let st ← forLoop (List.range numChunks) ⟨out, header, ReturnCounts.empty, zeros (chunkPoints * size)⟩
    (writeChunk b size sink point)
  let header ← st.header.updateCounts (len b) st.counts
  pure (st.out, header)

/-! ## The LAS writer -/

/-- `RawLASWriter`, raw_writers.rs:94-101. The extended VLRs are kept in their binary form. -/
structure RawLasWriter where
  writer : Stream
  defaultLayout : PointLayout
  header : LasHeader
  evlrs : Bytes
  requiresFlush : Bool

namespace RawLasWriter

/-- `from_write_and_header`, raw_writers.rs:104-155, on an empty stream: `encode` is `raw::Header::write_to`,
    `template` the given header in raw form, `vlrs` and `evlrs` the given VLRs and extended VLRs in binary form,
    `offset` the offset to the point data in the header. -/
def new (encode : LasHeader → Bytes) (md : LasMetadata) (template : LasHeader) (vlrs evlrs : Bytes) (offset : Nat) :
    Out RawLasWriter := do
  let layout ← pointLayoutFromMetadata md false
  let header := { template with
    legacyCount := 0, legacyByReturn := List.replicate 5 0, count := 0, byReturn := List.replicate 15 0
    min := ⟨AABB.f64Max, AABB.f64Max, AABB.f64Max⟩
    max := ⟨AABB.f64Min, AABB.f64Min, AABB.f64Min⟩ }
  let t := template.transforms
  bailIf (Flt.feq t.x.scale (Flt.zero .f64) || Flt.feq t.y.scale (Flt.zero .f64) || Flt.feq t.z.scale (Flt.zero .f64))
  let s := ((⟨[], 0⟩ : Stream).write (encode header)).write vlrs
  assertThat (s.pos = offset)
  pure ⟨s, layout, header, evlrs, true⟩

/-- The records go straight to the file. -/
def sink : Sink Stream := ⟨id, fun _ _ s => .ok s⟩

/-- `write_points_default_layout`, raw_writers.rs:184-344. `Format::new` (crate `las`) ignores the two compression
    bits of the record format. -/
def writeDefault {β : Type} [BorrowedBuffer β] (w : RawLasWriter) (b : β) : Out RawLasWriter := do
  if len b = 0 then return w
  let f ← Format.new (w.header.format % 64)
  let (s, header) ← writeChunks b w.defaultLayout.size sink (fun _ => writeDefaultPoint f) w.writer w.header
  pure { w with writer := s, header, requiresFlush := true }

/-- `write_points_custom_layout`, raw_writers.rs:346-584. -/
def writeCustom {β : Type} [BorrowedBuffer β] (w : RawLasWriter) (b : β) : Out RawLasWriter := do
  if len b = 0 then return w
  let f ← Format.new (w.header.format % 64)
  let readers ← attributeReaders (layout b) f
  let (s, header) ← writeChunks b (layout b).size sink (writeCustomPoint f readers) w.writer w.header
  pure { w with writer := s, header, requiresFlush := true }

/-- `write`, raw_writers.rs:588-594. -/
def write {β : Type} [BorrowedBuffer β] (w : RawLasWriter) (b : β) : Out RawLasWriter :=
  if layout b = w.defaultLayout then w.writeDefault b else w.writeCustom b

/-- `write_header`, raw_writers.rs:165-173. -/
def writeHeader (encode : LasHeader → Bytes) (w : RawLasWriter) : RawLasWriter :=
  let header := w.header.finalize
  { w with header, writer := ((w.writer.seek 0).write (encode header)).seek w.writer.pos }

/-- `flush`, raw_writers.rs:596-609, with `write_evlrs` 176-182. -/
def flush (encode : LasHeader → Bytes) (w : RawLasWriter) : RawLasWriter :=
  if w.requiresFlush then
    let current := w.writer.pos
    let w := w.writeHeader encode
    { w with writer := (w.writer.write w.evlrs).seek current, requiresFlush := false }
  else w

end RawLasWriter

/-! ## The LAZ writer -/

/-- The part of `RawLAZWriter` between the points and the compressor: the bytes handed to `compress_many` so
    far, one record after another, and the buffer for the records of a chunk. -/
structure LazSink where
  handed : Bytes
  buffer : Bytes

/-- `RawLAZWriter`, raw_writers.rs:616-622, without the extended VLRs. -/
structure RawLazWriter where
  handed : Bytes
  defaultLayout : PointLayout
  header : LasHeader

namespace RawLazWriter

/-- `from_write_and_header`, raw_writers.rs:625-699. The header in raw form is what the `las` crate makes of the
    given one with the LAZ VLR added. -/
def new (md : LasMetadata) (template : LasHeader) : Out RawLazWriter := do
  let layout ← pointLayoutFromMetadata md false
  assertThat (md.format.extraBytes = 0)
  let header := { template with
    legacyCount := 0, legacyByReturn := List.replicate 5 0, count := 0, byReturn := List.replicate 15 0
    min := ⟨Flt.inf .f64 false, Flt.inf .f64 false, Flt.inf .f64 false⟩
    max := ⟨Flt.inf .f64 true, Flt.inf .f64 true, Flt.inf .f64 true⟩ }
  let t := template.transforms
  bailIf (Flt.feq t.x.scale (Flt.zero .f64) || Flt.feq t.y.scale (Flt.zero .f64) || Flt.feq t.z.scale (Flt.zero .f64))
  pure ⟨[], layout, header⟩

/-- The records of a chunk are collected in a buffer, raw_writers.rs:723-724, 749, and then handed to the
    compressor, 860-864: those of the `points` points, given the number of points in the chunk. -/
def sink (recordLength : Nat) (points : Nat → Nat) : Sink LazSink where
  start s := ⟨s.buffer, 0⟩
  finish s n out := do
    let part ← sliceGet out.data 0 (points n * recordLength)
    pure ⟨s.handed ++ part, out.data⟩

/-- `write_points_default_layout`, raw_writers.rs:708-877. -/
def writeDefault {β : Type} [BorrowedBuffer β] (w : RawLazWriter) (b : β) : Out RawLazWriter := do
  if len b = 0 then return w
  let f ← Format.new (w.header.format % 64)
  let (s, header) ← writeChunks b w.defaultLayout.size (sink w.header.recordLength id)
    (fun _ => writeDefaultPoint f) ⟨w.handed, zeros (chunkPoints * w.header.recordLength)⟩ w.header
  pure { w with handed := s.handed, header }

/-- `write_points_custom_layout`, raw_writers.rs:879-1122. Lines 1106-1109 hand over the whole buffer. -/
def writeCustom {β : Type} [BorrowedBuffer β] (w : RawLazWriter) (b : β) : Out RawLazWriter := do
  if len b = 0 then return w
  let f ← Format.new (w.header.format % 64)
  let readers ← attributeReaders (layout b) f
  let (s, header) ← writeChunks b (layout b).size (sink w.header.recordLength fun _ => chunkPoints)
    (writeCustomPoint f readers) ⟨w.handed, zeros (chunkPoints * w.header.recordLength)⟩ w.header
  pure { w with handed := s.handed, header }

/-- `write`, raw_writers.rs:1156-1162. -/
def write {β : Type} [BorrowedBuffer β] (w : RawLazWriter) (b : β) : Out RawLazWriter :=
  if layout b ≠ w.defaultLayout then w.writeCustom b else w.writeDefault b

/-- The header after `do_flush`, raw_writers.rs:1148-1152 with 1125-1136. -/
def flush (w : RawLazWriter) : RawLazWriter := { w with header := w.header.finalize }

end RawLazWriter

end Pasture.Las
