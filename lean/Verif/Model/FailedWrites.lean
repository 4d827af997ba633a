import Verif.Model.FailedReads
import Verif.Model.LasWriter

/-!
# Model of `write` with the writer it leaves behind when it fails

`Verif.Model.LasWriter`, `Verif.Model.Pnts` and `Verif.Model.Ascii` give no state after a failing call. Here the same
functions say what has become of the writer then.
-/

namespace Pasture

open Las BorrowedBuffer

namespace Las

/-- Body of the loop over the chunks, raw_writers.rs:212-334, 448-574, 738-867, 980-1112. A point is refused before
    anything of it is written (write_helpers.rs:15-17); its other values are read from memory, which cannot fail half-way
    through a record. `leave` says what becomes of the destination when that happens. -/
def writeChunkLeft {β σ : Type} [BorrowedBuffer β] (b : β) (size : Nat) (sink : Sink σ) (leave : σ → Stream → σ)
    (point : Nat → PointState → Out PointState) (st : ChunkState σ) (k : Nat) : Left (σ × LasHeader) (ChunkState σ) := do
  let n := min chunkPoints (len b - k * chunkPoints)
  let first := k * chunkPoints
  let slice ← leaving (st.out, st.header) (sliceGet st.chunk 0 (n * size))
  let slice ← leaving (st.out, st.header) (getPointRange b ⟨first, first + n⟩ slice)
  let chunk := put st.chunk 0 slice
  let ps ← (List.range n).foldlM (fun ps i => leaving (leave st.out ps.out, ps.header) (point i ps))
    (⟨chunk, sink.start st.out, st.header, st.counts⟩ : PointState)
  let out ← leaving (st.out, ps.header) (sink.finish st.out n ps.out)
  pure ⟨out, ps.header, ps.counts, chunk⟩

/-- The frame of the four functions that write points (raw_writers.rs:184-344, 346-584, 708-877, 879-1122). The points
    are counted at the end only, lines 336, 576, 869 and 1114; the counting fails for no header a writer can have. -/
def writeChunksLeft {β σ : Type} [BorrowedBuffer β] (b : β) (size : Nat) (sink : Sink σ) (leave : σ → Stream → σ)
    (point : Nat → PointState → Out PointState) (out : σ) (header : LasHeader) : Left (σ × LasHeader) (σ × LasHeader) := do
  let numChunks := (len b + (chunkPoints - 1)) / chunkPoints
  let st ← (List.range numChunks).foldlM (writeChunkLeft b size sink leave point)
    (⟨out, header, ReturnCounts.empty, zeros (chunkPoints * size)⟩ : ChunkState σ)
  let header ← leaving (st.out, st.header) (st.header.updateCounts (len b) st.counts)
  pure (st.out, header)

namespace RawLasWriter

/-- What a LAS writer is left with: the records are in the file, the header has seen their positions, and
    `requires_flush` (lines 341, 581) is as it was. -/
def leave (w : RawLasWriter) (e : Fault × Stream × LasHeader) : Fault × RawLasWriter :=
  (e.1, { w with writer := e.2.1, header := e.2.2 })

/-- `write_points_default_layout`, raw_writers.rs:184-344. -/
def writeDefaultLeft {β : Type} [BorrowedBuffer β] (w : RawLasWriter) (b : β) : Left RawLasWriter RawLasWriter := do
  if len b = 0 then return w
  let f ← leaving w (Format.new (w.header.format % 64))
  let (s, header) ← (writeChunksLeft b w.defaultLayout.size sink (fun _ s => s) (fun _ => writeDefaultPoint f) w.writer
    w.header).mapError w.leave
  pure { w with writer := s, header, requiresFlush := true }

/-- `write_points_custom_layout`, raw_writers.rs:346-584. -/
def writeCustomLeft {β : Type} [BorrowedBuffer β] (w : RawLasWriter) (b : β) : Left RawLasWriter RawLasWriter := do
  if len b = 0 then return w
  let f ← leaving w (Format.new (w.header.format % 64))
  let readers ← leaving w (attributeReaders (layout b) f)
  let (s, header) ← (writeChunksLeft b (layout b).size sink (fun _ s => s) (writeCustomPoint f readers) w.writer
    w.header).mapError w.leave
  pure { w with writer := s, header, requiresFlush := true }

/-- `write`, raw_writers.rs:588-594. -/
def writeLeft {β : Type} [BorrowedBuffer β] (w : RawLasWriter) (b : β) : Left RawLasWriter RawLasWriter :=
  if layout b = w.defaultLayout then w.writeDefaultLeft b else w.writeCustomLeft b

end RawLasWriter

namespace RawLazWriter

/-- What a LAZ writer is left with: the records of a chunk are in a local buffer until the whole chunk is handed to the
    compressor (raw_writers.rs:723-724, 860-864, 891-892, 1106-1109), and the header has seen their positions. -/
def leave (w : RawLazWriter) (e : Fault × LazSink × LasHeader) : Fault × RawLazWriter :=
  (e.1, { w with handed := e.2.1.handed, header := e.2.2 })

/-- `write_points_default_layout`, raw_writers.rs:708-877. -/
def writeDefaultLeft {β : Type} [BorrowedBuffer β] (w : RawLazWriter) (b : β) : Left RawLazWriter RawLazWriter := do
  if len b = 0 then return w
  let f ← leaving w (Format.new (w.header.format % 64))
  let (s, header) ← (writeChunksLeft b w.defaultLayout.size (sink w.header.recordLength id) (fun s _ => s)
    (fun _ => writeDefaultPoint f) ⟨w.handed, zeros (chunkPoints * w.header.recordLength)⟩ w.header).mapError w.leave
  pure { w with handed := s.handed, header }

/-- `write_points_custom_layout`, raw_writers.rs:879-1122. -/
def writeCustomLeft {β : Type} [BorrowedBuffer β] (w : RawLazWriter) (b : β) : Left RawLazWriter RawLazWriter := do
  if len b = 0 then return w
  let f ← leaving w (Format.new (w.header.format % 64))
  let readers ← leaving w (attributeReaders (layout b) f)
  let (s, header) ← (writeChunksLeft b (layout b).size (sink w.header.recordLength fun _ => chunkPoints) (fun s _ => s)
    (writeCustomPoint f readers) ⟨w.handed, zeros (chunkPoints * w.header.recordLength)⟩ w.header).mapError w.leave
  pure { w with handed := s.handed, header }

/-- `write`, raw_writers.rs:1156-1162. -/
def writeLeft {β : Type} [BorrowedBuffer β] (w : RawLazWriter) (b : β) : Left RawLazWriter RawLazWriter :=
  if layout b ≠ w.defaultLayout then w.writeCustomLeft b else w.writeDefaultLeft b

end RawLazWriter

end Las

namespace Tiles3d.PntsWriter

/-- Body of the loop over the converters in `write`, pnts_writer.rs:351-386. -/
def writeAttributeLeft {β : Type} [BorrowedBuffer β] (w : PntsWriter) (points : β) (base : Nat) (cache : HashMapBuffer)
    (entry : String × Option Converter) : Left PntsWriter HashMapBuffer :=
  match (layout points).getAttributeByName entry.1 with
  | none => pure cache
  | some src => do
    let dst ← leaving { w with cachedPoints := cache } (expectSome ((layout cache).getAttributeByName entry.1))
    (List.range (len points)).foldlM (fun cache i =>
      leaving { w with cachedPoints := cache } (writeValue points src dst entry.2 base cache i)) cache

/-- `write`, pnts_writer.rs:336-389. A failing `append` is taken to leave the points as they were. -/
def writeLeft (order : Converters → Converters) {β : Type} [BorrowedBuffer β] (w : PntsWriter) (points : β) :
    Left PntsWriter PntsWriter := do
  if layout points ≠ w.expectedLayout then .error (.panic, w)
  else if layout points = layout w.cachedPoints then do
    let cache ← leaving w (Pasture.append w.cachedPoints points)
    pure { w with cachedPoints := cache }
  else do
    let base := len w.cachedPoints
    let cache := OwningBuffer.resize w.cachedPoints (base + len points)
    let cache ← (order w.attributeConverters).foldlM (writeAttributeLeft w points base) cache
    pure { w with cachedPoints := cache }

end Tiles3d.PntsWriter

namespace Ascii.RawAsciiWriter

/-- The loop over the literals for one point, raw_writer.rs:73-194: what is left is the text written so far. -/
def writePointLeft (w : RawAsciiWriter) (point : UntypedPoint) (text : List Char) : Left (List Char) (List Char) := do
  let text ← w.parseLayout.zipIdx.foldlM (fun text (t, index) => do
    let s ← leaving text (columnText w.precision point t)
    pure (text ++ s ++ if index ≠ w.parseLayout.length - 1 then w.delimiter else [])) text
  pure (text ++ ['\n'])

/-- Body of the loop over the chunks, raw_writer.rs:56-196. -/
def writeChunkLeft {β : Type} [BorrowedBuffer β] (w : RawAsciiWriter) (b : β) (st : List Char × Bytes) (k : Nat) :
    Left (List Char) (List Char × Bytes) := do
  let size := (layout b).size
  let n := min chunkSize (len b - k * chunkSize)
  let first := k * chunkSize
  let slice ← leaving st.1 (sliceGet st.2 0 (n * size))
  let slice ← leaving st.1 (getPointRange b ⟨first, first + n⟩ slice)
  let chunk := put st.2 0 slice
  let text ← (List.range n).foldlM (fun text i => do
    let record ← leaving text (sliceGet chunk (i * size) (i * size + size))
    w.writePointLeft (UntypedPoint.newSlice (layout b) record) text) st.1
  pure (text, chunk)

/-- `write`, raw_writer.rs:44-201. -/
def writeLeft {β : Type} [BorrowedBuffer β] (w : RawAsciiWriter) (b : β) : Left RawAsciiWriter RawAsciiWriter := do
  let size := (layout b).size
  let numChunks := (len b + (chunkSize - 1)) / chunkSize
  let st ← ((List.range numChunks).foldlM (w.writeChunkLeft b) (w.text, zeros (chunkSize * size))).mapError
    fun e => (e.1, { w with text := e.2 })
  pure { w with text := st.1 }

end Ascii.RawAsciiWriter

end Pasture
