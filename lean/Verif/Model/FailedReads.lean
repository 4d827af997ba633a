import Verif.Model.LasReader
import Verif.Model.Pnts
import Verif.Model.Ascii

/-!
# Model of `read_into` with the reader it leaves behind when it fails

`Verif.Model.LasReader`, `Verif.Model.Pnts` and `Verif.Model.Ascii` give no state after a failing call. Here the same
functions say where the reader stands then. What a failing call leaves in the buffer is not modelled.
-/

namespace Pasture

open Las BorrowedBuffer BorrowedMutBuffer

/-- The outcome of a call on a reader `ρ`: what it returns, or how it fails and the reader it leaves behind. -/
abbrev Left (ρ α : Type) := Except (Fault × ρ) α

/-- A step that does not touch the reader. -/
def leaving {ρ α : Type} (r : ρ) : Out α → Left ρ α
  | .ok a => .ok a
  | .error f => .error (f, r)

namespace Las

/-- Where a source of records stands after a `read_exact` or `decompress_many` that failed. -/
class FailingSource (σ : Type) where
  afterFailure : σ → σ

/-- `Read::read_exact` of a stream that ends too early has consumed everything up to the end. -/
instance : FailingSource Stream where
  afterFailure s := { s with pos := max s.pos s.data.length }

/-- `decompress_many` decompresses one record after the other until there is no further one. -/
instance : FailingSource LazStream where
  afterFailure s := { s with next := max s.next s.records.length }

namespace RawReader

variable {σ : Type} [RecordSource σ] [FailingSource σ]

/-- `read_exact` / `decompress_many` inside `x`, a step that fails with an error only there. -/
def reading {α : Type} (r : RawReader σ) : Out α → Left (RawReader σ) α
  | .ok a => .ok a
  | .error .err => .error (.err, { r with reader := FailingSource.afterFailure r.reader })
  | .error f => .error (f, r)

/-- Body of the chunk loop of `read_into_default_layout`, raw_readers.rs:273-291, 519-537. -/
def readChunkLeft {β : Type} [BorrowedMutBuffer β] (size perChunk numChunks n : Nat) (state : RawReader σ × β)
    (k : Nat) : Left (RawReader σ) (RawReader σ × β) := do
  let r := state.1
  let bytesInChunk := if k = numChunks - 1 then (n - k * perChunk) * size else perChunk * size
  let chunk ← leaving r (sliceGet (zeros (perChunk * size)) 0 bytesInChunk)
  let chunk ← r.reading (RecordSource.fill r.reader chunk)
  let r := { r with reader := RecordSource.advance r.reader bytesInChunk }
  let b ← leaving r (setPointRange state.2 ⟨k * perChunk, min ((k + 1) * perChunk) n⟩ chunk)
  pure (r, b)

/-- `read_into_default_layout`, raw_readers.rs:247-297, 493-543: the index is moved at the end only, lines 294 and 540. -/
def readIntoDefaultLayoutLeft {β : Type} [BorrowedMutBuffer β] [AsMemoryMut β] (r : RawReader σ) (b : β)
    (count : Nat) : Left (RawReader σ) (Nat × β × RawReader σ) := do
  let n := min count r.remainingPoints
  if n = 0 then return (0, b, r)
  match AsMemoryMut.asInterleavedMut (β := β) with
  | some _ =>
    let b ← r.reading (InterleavedBufferMut.getPointRangeMut b ⟨0, n⟩ (RecordSource.fill r.reader))
    let reader := RecordSource.advance r.reader (n * (BorrowedBuffer.layout b).size)
    pure (n, b, { r with reader, currentPointIndex := r.currentPointIndex + n })
  | none =>
    leaving r (assertThat (r.sizeOfPoint ≠ 0))
    let perChunk := 2 ^ 20 / r.sizeOfPoint
    leaving r (assertThat (perChunk ≠ 0))
    let numChunks := (n + perChunk - 1) / perChunk
    let (r, b) ← (List.range numChunks).foldlM (readChunkLeft r.sizeOfPoint perChunk numChunks n) (r, b)
    pure (n, b, { r with currentPointIndex := r.currentPointIndex + n })

/-- Body of the chunk loop of `RawLASReader::read_into_custom_layout`, raw_readers.rs:333-349. -/
def convertChunkLeft {β : Type} [BorrowedMutBuffer β] [AsMemoryMut β] (conv : BufferLayoutConverter)
    (sizeOfChunk numChunks n : Nat) (state : RawReader σ × VectorBuffer × β) (k : Nat) :
    Left (RawReader σ) (RawReader σ × VectorBuffer × β) := do
  let points := if k = numChunks - 1 then n - (numChunks - 1) * sizeOfChunk else sizeOfChunk
  let (_, scratch, r) ← state.1.readIntoDefaultLayoutLeft state.2.1 points
  let first := k * sizeOfChunk
  let b ← leaving r (conv.convertIntoRange scratch ⟨0, points⟩ state.2.2 ⟨first, first + points⟩)
  pure (r, scratch, b)

/-- `RawLASReader::read_into_custom_layout`, raw_readers.rs:299-352. -/
def readIntoCustomLayoutLeft {β : Type} [BorrowedMutBuffer β] [AsMemoryMut β] (r : RawReader σ) (b : β)
    (count : Nat) : Left (RawReader σ) (Nat × β × RawReader σ) := do
  let n := min count r.remainingPoints
  if n = 0 then return (0, b, r)
  leaving r (assertThat (r.recordsLayout.size ≠ 0))
  let perChunk := 2 ^ 20 / r.recordsLayout.size
  leaving r (assertThat (perChunk ≠ 0))
  let numChunks := (n + perChunk - 1) / perChunk
  let sizeOfChunk := if numChunks > 1 then perChunk else n
  let scratch : VectorBuffer := OwningBuffer.resize (MakeBufferFromLayout.newFromLayout r.recordsLayout) sizeOfChunk
  let conv ← leaving r (defaultConverter r.recordsLayout (BorrowedBuffer.layout b) r.transforms)
  let (r, _, b) ← (List.range numChunks).foldlM (convertChunkLeft conv sizeOfChunk numChunks n) (r, scratch, b)
  pure (n, b, r)

/-- `RawLAZReader::read_into_custom_layout`, raw_readers.rs:545-573: the converter is made when the points have been read. -/
def readIntoCustomLayoutAtOnceLeft {β : Type} [BorrowedMutBuffer β] [AsMemoryMut β] (r : RawReader σ) (b : β)
    (count : Nat) : Left (RawReader σ) (Nat × β × RawReader σ) := do
  let n := min count r.remainingPoints
  if n = 0 then return (0, b, r)
  let scratch : VectorBuffer := OwningBuffer.resize (MakeBufferFromLayout.newFromLayout r.recordsLayout) n
  let (_, scratch, r') ← r.readIntoDefaultLayoutLeft scratch n
  let conv ← leaving r' (defaultConverter r.recordsLayout (BorrowedBuffer.layout b) r.transforms)
  let b ← leaving r' (conv.convertInto scratch b)
  pure (n, b, r')

end RawReader

/-- `RawLASReader::read_into`, raw_readers.rs:366-383. -/
def readIntoLas {β : Type} [BorrowedMutBuffer β] [AsMemoryMut β] (r : RawLasReader) (b : β) (count : Nat) :
    Left RawLasReader (Nat × β × RawLasReader) :=
  if len b < count then .error (.panic, r)
  else if layout b ≠ r.recordsLayout then r.readIntoCustomLayoutLeft b count
  else r.readIntoDefaultLayoutLeft b count

/-- `RawLAZReader::read_into`, raw_readers.rs:587-605. -/
def readIntoLaz {β : Type} [BorrowedMutBuffer β] [AsMemoryMut β] (r : RawLazReader) (b : β) (count : Nat) :
    Left RawLazReader (Nat × β × RawLazReader) :=
  if len b < count then .error (.panic, r)
  else if layout b ≠ r.recordsLayout then r.readIntoCustomLayoutAtOnceLeft b count
  else r.readIntoDefaultLayoutLeft b count

end Las

/-- `PntsReader::read_into`, pnts_reader.rs:294-366. Where the stream stands does not matter, as every attribute is looked
    up anew (318-319); the index is moved before the center is added (358-363). -/
def Tiles3d.PntsReader.readIntoLeft {β : Type} [BorrowedMutBuffer β] (r : PntsReader) (b : β) (count : Nat) :
    Left PntsReader (Nat × β × PntsReader) := do
  let remaining := r.metadata.pointsLength - r.currentPointIndex
  let n := min remaining count
  leaving r (bailIf (n = 0))
  let b ← leaving r (forLoop r.layout.attributes b (r.readAttribute (BorrowedBuffer.layout b) n))
  let r := { r with currentPointIndex := r.currentPointIndex + n }
  let b ← leaving r (if r.mode = .absolute then r.applyRtcCenter b else pure b)
  pure (n, b, r)

namespace Ascii

/-- The loop of `read_into`, raw_reader.rs:304-314: a line is taken from the text before it is parsed. -/
def readLoopLeft {β : Type} [BorrowedMutBuffer β] (r : RawAsciiReader) :
    Nat → Nat → UntypedPoint → List Char → β → Left RawAsciiReader (List Char × β)
  | 0, _, _, text, b => pure (text, b)
  | count + 1, index, point, text, b =>
    match nextLine text with
    | none => pure ([], b)
    | some (line, text) => do
      let point ← leaving { r with rest := text } (parsePoint point line r.delimiter r.parseLayout)
      let b ← leaving { r with rest := text } (setPoint b index point.buffer)
      readLoopLeft r count (index + 1) point text b

/-- `read_into`, raw_reader.rs:293-316. -/
def readIntoAscii {β : Type} [BorrowedMutBuffer β] (r : RawAsciiReader) (b : β) (count : Nat) :
    Left RawAsciiReader (Nat × β × RawAsciiReader) := do
  let (rest, b) ← readLoopLeft r count 0 (UntypedPoint.new (layout b)) r.rest b
  pure (count, b, { r with rest := rest })

end Ascii

end Pasture
