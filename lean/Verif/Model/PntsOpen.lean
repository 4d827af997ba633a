import Verif.Model.Pnts

/-!
# Model of `PntsReader` (`pasture-io/src/tiles3d/pnts_reader.rs`) with the checks of machine arithmetic

`Verif.Model.Pnts` treats offsets as natural numbers, and a stream that is read from its beginning. Here the additions are
those of `u64` (an overflow panics in builds with overflow checks), and the stream may stand anywhere.
-/

namespace Pasture.Tiles3d

open Las BorrowedBuffer

/-- A `PntsReader`, read with checked arithmetic. -/
structure CheckedPnts where
  reader : PntsReader

namespace CheckedPnts

/-- `from_read`, pnts_reader.rs:51-96, for a stream with the contents `data` at position `pos`: the header is read from there,
    line 57 asserts where the reader stands now, and the sums of lines 84-86 must fit an `u64`. -/
def fromRead (J : JsonText) (data : Bytes) (pos : Nat) : Out CheckedPnts := do
  let header ← PntsHeader.read (data.drop pos)
  bailIf (header.magic ≠ magicBytes)
  assertThat (pos + headerLength = headerLength)
  let r ← PntsReader.fromRead J data
  if r.attributeOffsets.all fun e => e.2 < 2 ^ 64 then pure ⟨r⟩ else panicked

/-- Body of the loop over the attributes in `read_into`, pnts_reader.rs:309-356, with the sum of lines 315-316. -/
def readAttribute {β : Type} [BorrowedMutBuffer β] (r : PntsReader) (target : PointLayout) (n : Nat) (b : β)
    (m : Member) : Out β :=
  match target.getAttributeByName m.name with
  | none => pure b
  | some _ => do
    let first ← expectSome (r.attributeOffsets.lookup m.name)
    if first + r.currentPointIndex * m.size < 2 ^ 64 then r.readAttribute target n b m else panicked

/-- `read_into`, pnts_reader.rs:294-366. -/
def readInto {β : Type} [BorrowedMutBuffer β] (c : CheckedPnts) (b : β) (count : Nat) :
    Out (Nat × β × CheckedPnts) := do
  let r := c.reader
  let remaining := r.metadata.pointsLength - r.currentPointIndex
  let n := min remaining count
  bailIf (n = 0)
  let b ← forLoop r.layout.attributes b (readAttribute r (BorrowedBuffer.layout b) n)
  let r := { r with currentPointIndex := r.currentPointIndex + n }
  let b ← if r.mode = .absolute then r.applyRtcCenter b else pure b
  pure (n, b, ⟨r⟩)

end CheckedPnts

/-- `set_read_positions_mode`, pnts_reader.rs:99-101. -/
def CheckedPnts.setMode (c : CheckedPnts) (mode : PositionsMode) : CheckedPnts := ⟨c.reader.setMode mode⟩

/-- `seek_point`, pnts_reader.rs:378-393. -/
def CheckedPnts.seekPoint (c : CheckedPnts) (position : SeekFrom) : Out (Nat × CheckedPnts) := do
  let (k, r) ← c.reader.seekPoint position
  pure (k, ⟨r⟩)

instance checkedPnts : PointReader CheckedPnts where
  readInto c b count := c.readInto b count
  defaultLayout c := c.reader.layout

end Pasture.Tiles3d
