import Verif.Model.Pnts
import Verif.Model.BaseIo

/-!
# Model of `write_all` and `read_all` for `.pnts` files (`pasture-io/src/base/mod.rs`)
-/

namespace Pasture.BaseIo

open Las Tiles3d BorrowedBuffer

/-- `write_all` to a `.pnts` file, base/mod.rs:57-72, with io_factory.rs:132-139: the contents of the file. -/
def writeAllPnts {β : Type} [BorrowedBuffer β] (J : JsonText) (order : Converters → Converters) (b : β) : Out Bytes := do
  let w ← PntsWriter.fromWriteAndLayout ⟨[], 0⟩ (layout b)
  let w ← w.write order b
  let w ← w.flush J
  pure w.writer.data

/-- `read_all` of a `.pnts` file, base/mod.rs:24-37, with io_factory.rs:61-64, 70-75 and pnts_metadata.rs:56-58: the number
    of points is always known. -/
def readAllPnts (J : JsonText) (β : Type) [OwningBuffer β] [AsMemoryMut β] [MakeBufferFromLayout β] (max : Nat)
    (file : Bytes) : Out β := do
  let r ← PntsReader.fromRead J file
  let (b, _) ← readAll β max r (some r.metadata.pointsLength)
  pure b

end Pasture.BaseIo
