import Verif.Spec.Pnts
import Verif.Spec.TwoSteps

/-!
# Specification: writing points to a `.pnts` file in their own layout, or converting them to the types of the file first
-/

namespace Pasture.Spec.Pnts

open Pasture.Tiles3d

/-- A user writes some buffers and flushes. -/
def writeAllPnts {β : Type} [BorrowedBuffer β] (J : JsonText) (order : Converters → Converters) :
    PntsWriter → List β → Out PntsWriter
  | w, [] => w.flush J
  | w, b :: bs => do
    let w ← w.write order b
    writeAllPnts J order w bs

/-- `target` has the attributes that are stored of points of layout `l`, with the types they are stored with, in any
    order. -/
structure TileLayoutOf (l target : PointLayout) : Prop where
  solid : Solid target
  attributes : (target.attributes.map Member.definition).Perm ((storedAttributes l).map Prod.snd)

/-- `copy` is what became of a writer of a copy of the file: it left a file with as many points and with the same data for
    each attribute, with the center `center'`. Only if such a file had 2^32 bytes or more, the writer panicked. The
    files can differ in the order of the attributes and in the text of the feature table. -/
def IsCopy (J : JsonText) (file : Bytes) (n : Nat) (center center' : Option (P3 F64)) (copy : Out PntsWriter) : Prop :=
  ∃ parts parts' entries, IsPnts J file n center parts ∧
    (parts.map fun p => (p.semantic, p.data)).Perm (parts'.map fun p => (p.semantic, p.data)) ∧
    entries.Perm (tableEntries n center' parts') ∧
    (fileSize J entries parts' < 2 ^ 32 → ∃ w, copy = .ok w ∧ IsPnts J w.writer.data n center' parts' ∧
      w.writer.data.length = fileSize J entries parts') ∧
    (2 ^ 32 ≤ fileSize J entries parts' → copy = .error .panic)

end Pasture.Spec.Pnts
