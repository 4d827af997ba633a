import Verif.Spec.LasWriter
import Verif.Model.Ascii

/-!
# Specification: the points a writer is given

A batch is one call of `write` with a buffer of any kind. Which points the batches contain, and in which layouts, can be
told without telling how they are divided into calls and what kinds of buffers hold them.
-/

namespace Pasture.Spec

open Pasture.Las

/-- The points of the batches, in order, each with the layout it comes in. -/
def inLayouts (bs : List Batch) : List (PointLayout × Point) := bs.flatMap fun b => b.points.map fun p => (b.layout, p)

/-- Write the batches with a text writer. -/
def runAscii : Ascii.RawAsciiWriter → List Batch → Out Ascii.RawAsciiWriter
  | w, [] => .ok w
  | w, b :: bs => do
    let w ← w.write b.buffer
    runAscii w bs

end Pasture.Spec
