import Verif.Spec.Points
import Verif.Model.Ascii

/-!
# Specification: writing an ASCII file again after reading it
-/

namespace Pasture.Spec.Ascii

open Pasture.Ascii Pasture.Las

/-- A user reads `count` points into a new buffer with the layout `target` and writes them with the writer `w`: the result
    is `w'`. -/
def WrittenAgain (β : Type) [OwningBuffer β] [AsMemoryMut β] [MakeBufferFromLayout β] (r : RawAsciiReader)
    (target : PointLayout) (count : Nat) (w w' : RawAsciiWriter) : Prop :=
  ∃ (t : β) (r' : RawAsciiReader),
    PointReader.readInto r (OwningBuffer.resize (MakeBufferFromLayout.newFromLayout target : β) count) count =
      .ok (count, t, r') ∧
    w.write t = .ok w'

/-- Coordinates and times are written with decimal places, if there are any. -/
def Decimals (format : List Char) (w : RawAsciiWriter) : Prop :=
  1 ≤ w.precision ∨ ∀ ch ∈ ['x', 'y', 'z', 't'], ch ∉ format

end Pasture.Spec.Ascii
