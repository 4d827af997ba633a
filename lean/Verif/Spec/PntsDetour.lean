import Verif.Spec.Pnts
import Verif.Spec.TwoSteps

/-!
# Specification: reading a `.pnts` file into a layout, and converting what was read in its own layout
-/

namespace Pasture.Spec.Pnts

open Pasture.Tiles3d Pasture.Las

/-- Converting what was read in the layout of the file gives the points that are read directly. Both buffers are new. -/
def SameTileByDetour (r : PntsReader) (target : PointLayout) (count : Nat) (τ₁ τ₂ τ₃ : Type)
    [OwningBuffer τ₁] [AsMemory τ₁] [AsMemoryMut τ₁] [MakeBufferFromLayout τ₁] [OwningBuffer τ₂] [AsMemoryMut τ₂]
    [MakeBufferFromLayout τ₂] [OwningBuffer τ₃] [AsMemoryMut τ₃] [MakeBufferFromLayout τ₃] : Prop :=
  ∃ (middle : τ₁) (r₁ : PntsReader) (converted : τ₂) (direct : τ₃) (r₂ : PntsReader) (ps : List Point),
    readPoints τ₁ r count = .ok (middle, r₁) ∧
    atOnce τ₂ (PointReader.defaultLayout r) target middle = .ok converted ∧
    PointReader.readInto r (OwningBuffer.resize (MakeBufferFromLayout.newFromLayout target : τ₃) count) count =
      .ok (count, direct, r₂) ∧
    ps.length = count ∧ ShowsPoints converted target ps ∧ ShowsPoints direct target ps

/-- Positions are not moved, or the target has them exactly as the file does, if it has them. -/
def PositionsAlike (r : PntsReader) (center : Option (P3 F64)) (target : PointLayout) : Prop :=
  r.mode = .relativeToCenter ∨ center = none ∨
    ∀ t ∈ target.attributes, t.name = "Position3D" → ∃ m ∈ r.layout.attributes, m.definition = t.definition

end Pasture.Spec.Pnts
