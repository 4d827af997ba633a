import Verif.Spec.TwoSteps
import Verif.Model.Ascii

/-!
# Specification: reading an ASCII file into a layout, and converting what was read in its own layout
-/

namespace Pasture.Spec.Ascii

open Pasture.Ascii Pasture.Las

/-- Converting what was read in the layout of the format gives the points that are read directly. Both buffers are
    new. -/
def SameLinesByDetour (r : RawAsciiReader) (target : PointLayout) (count : Nat) (τ₁ τ₂ τ₃ : Type)
    [OwningBuffer τ₁] [AsMemory τ₁] [AsMemoryMut τ₁] [MakeBufferFromLayout τ₁] [OwningBuffer τ₂] [AsMemoryMut τ₂]
    [MakeBufferFromLayout τ₂] [OwningBuffer τ₃] [AsMemoryMut τ₃] [MakeBufferFromLayout τ₃] : Prop :=
  ∃ (middle : τ₁) (r₁ : RawAsciiReader) (converted : τ₂) (direct : τ₃) (r₂ : RawAsciiReader) (ps : List Point),
    readPoints τ₁ r count = .ok (middle, r₁) ∧
    atOnce τ₂ (PointReader.defaultLayout r) target middle = .ok converted ∧
    PointReader.readInto r (OwningBuffer.resize (MakeBufferFromLayout.newFromLayout target : τ₃) count) count =
      .ok (count, direct, r₂) ∧
    ps.length = count ∧ ShowsPoints converted target ps ∧ ShowsPoints direct target ps

/-- Both ways fail with an error. -/
def BothRefuse (r : RawAsciiReader) (target : PointLayout) (count : Nat) (τ₁ τ₃ : Type) [OwningBuffer τ₁]
    [AsMemoryMut τ₁] [MakeBufferFromLayout τ₁] [OwningBuffer τ₃] [AsMemoryMut τ₃] [MakeBufferFromLayout τ₃] : Prop :=
  readPoints τ₁ r count = .error .err ∧
  PointReader.readInto r (OwningBuffer.resize (MakeBufferFromLayout.newFromLayout target : τ₃) count) count = .error .err

/-- Attributes of the target that have the name of an attribute of the source have its type. -/
def SameTypes (source target : PointLayout) : Prop :=
  ∀ m ∈ source.attributes, ∀ t ∈ target.attributes, t.name = m.name → t.definition = m.definition

end Pasture.Spec.Ascii
