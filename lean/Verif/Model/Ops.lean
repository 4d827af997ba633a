import Verif.Model.HashMapBuffer
import Verif.Spec.Points

/-!
# Driving a buffer through its public operations
-/

namespace Pasture

open Spec BorrowedMutBuffer OwningBuffer

/-- Call the trait method an operation names (traits of point_buffer.rs:206-418). -/
def runOp {β : Type} [OwningBuffer β] (b : β) : Op → Out β
  | .setPoint i r => setPoint b i r
  | .setPointRange s e r => setPointRange b ⟨s, e⟩ r
  | .setAttribute d i v => setAttribute b d i v
  | .setAttributeRange d s e v => setAttributeRange b d ⟨s, e⟩ v
  | .swap i j => swap b i j
  | .pushPoints r => pushPoints b r
  | .resize n => .ok (resize b n)
  | .clear => .ok (clear b)

/-- A history of operations; it ends at the first panic. -/
def runOps {β : Type} [OwningBuffer β] (b : β) (ops : List Op) : Out β := forLoop ops b runOp

end Pasture
