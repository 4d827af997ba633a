import Verif.Model.Traits
import Verif.Spec.Observe

/-! # Specification: operations that keep the number of points, and local indices -/

namespace Pasture.Spec

open BorrowedMutBuffer

/-- Operations a borrowed buffer offers: they change points in place. -/
def Op.inPlace : Op → Bool
  | setPoint .. | setPointRange .. | setAttribute .. | setAttributeRange .. | swap .. => true
  | pushPoints .. | resize .. | clear => false

/-- The operation with all indices moved up by `s`. -/
def Op.shift (s : Nat) : Op → Op
  | setPoint i r => setPoint (i + s) r
  | setPointRange a b r => setPointRange (a + s) (b + s) r
  | setAttribute d i v => setAttribute d (i + s) v
  | setAttributeRange d a b v => setAttributeRange d (a + s) (b + s) v
  | swap i j => swap (i + s) (j + s)
  | op => op

/-- Call the trait method an in-place operation names. -/
def runInPlace {β : Type} [BorrowedMutBuffer β] (b : β) : Op → Out β
  | .setPoint i r => BorrowedMutBuffer.setPoint b i r
  | .setPointRange s e r => BorrowedMutBuffer.setPointRange b ⟨s, e⟩ r
  | .setAttribute d i v => BorrowedMutBuffer.setAttribute b d i v
  | .setAttributeRange d s e v => BorrowedMutBuffer.setAttributeRange b d ⟨s, e⟩ v
  | .swap i j => BorrowedMutBuffer.swap b i j
  | .pushPoints _ | .resize _ | .clear => .ok b

end Pasture.Spec
