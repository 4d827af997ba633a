import Verif.Model.Bounds
import Verif.Spec.LasReader

/-!
# Specification: positions in single precision
-/

namespace Pasture.Spec

open Pasture.Las

/-- The position with the given bytes: three little-endian `f32`. -/
def singlePosition (v : Bytes) : P3 F32 :=
  ⟨.ofBits .f32 (leNat (window v 0 4)), .ofBits .f32 (leNat (window v 4 4)), .ofBits .f32 (leNat (window v 8 4))⟩

/-- What a file says about a coordinate, `z * scale + offset` in double precision, rounded to single precision. -/
def rounded (a : Axis) (z : Int) : F32 :=
  ((((Flt.ofInt .f64 z).mul a.scale).add a.offset)).cast .f32

/-- Records as LAS has them: the first 12 bytes are the local position, and there is no other position. -/
def LocalFirst (raw : PointLayout) : Prop :=
  (⟨localPosition, 0⟩ : Member) ∈ raw.attributes ∧ ∀ m ∈ raw.attributes, m.name ≠ "Position3D"

instance (raw : PointLayout) : Decidable (LocalFirst raw) := by unfold LocalFirst; infer_instance

end Pasture.Spec
