import Verif.Model.Reprojection
import Verif.Spec.Bounds

/-!
# Specification of reprojection
-/

namespace Pasture.Spec

/-- The value is one of the 2^64 values of type `f64`. -/
def IsF64 (x : F64) : Prop := x.mag < 2 ^ 63

/-- `q` is the point `p`, except that its position is that of `s`, transformed. -/
def Relocated (f : P3 F64 → P3 F64) (s p q : Point) : Prop :=
  (∀ d, d ≠ position3D → q.get d = p.get d) ∧
    ∃ v w, s.get position3D = some v ∧ q.get position3D = some w ∧ w.length = 24 ∧ positionOf w = f (positionOf v)

/-- The text can be handed to C. -/
def NoNul (s : String) : Prop := '\x00' ∉ s.toList

/-- Within the box, the quantity grows (at least not falls) whenever no coordinate falls, or it falls (at least not
    grows) whenever no coordinate falls. -/
def MonotoneIn (b : AABB F64) (g : P3 F64 → F64) : Prop :=
  (∀ p q, Coords NotNaN p → Coords NotNaN q → InBox p b → InBox q b → Below p q → Cmp.le (g p) (g q) = true) ∨
  (∀ p q, Coords NotNaN p → Coords NotNaN q → InBox p b → InBox q b → Below p q → Cmp.le (g q) (g p) = true)

/-- Every point of the box `b` is mapped into the box `c`. -/
def MapsInto (f : P3 F64 → P3 F64) (b c : AABB F64) : Prop := ∀ p, Coords NotNaN p → InBox p b → InBox (f p) c

end Pasture.Spec
