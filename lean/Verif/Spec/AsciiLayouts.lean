import Verif.Spec.Points

/-!
# Specification: points of different layouts with the same values
-/

namespace Pasture.Spec

/-- Two points have the same attributes with the same values, in whatever order. -/
def SameValues (p q : Point) : Prop := ∀ d, p.get d = q.get d

end Pasture.Spec
