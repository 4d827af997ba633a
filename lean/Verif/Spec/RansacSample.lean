import Verif.Spec.Ransac

/-!
# Specification: the points a RANSAC model was made from

All lengths are the computed ones.
-/

namespace Pasture.Spec

open Ransac

/-- The two points of a line have a distance: it is neither zero nor infinite nor a NaN. -/
def SpansLine (line : Line F64) : Prop :=
  (Vec3.norm (Vec3.sub line.second line.first)).isFinite = true ∧ (Vec3.norm (Vec3.sub line.second line.first)).mag ≠ 0

/-- The length of the normal of a plane, `sqrt(a² + b² + c²)`. -/
def normalLength (plane : Plane F64) : F64 :=
  (((plane.a.mul plane.a).add (plane.b.mul plane.b)).add (plane.c.mul plane.c)).sqrt

/-- The normal of a plane has a length that is neither zero nor a NaN, and the offset of the plane is finite. -/
def SpansPlane (plane : Plane F64) : Prop :=
  plane.d.isFinite = true ∧ (normalLength plane).isNaN = false ∧ (normalLength plane).mag ≠ 0

instance (line : Line F64) : Decidable (SpansLine line) := by unfold SpansLine; infer_instance
instance (plane : Plane F64) : Decidable (SpansPlane plane) := by unfold SpansPlane; infer_instance

/-- The points of a line are among the inliers, under different indices. -/
def LineHoldsSample (positions : List (P3 F64)) (m : Line F64 × List Nat) : Prop :=
  ∃ i j : Nat, i ≠ j ∧ positions[i]? = some m.1.first ∧ positions[j]? = some m.1.second ∧ i ∈ m.2 ∧ j ∈ m.2

/-- The three points a plane was made from are among the inliers. -/
def PlaneHoldsSample (positions : List (P3 F64)) (m : Plane F64 × List Nat) : Prop :=
  ∃ (i j k : Nat) (p q r : P3 F64), i ≠ j ∧ i ≠ k ∧ j ≠ k ∧ positions[i]? = some p ∧ positions[j]? = some q ∧
    positions[k]? = some r ∧ { m.1 with ranking := 0 } = planeThrough p q r ∧ i ∈ m.2 ∧ j ∈ m.2 ∧ k ∈ m.2

end Pasture.Spec
