import Verif.Model.Tileset
import Verif.Spec.Float

/-!
# Specification: geometry of axis-aligned bounding boxes
-/

namespace Pasture.Spec.Boxes

/-- `lo ≤ p ≤ hi`, as numbers. -/
def Between (lo hi p : F64) : Prop := value lo ≤ value p ∧ value p ≤ value hi

/-- The point is in the box. -/
def Inside (b : AABB F64) (p : P3 F64) : Prop :=
  Between b.min.x b.max.x p.x ∧ Between b.min.y b.max.y p.y ∧ Between b.min.z b.max.z p.z

/-- The coordinate is in the interval, or no further away from it than `e`. -/
def NearInterval (e : ℚ) (lo hi p : F64) : Prop := value lo - e ≤ value p ∧ value p ≤ value hi + e

/-- The point is in the box enlarged by `e` on every side. -/
def Near (e : ℚ) (b : AABB F64) (p : P3 F64) : Prop :=
  NearInterval e b.min.x b.max.x p.x ∧ NearInterval e b.min.y b.max.y p.y ∧ NearInterval e b.min.z b.max.z p.z

/-- All coordinates are finite. -/
def FiniteCorner (p : P3 F64) : Prop := p.x.isFinite = true ∧ p.y.isFinite = true ∧ p.z.isFinite = true

/-- All corners are finite. -/
def FiniteBox (b : AABB F64) : Prop := FiniteCorner b.min ∧ FiniteCorner b.max

/-- No coordinate is larger than `M`. -/
def Bounded (M : ℚ) (p : P3 F64) : Prop := |value p.x| ≤ M ∧ |value p.y| ≤ M ∧ |value p.z| ≤ M

/-- The minimum is below the maximum. -/
def Ordered (b : AABB F64) : Prop :=
  value b.min.x ≤ value b.max.x ∧ value b.min.y ≤ value b.max.y ∧ value b.min.z ≤ value b.max.z

/-- The lengths of the sides. -/
def sideX (b : AABB F64) : ℚ := value b.max.x - value b.min.x
def sideY (b : AABB F64) : ℚ := value b.max.y - value b.min.y
def sideZ (b : AABB F64) : ℚ := value b.max.z - value b.min.z

/-- A number that is an integer. -/
def WholeNumber (M : Nat) (x : F64) : Prop := x.isFinite = true ∧ ∃ z : Int, value x = z ∧ z.natAbs ≤ M

/-- Whole coordinates, not larger than `M`. -/
def WholePoint (M : Nat) (p : P3 F64) : Prop := WholeNumber M p.x ∧ WholeNumber M p.y ∧ WholeNumber M p.z

/-- The coordinate `p` is within the half length `h`, enlarged by `e`, of the center `c`. -/
def Within (e : ℚ) (c h p : F64) : Prop := value c - value h - e ≤ value p ∧ value p ≤ value c + value h + e

/-- The half axes of a box are parallel to the coordinate axes. -/
def Upright (b : Tiles3d.BoundingBox) : Prop :=
  value b.x.y = 0 ∧ value b.x.z = 0 ∧ value b.y.x = 0 ∧ value b.y.z = 0 ∧ value b.z.x = 0 ∧ value b.z.y = 0

/-- An upright box of 3D Tiles, enlarged by `e`, contains the point. -/
def InBox (e : ℚ) (b : Tiles3d.BoundingBox) (p : P3 F64) : Prop :=
  Within e b.center.x b.x.x p.x ∧ Within e b.center.y b.y.y p.y ∧ Within e b.center.z b.z.z p.z

end Pasture.Spec.Boxes
