import Mathlib.Analysis.SpecialFunctions.Complex.Arg
import Verif.Model.Normals
import Verif.Spec.Float
import Verif.Spec.Geometry

/-!
# Specification: means, spread and planes
-/

namespace Pasture.Spec

open Normals

/-- Exact numbers. -/
noncomputable instance : Number ℝ where
  ofInt := fun z => z
  half := 1 / 2
  epsilon := 1 / 2 ^ 52
  isNaN := fun _ => false
  isFinite := fun _ => true

/-- The mathematical functions. `atan2 y x` is the angle of the point `(x, y)`. -/
noncomputable def exactTrig : Trig ℝ := ⟨fun y x => Complex.arg ⟨x, y⟩, Real.cos, Real.sin⟩

/-- The scalar product. -/
def scalar (a b : P3 ℝ) : ℝ := a.x * b.x + a.y * b.y + a.z * b.z

/-- From `q` to `p`. -/
def minus (p q : P3 ℝ) : P3 ℝ := ⟨p.x - q.x, p.y - q.y, p.z - q.z⟩

/-- The mean of some numbers. -/
noncomputable def meanOf (xs : List ℝ) : ℝ := xs.sum / xs.length

/-- The exact mean of some floats. -/
def exactMean (xs : List F64) : ℚ := (xs.map value).sum / xs.length

/-- All coordinates are finite. -/
def FinitePoint (p : P3 F64) : Prop := p.x.isFinite = true ∧ p.y.isFinite = true ∧ p.z.isFinite = true

instance (p : P3 F64) : Decidable (FinitePoint p) := by unfold FinitePoint; infer_instance

/-- A coordinate is a NaN. -/
def SomeNaN (p : P3 F64) : Prop := p.x.isNaN = true ∨ p.y.isNaN = true ∨ p.z.isNaN = true

/-- All coordinates are at most `M` in magnitude. -/
def UpTo (M : ℚ) (p : P3 F64) : Prop := |value p.x| ≤ M ∧ |value p.y| ≤ M ∧ |value p.z| ≤ M

/-- `c` is the mean of the numbers `xs`, which are at most `M`, up to rounding errors. -/
def NearMean (M : ℚ) (xs : List F64) (c : F64) : Prop :=
  c.isFinite = true ∧ |value c - exactMean xs| ≤ (xs.length + 1) * M / 2 ^ 52 + 1 / 2 ^ 1075

/-- The mean of some points. -/
noncomputable def meanPoint (ps : List (P3 ℝ)) : P3 ℝ :=
  ⟨meanOf (ps.map P3.x), meanOf (ps.map P3.y), meanOf (ps.map P3.z)⟩

/-- How far the points are from the plane through their mean that is orthogonal to `n`: the sum of the squared distances,
    times the squared length of `n`. -/
noncomputable def spread (ps : List (P3 ℝ)) (n : P3 ℝ) : ℝ :=
  (ps.map fun p => scalar n (minus p (meanPoint ps)) ^ 2).sum

/-- The sum of the squared distances from the mean. -/
noncomputable def totalSpread (ps : List (P3 ℝ)) : ℝ :=
  (ps.map fun p => scalar (minus p (meanPoint ps)) (minus p (meanPoint ps))).sum

/-- `n` is a normal of a plane that fits the points best: no plane through the mean has a smaller sum of squared
    distances. -/
def BestNormal (ps : List (P3 ℝ)) (n : P3 ℝ) : Prop :=
  n ≠ ⟨0, 0, 0⟩ ∧ ∀ m, spread ps n * scalar m m ≤ spread ps m * scalar n n

/-- The share of the spread that remains with a plane that fits best (between 0 for a plane and 1/3). -/
def SurfaceVariation (ps : List (P3 ℝ)) (c : ℝ) : Prop :=
  ∃ n, BestNormal ps n ∧ c * (totalSpread ps * scalar n n) = spread ps n

/-- All points are in one plane. -/
def Coplanar (ps : List (P3 ℝ)) : Prop := ∃ u h, u ≠ ⟨0, 0, 0⟩ ∧ ∀ p ∈ ps, scalar u p = h

/-- All points are on one line. -/
def Collinear (ps : List (P3 ℝ)) : Prop :=
  ∃ a v : P3 ℝ, ∀ p ∈ ps, ∃ t : ℝ, p = ⟨a.x + t * v.x, a.y + t * v.y, a.z + t * v.z⟩

end Pasture.Spec
