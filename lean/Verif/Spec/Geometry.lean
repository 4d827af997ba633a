import Mathlib.Analysis.Real.Sqrt
import Verif.Model.Vec3

/-!
# Specification: distances in space
-/

namespace Pasture.Spec

open Classical in
/-- Exact arithmetic. -/
noncomputable instance : Arith ℝ where
  zero := 0
  add := (· + ·)
  sub := (· - ·)
  mul := (· * ·)
  div := (· / ·)
  neg := fun x => -x
  abs := fun x => |x|
  sqrt := Real.sqrt
  min := fun x y => if y < x then y else x
  lt := fun x y => decide (x < y)
  le := fun x y => decide (x ≤ y)
  eq := fun x y => decide (x = y)

/-- The Euclidean distance. -/
noncomputable def euclidean (p q : P3 ℝ) : ℝ := √((p.x - q.x) ^ 2 + (p.y - q.y) ^ 2 + (p.z - q.z) ^ 2)

/-- The line through two points. -/
def lineThrough (a b : P3 ℝ) : Set (P3 ℝ) :=
  { q | ∃ t : ℝ, q = ⟨a.x + t * (b.x - a.x), a.y + t * (b.y - a.y), a.z + t * (b.z - a.z)⟩ }

/-- The plane through three points. -/
def planeSet (a b c : P3 ℝ) : Set (P3 ℝ) :=
  { q | ∃ s t : ℝ, q = ⟨a.x + s * (b.x - a.x) + t * (c.x - a.x), a.y + s * (b.y - a.y) + t * (c.y - a.y),
    a.z + s * (b.z - a.z) + t * (c.z - a.z)⟩ }

/-- `d` is the distance from `p` to the nearest point of `S`. -/
def IsDistance (S : Set (P3 ℝ)) (p : P3 ℝ) (d : ℝ) : Prop := (∃ q ∈ S, euclidean p q = d) ∧ ∀ q ∈ S, d ≤ euclidean p q

end Pasture.Spec
