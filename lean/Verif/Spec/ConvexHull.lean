import Mathlib.Analysis.Convex.Hull
import Mathlib.Data.Real.Basic
import Verif.Spec.Bounds
import Verif.Spec.Float

/-!
# Specification: convex hulls
-/

namespace Pasture.Spec

/-- Each triangle has three different vertices among the first `n` points. -/
def MeshOf (n : Nat) (mesh : List (P3 Nat)) : Prop :=
  ∀ t ∈ mesh, (t.x < n ∧ t.y < n ∧ t.z < n) ∧ t.x ≠ t.y ∧ t.y ≠ t.z ∧ t.z ≠ t.x

/-- Different points among the first `n`. -/
def PointsOf (n : Nat) (indices : List Nat) : Prop := indices.Nodup ∧ ∀ i ∈ indices, i < n

/-! ## Exact geometry -/

/-- Six times the signed volume of a tetrahedron: positive if `s` is on the side of the plane through `p`, `q`, `r` from
    which these three go around counterclockwise. -/
def volume (p q r s : P3 ℝ) : ℝ :=
  (q.x - p.x) * ((r.y - p.y) * (s.z - p.z) - (r.z - p.z) * (s.y - p.y)) -
  (q.y - p.y) * ((r.x - p.x) * (s.z - p.z) - (r.z - p.z) * (s.x - p.x)) +
  (q.z - p.z) * ((r.x - p.x) * (s.y - p.y) - (r.y - p.y) * (s.x - p.x))

/-- No four points are in a plane. -/
def GeneralPosition (points : List (P3 ℝ)) : Prop :=
  ∀ i j k l : Fin points.length, [i, j, k, l].Nodup → volume points[i] points[j] points[k] points[l] ≠ 0

/-- The directed edges of the triangles. -/
def edgesOf (mesh : List (P3 Nat)) : List (Nat × Nat) := mesh.flatMap fun t => [(t.x, t.y), (t.y, t.z), (t.z, t.x)]

/-- Every edge belongs to two triangles, which go along it in opposite directions. -/
def Closed (mesh : List (P3 Nat)) : Prop := (edgesOf mesh).Nodup ∧ ∀ e ∈ edgesOf mesh, (e.2, e.1) ∈ edgesOf mesh

/-- No point is outside of the plane of a triangle. -/
def Encloses (points : List (P3 ℝ)) (mesh : List (P3 Nat)) : Prop :=
  ∀ t ∈ mesh, ∀ a b c, points[t.x]? = some a → points[t.y]? = some b → points[t.z]? = some c → ∀ q ∈ points, volume a b c q ≤ 0

/-- `q` is a convex combination of the points with the given indices. -/
def InHullOf (points : List (P3 ℝ)) (indices : List Nat) (q : P3 ℝ) : Prop :=
  (q.x, q.y, q.z) ∈ convexHull ℝ {v : ℝ × ℝ × ℝ | ∃ i ∈ indices, ∃ p, points[i]? = some p ∧ v = (p.x, p.y, p.z)}

/-- The vertices of a mesh. -/
def IsVertex (mesh : List (P3 Nat)) (i : Nat) : Prop := ∃ t ∈ mesh, i = t.x ∨ i = t.y ∨ i = t.z

/-- Point `i` is not a convex combination of the other points. -/
def Extreme (points : List (P3 ℝ)) (i : Nat) : Prop :=
  ∃ p, points[i]? = some p ∧ ¬ InHullOf points ((List.range points.length).filter (· ≠ i)) p

/-- `mesh` is the surface of the convex hull of the points. -/
structure HullMesh (points : List (P3 ℝ)) (mesh : List (P3 Nat)) : Prop where
  proper : MeshOf points.length mesh
  closed : Closed mesh
  encloses : Encloses points mesh
  vertices : ∀ i, IsVertex mesh i ↔ Extreme points i

/-- A position as a point of space. -/
def realPoint (p : P3 F64) : P3 ℝ := ⟨value p.x, value p.y, value p.z⟩

/-- A whole number of at most 1000, in absolute value. -/
def SmallWhole (x : F64) : Prop := x.isFinite = true ∧ ∃ z : Int, |z| ≤ 1000 ∧ value x = z

end Pasture.Spec
