import Verif.Model.Vec3
import Verif.Spec.ConvexHull

/-!
# Specification: meshes without holes
-/

namespace Pasture.Spec

/-- The triangle has the vertex. -/
def HasVertex (t : P3 Nat) (i : Nat) : Prop := t.x = i ∨ t.y = i ∨ t.z = i

instance (t : P3 Nat) (i : Nat) : Decidable (HasVertex t i) := by unfold HasVertex; infer_instance

/-- How many triangles have the edge between two vertices. -/
def trianglesAt (mesh : List (P3 Nat)) (i j : Nat) : Nat := mesh.countP fun t => decide (HasVertex t i ∧ HasVertex t j)

/-- No edge is the border of a hole: each belongs to two triangles, or to four, six, ... -/
def Watertight (mesh : List (P3 Nat)) : Prop := ∀ i j, i ≠ j → trianglesAt mesh i j % 2 = 0

/-- Each edge of a triangle belongs to exactly one other triangle. -/
def TwoSided (mesh : List (P3 Nat)) : Prop := ∀ t ∈ mesh, ∀ i j, i ≠ j → HasVertex t i → HasVertex t j → trianglesAt mesh i j = 2

/-- The arithmetic puts `s` into the plane through `p`, `q` and `r`: the distance computed for it, with one of the two
    normals of the plane, is zero. -/
def InComputedPlane {α : Type} [Arith α] (p q r s : P3 α) : Prop :=
  let normal := Vec3.cross (Vec3.sub q p) (Vec3.sub r p)
  Arith.eq (Vec3.dot (Vec3.sub p s) normal) Arith.zero = true ∨ Arith.eq (Vec3.dot (Vec3.sub p s) (Vec3.neg normal)) Arith.zero = true

instance {α : Type} [Arith α] (p q r s : P3 α) : Decidable (InComputedPlane p q r s) := by
  unfold InComputedPlane; infer_instance

/-- No point is in the computed plane of three others. -/
def NoFourInPlane {α : Type} [Arith α] (points : List (P3 α)) : Prop :=
  ∀ i j k l : Fin points.length, [i, j, k, l].Nodup → ¬ InComputedPlane points[i] points[j] points[k] points[l]

end Pasture.Spec
