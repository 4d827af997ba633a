import Verif.Spec.Voxel
import Verif.Model.Ransac

/-!
# Specification: RANSAC

A model is a plane (line) through points of the buffer and its inliers. Distances are compared as computed with `f64`s;
Props/RansacGeometry.lean says what the formulas compute with exact numbers.
-/

namespace Pasture.Spec

open Ransac

/-- `indices` are those of the points nearer than the threshold, in increasing order. -/
structure Inliers (distance : P3 F64 → F64) (threshold : F64) (positions : List (P3 F64)) (indices : List Nat) : Prop where
  increasing : indices.Pairwise (· < ·)
  exact : ∀ i : Nat, i ∈ indices ↔ ∃ p, positions[i]? = some p ∧ Flt.lt (distance p) threshold = true

/-- A plane through three different points of the buffer, ranked by its number of inliers, and these inliers. -/
structure PlaneModel (positions : List (P3 F64)) (threshold : F64) (m : Plane F64 × List Nat) : Prop where
  sample : ∃ (i j k : Nat) (p q r : P3 F64), i ≠ j ∧ i ≠ k ∧ j ≠ k ∧ positions[i]? = some p ∧ positions[j]? = some q ∧
    positions[k]? = some r ∧ { m.1 with ranking := 0 } = planeThrough p q r
  inliers : Inliers (fun p => distancePointPlane p m.1) threshold positions m.2
  ranking : m.1.ranking = m.2.length

/-- A line through two different points of the buffer, ranked by its number of inliers, and these inliers. -/
structure LineModel (positions : List (P3 F64)) (threshold : F64) (m : Line F64 × List Nat) : Prop where
  sample : ∃ i j : Nat, i ≠ j ∧ positions[i]? = some m.1.first ∧ positions[j]? = some m.1.second
  inliers : Inliers (fun p => distancePointLine p m.1) threshold positions m.2
  ranking : m.1.ranking = m.2.length

/-- `best` is one of the models of the iterations, and none has more inliers. -/
def Best {μ : Type} (inliers : μ → List Nat) (models : List μ) (best : μ) : Prop :=
  best ∈ models ∧ ∀ m ∈ models, (inliers m).length ≤ (inliers best).length

/-- At least `k` different indices below `n` are drawn. -/
def Draws (n k : Nat) (draws : List Nat) : Prop := ∃ is : List Nat, is.length = k ∧ is.Nodup ∧ ∀ i ∈ is, i ∈ draws.map (· % n)

end Pasture.Spec
