import Verif.Model.Reprojection
import Verif.Model.Vec3

/-!
# Model of `pasture-algorithms/src/normal_estimation.rs`

The formulas are written for any kind of numbers, so that they can also be read with exact numbers.

* `atan2`, `cos` and `sin` are parameters.
* The k-d tree (crate `kd-tree`) is a parameter: a function that returns the nearest of some points.
* `DMatrix::diagonal` of nalgebra returns a copy of the diagonal. `eigen_3x3` subtracts the eigenvalue from this copy and
  drops it.
-/

namespace Pasture

/-- Constants and classification of numbers. -/
class Number (α : Type) extends Arith α where
  ofInt : Int → α
  half : α
  /-- `std::f64::EPSILON`. -/
  epsilon : α
  isNaN : α → Bool
  isFinite : α → Bool

instance {F : FloatFormat} : Number (Flt F) where
  ofInt := Flt.ofInt F
  half := Flt.div (Flt.ofInt F 1) (Flt.ofInt F 2)
  epsilon := Flt.div (Flt.ofInt F 1) (Flt.ofInt F (2 ^ F.mantBits))
  isNaN := Flt.isNaN
  isFinite := Flt.isFinite

namespace Normals

open Arith Number

/-- `f64::atan2`, `f64::cos`, `f64::sin`. -/
structure Trig (α : Type) where
  atan2 : α → α → α
  cos : α → α
  sin : α → α

/-- A 3x3 matrix, by rows. -/
structure Mat3 (α : Type) where
  row0 : P3 α
  row1 : P3 α
  row2 : P3 α
  deriving DecidableEq, Repr

section
variable {α : Type} [Number α]

local infixl:65 " ⊞ " => Arith.add
local infixl:65 " ⊟ " => Arith.sub
local infixl:70 " ⊠ " => Arith.mul
local infixl:70 " ⊘ " => Arith.div

/-- `f64::max`: the other one if one of them is a NaN. -/
def max (x y : α) : α := if isNaN x then y else if isNaN y then x else if lt x y then y else x

/-- `is_dense`, normal_estimation.rs:131-138. -/
def isDense (points : List (P3 α)) : Bool := points.all fun p => !(isNaN p.x || isNaN p.y || isNaN p.z)

/-- `is_finite`, normal_estimation.rs:141-146. -/
def finitePoint (p : P3 α) : Bool := isFinite p.x && isFinite p.y && isFinite p.z

/-- `temp_centroid[i] += ..`, normal_estimation.rs:207-209, 221-223. -/
def addPoint (s p : P3 α) : P3 α := ⟨s.x ⊞ p.x, s.y ⊞ p.y, s.z ⊞ p.z⟩

/-- Body of the second loop of `compute_centroid`, normal_estimation.rs:219-225. -/
def centroidStep (acc : P3 α × Nat) (p : P3 α) : P3 α × Nat :=
  if finitePoint p then (addPoint acc.1 p, acc.2 + 1) else acc

/-- `compute_centroid`, normal_estimation.rs:196-235, for the positions of the buffer. -/
def centroid (points : List (P3 α)) : Out (P3 α) :=
  if points.isEmpty then panicked
  else
    let zeros : P3 α := ⟨zero, zero, zero⟩
    if isDense points then
      let s := points.foldl addPoint zeros
      let n := ofInt points.length
      .ok ⟨s.x ⊘ n, s.y ⊘ n, s.z ⊘ n⟩
    else
      let (s, count) := points.foldl centroidStep (zeros, 0)
      let n := ofInt count
      .ok ⟨s.x ⊘ n, s.y ⊘ n, s.z ⊘ n⟩

/-- The entries of `covariance_matrix` that the loops add to. -/
structure Upper (α : Type) where
  a00 : α
  a01 : α
  a02 : α
  a11 : α
  a12 : α
  a22 : α

/-- Body of the loops of `compute_covariance_matrix`, normal_estimation.rs:251-265, 274-289. -/
def covarianceAdd (c : P3 α) (m : Upper α) (p : P3 α) : Upper α :=
  let d : P3 α := ⟨p.x ⊟ c.x, p.y ⊟ c.y, p.z ⊟ c.z⟩
  let a11 := m.a11 ⊞ d.y ⊠ d.y
  let a12 := m.a12 ⊞ d.y ⊠ d.z
  let a22 := m.a22 ⊞ d.z ⊠ d.z
  let diffX := d.x
  let d : P3 α := ⟨d.x ⊠ diffX, d.y ⊠ diffX, d.z ⊠ diffX⟩
  ⟨m.a00 ⊞ d.x, m.a01 ⊞ d.y, m.a02 ⊞ d.z, a11, a12, a22⟩

/-- Body of the second loop, normal_estimation.rs:269-291. -/
def covarianceStep (c : P3 α) (acc : Upper α × Nat) (p : P3 α) : Upper α × Nat :=
  if finitePoint p then (covarianceAdd c acc.1 p, acc.2 + 1) else acc

/-- `compute_covariance_matrix`, normal_estimation.rs:238-303. -/
def covarianceMatrix (points : List (P3 α)) : Out (Mat3 α) := do
  let c ← centroid points
  let zeros : Upper α := ⟨zero, zero, zero, zero, zero, zero⟩
  let (m, pointCount) :=
    if isDense points then (points.foldl (covarianceAdd c) zeros, points.length)
    else points.foldl (covarianceStep c) (zeros, 0)
  bailIf (pointCount < 3)
  pure ⟨⟨m.a00, m.a01, m.a02⟩, ⟨m.a01, m.a11, m.a12⟩, ⟨m.a02, m.a12, m.a22⟩⟩

/-- `solve_polynomial_quadratic`, normal_estimation.rs:306-323. -/
def solveQuadratic (coefficient2 coefficient1 : α) : P3 α :=
  let delta := coefficient2 ⊠ coefficient2 ⊟ ofInt 4 ⊠ coefficient1
  let delta := if lt delta zero then zero else delta
  let sqrtDelta := sqrt delta
  ⟨zero, half ⊠ (coefficient2 ⊟ sqrtDelta), half ⊠ (coefficient2 ⊞ sqrtDelta)⟩

/-- `sort_by(|a, b| a.partial_cmp(b).unwrap())` of three numbers (an insertion sort): all of them are compared, and a NaN
    panics. -/
def sort3 (v : P3 α) : Out (P3 α) :=
  if isNaN v.x || isNaN v.y || isNaN v.z then panicked
  else
    let (x, y) := if lt v.y v.x then (v.y, v.x) else (v.x, v.y)
    if lt v.z x then .ok ⟨v.z, x, y⟩ else if lt v.z y then .ok ⟨x, v.z, y⟩ else .ok ⟨x, y, v.z⟩

/-- `coefficient_0`, normal_estimation.rs:327-333. -/
def coefficient0 (a : Mat3 α) : α :=
  a.row0.x ⊠ a.row1.y ⊠ a.row2.z ⊞ ofInt 2 ⊠ a.row0.y ⊠ a.row0.z ⊠ a.row1.z ⊟ a.row0.x ⊠ a.row1.z ⊠ a.row1.z
    ⊟ a.row1.y ⊠ a.row0.z ⊠ a.row0.z ⊟ a.row2.z ⊠ a.row0.y ⊠ a.row0.y

/-- `coefficient_1`, normal_estimation.rs:334-339. -/
def coefficient1 (a : Mat3 α) : α :=
  a.row0.x ⊠ a.row1.y ⊟ a.row0.y ⊠ a.row0.y ⊞ a.row0.x ⊠ a.row2.z ⊟ a.row0.z ⊠ a.row0.z ⊞ a.row1.y ⊠ a.row2.z
    ⊟ a.row1.z ⊠ a.row1.z

/-- `coefficient_2`, normal_estimation.rs:340-341. -/
def coefficient2 (a : Mat3 α) : α := a.row0.x ⊞ a.row1.y ⊞ a.row2.z

/-- The roots of the cubic polynomial before sorting, normal_estimation.rs:347-376. -/
def cubicRoots (trig : Trig α) (c0 c1 c2 : α) : P3 α :=
  let oneThird := ofInt 1 ⊘ ofInt 3
  let sqrt3 := sqrt (ofInt 3)
  let c2Third := c2 ⊠ oneThird
  let alphaThird := (c1 ⊟ c2 ⊠ c2Third) ⊠ oneThird
  let alphaThird := if lt zero alphaThird then zero else alphaThird
  let halfBeta := half ⊠ (c0 ⊞ c2Third ⊠ (ofInt 2 ⊠ c2Third ⊠ c2Third ⊟ c1))
  let q := halfBeta ⊠ halfBeta ⊞ alphaThird ⊠ alphaThird ⊠ alphaThird
  let q := if lt zero q then zero else q
  let rho := sqrt (neg alphaThird)
  let theta := trig.atan2 (sqrt (neg q)) halfBeta ⊠ oneThird
  let cosTheta := trig.cos theta
  let sinTheta := trig.sin theta
  ⟨c2Third ⊞ ofInt 2 ⊠ rho ⊠ cosTheta, c2Third ⊟ rho ⊠ (cosTheta ⊞ sqrt3 ⊠ sinTheta),
   c2Third ⊟ rho ⊠ (cosTheta ⊟ sqrt3 ⊠ sinTheta)⟩

/-- `solve_polynomial`, normal_estimation.rs:326-390. -/
def solvePolynomial (trig : Trig α) (a : Mat3 α) : Out (P3 α) := do
  let c0 := coefficient0 a
  let c1 := coefficient1 a
  let c2 := coefficient2 a
  if lt (abs c0) epsilon then pure (solveQuadratic c2 c1)
  else
    let eigenValues ← sort3 (cubicRoots trig c0 c1 c2)
    if le eigenValues.x zero then pure (solveQuadratic c2 c1) else pure eigenValues

/-- `get_largest_eigen_vector`, normal_estimation.rs:393-424. The loop compares the first row with itself first. -/
def largestEigenVector (a : Mat3 α) : P3 α :=
  let rows := [Vec3.cross a.row0 a.row1, Vec3.cross a.row0 a.row2, Vec3.cross a.row1 a.row2]
  rows.foldl (fun largest row => if lt (Vec3.norm largest) (Vec3.norm row) then row else largest)
    (Vec3.cross a.row0 a.row1)

/-- `covariance_matrix.abs().max()`, normal_estimation.rs:428, column by column. -/
def largestEntry (a : Mat3 α) : α :=
  [a.row1.x, a.row2.x, a.row0.y, a.row1.y, a.row2.y, a.row0.z, a.row1.z, a.row2.z].foldl
    (fun m x => max m (abs x)) (abs a.row0.x)

/-- `covariance_matrix_scaled`, normal_estimation.rs:429-437 (the two loops do the same). -/
def scaled (a : Mat3 α) (s : α) : Mat3 α :=
  let row := fun r : P3 α => (⟨r.x ⊘ s, r.y ⊘ s, r.z ⊘ s⟩ : P3 α)
  ⟨row a.row0, row a.row1, row a.row2⟩

/-- `eigen_3x3`, normal_estimation.rs:427-451. Lines 444-447 change a copy of the diagonal, which has no effect. -/
def eigen3x3 (trig : Trig α) (a : Mat3 α) : Out (α × P3 α) := do
  let scale := largestEntry a
  let covarianceScaled := scaled a scale
  let eigenValues ← solvePolynomial trig a
  let eigenValue := eigenValues.x ⊠ scale
  pure (eigenValue, largestEigenVector covarianceScaled)

/-- `solve_plane_parameter`, normal_estimation.rs:454-465. -/
def solvePlaneParameter (trig : Trig α) (a : Mat3 α) : Out (P3 α × α) := do
  let (eigenValue, eigenVector) ← eigen3x3 trig a
  let eigenSum := a.row0.x ⊞ a.row1.y ⊞ a.row2.z
  let curvature := if Arith.eq eigenSum zero then zero else abs (eigenValue ⊘ eigenSum)
  pure (eigenVector, curvature)

/-- `normal_estimation`, normal_estimation.rs:468-474. -/
def normalEstimation (trig : Trig α) (points : List (P3 α)) : Out (P3 α × α) := do
  let a ← Voxel.unwrap (covarianceMatrix points)
  solvePlaneParameter trig a

end

open BorrowedBuffer

/-- `for point in point_cloud.view_attribute::<Vector3<f64>>(&POSITION_3D)`. -/
def positions {β : Type} [BorrowedBuffer β] (b : β) : Out (List (P3 F64)) := do
  let view ← AttributeView.new b .vec3f64 position3D
  let xs ← view.values b
  pure (xs.map readVec3F64)

/-- `compute_centroid`, normal_estimation.rs:196-235. -/
def computeCentroid {β : Type} [BorrowedBuffer β] (b : β) : Out (P3 F64) := do
  assertThat (len b ≠ 0)
  let points ← positions b
  centroid points

/-- Body of the loop that fills the buffer of the neighbors, normal_estimation.rs:113-118. -/
def neighborStep (b : HashMapBuffer) (ip : Nat × P3 F64) : Out HashMapBuffer := do
  let view ← AttributeView.new b .vec3f64 position3D
  AttributeView.setAt b view ip.1 (Reprojection.writeVec3F64 ip.2)

/-- The buffer of the neighbors, normal_estimation.rs:109-118. -/
def neighborBuffer (l : PointLayout) (nearest : List (P3 F64)) : Out HashMapBuffer :=
  let b := HashMapBuffer.newFromLayout l
  let b := b.resize nearest.length
  forLoop ((List.range nearest.length).zip nearest) b neighborStep

/-- `compute_normals`, normal_estimation.rs:77-128. `nearests points p k` are the at most `k` of the points that the
    k-d tree of `points` returns for the position `p`. -/
def computeNormals {β : Type} [BorrowedBuffer β] (trig : Trig F64)
    (nearests : List (P3 F64) → P3 F64 → Nat → List (P3 F64)) (b : β) (k : Nat) : Out (List (P3 F64 × F64)) := do
  assertThat (3 ≤ len b)
  assertThat (3 ≤ k)
  let points ← positions b
  points.mapM fun p => do
    let kb ← neighborBuffer (layout b) (nearests points p k)
    let points ← positions kb
    normalEstimation trig points

end Normals

end Pasture
