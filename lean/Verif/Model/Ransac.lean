import Verif.Model.Vec3
import Verif.Model.Voxel

/-!
# Model of `pasture-algorithms/src/segmentation.rs`

Randomness: the values that the random number generator yields are parameters, a list of them for every iteration.
`none` means that a loop that draws until it has a new index was still drawing at the end of its list.
-/

namespace Pasture.Ransac

open BorrowedBuffer

/-- `Line`, segmentation.rs:13-17. -/
structure Line (α : Type) where
  first : P3 α
  second : P3 α
  ranking : Nat
  deriving DecidableEq, Repr

/-- `Plane`, segmentation.rs:22-28. -/
structure Plane (α : Type) where
  a : α
  b : α
  c : α
  d : α
  ranking : Nat
  deriving DecidableEq, Repr

section
open Arith
variable {α : Type} [Arith α]

/-- `distance_point_plane`, segmentation.rs:31-35. -/
def distancePointPlane (point : P3 α) (plane : Plane α) : α :=
  let d := abs (add (add (add (mul plane.a point.x) (mul plane.b point.y)) (mul plane.c point.z)) plane.d)
  let e := sqrt (add (add (mul plane.a plane.a) (mul plane.b plane.b)) (mul plane.c plane.c))
  div d e

/-- `distance_point_line`, segmentation.rs:39-44. -/
def distancePointLine (point : P3 α) (line : Line α) : α :=
  div (Vec3.norm (Vec3.cross (Vec3.sub line.second line.first) (Vec3.sub line.first point)))
    (Vec3.norm (Vec3.sub line.second line.first))

/-- The plane through three points, segmentation.rs:64-75. -/
def planeThrough (pA pB pC : P3 α) : Plane α :=
  let vec1 := Vec3.sub pB pA
  let vec2 := Vec3.sub pC pA
  let normal := Vec3.cross vec1 vec2
  let d := neg (Vec3.dot normal pA)
  ⟨normal.x, normal.y, normal.z, d, 0⟩

end

/-- `let mut r = rng.gen_range(0..n); while bad(r) { r = rng.gen_range(0..n); }` for `n > 0`: the generator's values
    are brought into the range, which is the only thing known about `gen_range`. -/
def drawUntil (bad : Nat → Bool) (n : Nat) : List Nat → Option (Nat × List Nat)
  | [] => none
  | r :: rs => if bad (r % n) then drawUntil bad n rs else some (r % n, rs)

/-- `buffer.view_attribute(&POSITION_3D).at(i)`. -/
def positionAt {β : Type} [BorrowedBuffer β] (b : β) (i : Nat) : Out (P3 F64) := do
  let v ← Voxel.valueAt b .vec3f64 position3D i
  pure (readVec3F64 v)

/-- `generate_rng_plane`, segmentation.rs:47-76. `gen_range` panics on an empty range. -/
def generateRngPlane {β : Type} [BorrowedBuffer β] (b : β) (draws : List Nat) : Option (Out (Plane F64)) :=
  if len b = 0 then some panicked
  else do
    let (rand1, draws) ← drawUntil (fun _ => false) (len b) draws
    let (rand2, draws) ← drawUntil (fun r => rand1 == r) (len b) draws
    let (rand3, _) ← drawUntil (fun r => rand2 == r || rand1 == r) (len b) draws
    some (do
      let pA ← positionAt b rand1
      let pB ← positionAt b rand2
      let pC ← positionAt b rand3
      pure (planeThrough pA pB pC))

/-- `generate_rng_line`, segmentation.rs:79-94. -/
def generateRngLine {β : Type} [BorrowedBuffer β] (b : β) (draws : List Nat) : Option (Out (Line F64)) :=
  if len b = 0 then some panicked
  else do
    let (rand1, draws) ← drawUntil (fun _ => false) (len b) draws
    let (rand2, _) ← drawUntil (fun r => rand1 == r) (len b) draws
    some (do
      let first ← positionAt b rand1
      let second ← positionAt b rand2
      pure ⟨first, second, 0⟩)

/-- `buffer.view_attribute::<Vector3<f64>>(&POSITION_3D).into_iter().enumerate()`. -/
def enumeratePositions {β : Type} [BorrowedBuffer β] (b : β) : Out (List (Nat × P3 F64)) := do
  let view ← AttributeView.new b .vec3f64 position3D
  let xs ← view.values b
  pure ((List.range xs.length).zip (xs.map readVec3F64))

/-- Body of the loop of `generate_line_model`, segmentation.rs:106-111. -/
def lineStep (threshold : F64) (acc : Line F64 × List Nat) (ip : Nat × P3 F64) : Line F64 × List Nat :=
  let distance := distancePointLine ip.2 acc.1
  if Flt.lt distance threshold then ({ acc.1 with ranking := acc.1.ranking + 1 }, acc.2 ++ [ip.1]) else acc

/-- `generate_line_model`, segmentation.rs:96-115. -/
def generateLineModel {β : Type} [BorrowedBuffer β] (b : β) (threshold : F64) (draws : List Nat) :
    Option (Out (Line F64 × List Nat)) := do
  let hypo ← generateRngLine b draws
  some (do
    let line ← hypo
    let ps ← enumeratePositions b
    pure (ps.foldl (lineStep threshold) (line, [])))

/-- Body of the loop of `generate_plane_model`, segmentation.rs:130-135. -/
def planeStep (threshold : F64) (acc : Plane F64 × List Nat) (ip : Nat × P3 F64) : Plane F64 × List Nat :=
  let distance := distancePointPlane ip.2 acc.1
  if Flt.lt distance threshold then ({ acc.1 with ranking := acc.1.ranking + 1 }, acc.2 ++ [ip.1]) else acc

/-- `generate_plane_model`, segmentation.rs:117-138. -/
def generatePlaneModel {β : Type} [BorrowedBuffer β] (b : β) (threshold : F64) (draws : List Nat) :
    Option (Out (Plane F64 × List Nat)) := do
  let hypo ← generateRngPlane b draws
  some (do
    let plane ← hypo
    let ps ← enumeratePositions b
    pure (ps.foldl (planeStep threshold) (plane, [])))

/-! ## The best model -/

/-- One step of `max_by` with `|(x, _), (a, _)| x.ranking.cmp(&a.ranking)`, of the standard library and of rayon: the
    first argument if it is greater, otherwise the second. -/
def maxStep {μ : Type} (ranking : μ → Nat) (x y : μ) : μ := if ranking x > ranking y then x else y

/-- `Iterator::max_by`. -/
def maxBy {μ : Type} (ranking : μ → Nat) : List μ → Option μ
  | [] => none
  | m :: ms => some (ms.foldl (maxStep ranking) m)

/-- The models of all iterations, in order; the first panic ends the loop. -/
def runAll {μ : Type} (generate : List Nat → Option (Out μ)) : List (List Nat) → Option (Out (List μ))
  | [] => some (.ok [])
  | ds :: rest => do
    let m ← generate ds
    match m with
    | .error f => some (.error f)
    | .ok m =>
      let ms ← runAll generate rest
      some (ms.map fun ms => m :: ms)

/-- The part the serial functions share: `.map(..).max_by(..).unwrap()`. -/
def bestSerial {μ : Type} (generate : List Nat → Option (Out μ)) (ranking : μ → Nat) (draws : List (List Nat)) :
    Option (Out μ) := do
  let models ← runAll generate draws
  some (do
    let ms ← models
    expectSome (maxBy ranking ms))

/-- How rayon splits the iterations and joins the results: the leaves are the iterations, in order. -/
inductive Schedule where
  | idle
  | iteration (draws : List Nat)
  | join (left right : Schedule)
  deriving DecidableEq, Repr

/-- The iterations of a schedule. -/
def Schedule.iterations : Schedule → List (List Nat)
  | .idle => []
  | .iteration ds => [ds]
  | .join l r => l.iterations ++ r.iterations

/-- Joining two results of rayon's `max_by`, of which each may be missing. -/
def joinBest {μ : Type} (ranking : μ → Nat) : Option μ → Option μ → Option μ
  | none, y => y
  | some x, none => some x
  | some x, some y => some (maxStep ranking x y)

/-- rayon's `into_par_iter().map(..).max_by(..)`. A panic of either side is a panic of the whole. -/
def reduce {μ : Type} (generate : List Nat → Option (Out μ)) (ranking : μ → Nat) : Schedule → Option (Out (Option μ))
  | .idle => some (.ok none)
  | .iteration ds => (generate ds).map fun m => m.map some
  | .join l r => do
    let x ← reduce generate ranking l
    let y ← reduce generate ranking r
    some (do
      let x ← x
      let y ← y
      pure (joinBest ranking x y))

/-- The part the parallel functions share. -/
def bestParallel {μ : Type} (generate : List Nat → Option (Out μ)) (ranking : μ → Nat) (schedule : Schedule) :
    Option (Out μ) := do
  let best ← reduce generate ranking schedule
  some (do
    let best ← best
    expectSome best)

/-- `ransac_plane_serial`, segmentation.rs:239-253; there are as many iterations as lists of draws. -/
def ransacPlaneSerial {β : Type} [BorrowedBuffer β] (b : β) (threshold : F64) (draws : List (List Nat)) :
    Option (Out (Plane F64 × List Nat)) :=
  if len b < 3 then some panicked
  else bestSerial (generatePlaneModel b threshold) (fun m => m.1.ranking) draws

/-- `ransac_plane_par`, segmentation.rs:180-197. -/
def ransacPlanePar {β : Type} [BorrowedBuffer β] (b : β) (threshold : F64) (schedule : Schedule) :
    Option (Out (Plane F64 × List Nat)) :=
  if len b < 3 then some panicked
  else bestParallel (generatePlaneModel b threshold) (fun m => m.1.ranking) schedule

/-- `ransac_line_serial`, segmentation.rs:353-370. -/
def ransacLineSerial {β : Type} [BorrowedBuffer β] (b : β) (threshold : F64) (draws : List (List Nat)) :
    Option (Out (Line F64 × List Nat)) :=
  if len b < 2 then some panicked
  else bestSerial (generateLineModel b threshold) (fun m => m.1.ranking) draws

/-- `ransac_line_par`, segmentation.rs:295-311. -/
def ransacLinePar {β : Type} [BorrowedBuffer β] (b : β) (threshold : F64) (schedule : Schedule) :
    Option (Out (Line F64 × List Nat)) :=
  if len b < 2 then some panicked
  else bestParallel (generateLineModel b threshold) (fun m => m.1.ranking) schedule

end Pasture.Ransac
