import Verif.Model.Voxel

/-!
# Model of `pasture-algorithms/src/reprojection.rs`

The coordinate transformation itself is the work of the C library PROJ. It is a parameter: for the names of two
coordinate reference systems, a function on positions. (PROJ is not consulted about failures: a name that it does not
know, or a position that it cannot transform, does not show in the return types, so the function is total.)
-/

namespace Pasture.Reprojection

open BorrowedBuffer

/-- `Projection`, reprojection.rs:10-13, reduced to what `proj_trans` does with it: `transform`, reprojection.rs:38-45
    (forward direction, time 0, first three components of the result). -/
structure Projection where
  transform : P3 F64 → P3 F64

/-- `Projection::new`, reprojection.rs:16-35. `CString::new` fails for a string with a NUL character; `proj` is
    `proj_create_crs_to_crs`. -/
def Projection.new (proj : String → String → Projection) (sourceCrs targetCrs : String) : Out Projection := do
  bailIf (sourceCrs.toList.contains '\x00')
  bailIf (targetCrs.toList.contains '\x00')
  pure (proj sourceCrs targetCrs)

/-- `transform_bounds`, reprojection.rs:49-60. -/
def Projection.transformBounds (proj : Projection) (bounds : AABB F64) : AABB F64 :=
  let transformedMin := proj.transform ⟨bounds.min.x, bounds.min.y, bounds.min.z⟩
  let transformedMax := proj.transform ⟨bounds.max.x, bounds.max.y, bounds.max.z⟩
  let bounds : AABB F64 := ⟨transformedMin, transformedMin⟩
  bounds.extendWithPoint transformedMax

/-- The bytes of a `Vector3<f64>`. -/
def writeVec3F64 (p : P3 F64) : Bytes :=
  writeNum .f64 (.double p.x) ++ writeNum .f64 (.double p.y) ++ writeNum .f64 (.double p.z)

/-- Body of the loop of `reproject_point_cloud_within`, reprojection.rs:142-144. -/
def withinStep {β : Type} [BorrowedMutBuffer β] (proj : Projection) (v : AttributeView) (b : β) (i : Nat) : Out β := do
  let point ← AttributeView.get b v i
  let reproj := proj.transform (readVec3F64 point)
  AttributeView.setAt b v i (writeVec3F64 reproj)

/-- `reproject_point_cloud_within`, reprojection.rs:132-146. -/
def within {β : Type} [BorrowedMutBuffer β] (proj : String → String → Projection) (b : β)
    (sourceCrs targetCrs : String) : Out β := do
  let proj ← Voxel.unwrap (Projection.new proj sourceCrs targetCrs)
  let n := len b
  let v ← AttributeView.new b .vec3f64 position3D
  forLoop (List.range n) b (withinStep proj v)

/-- Body of the loop of `reproject_point_cloud_between`, reprojection.rs:219-226: the iterator fetches the value of the
    source, attribute_iterators.rs:38-55. -/
def betweenStep {β γ : Type} [BorrowedBuffer β] [BorrowedMutBuffer γ] (proj : Projection) (source : β) (m : Member)
    (target : AttributeView) (b : γ) (i : Nat) : Out γ := do
  let point ← getAttributeUnchecked source m i (zeros DataType.vec3f64.size)
  let reproj := proj.transform (readVec3F64 point)
  AttributeView.setAt b target i (writeVec3F64 reproj)

/-- `reproject_point_cloud_between`, reprojection.rs:201-227; returns the new target. (The source is borrowed mutably
    but only read.) -/
def between {β γ : Type} [BorrowedBuffer β] [BorrowedMutBuffer γ] (proj : String → String → Projection) (source : β)
    (target : γ) (sourceCrs targetCrs : String) : Out γ := do
  assertThat (len source = len target)
  let proj ← Voxel.unwrap (Projection.new proj sourceCrs targetCrs)
  let targetPositions ← AttributeView.new target .vec3f64 position3D
  let sourcePositions ← AttributeView.new source .vec3f64 position3D
  let m ← expectSome ((layout source).getAttribute sourcePositions.member.definition)
  forLoop (List.range (len source)) target (betweenStep proj source m targetPositions)

end Pasture.Reprojection
