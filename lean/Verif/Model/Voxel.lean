import Verif.Model.Bounds
import Verif.Model.UntypedPoint
import Verif.Model.Las
import Verif.Model.Pnts

/-!
# Model of `pasture-algorithms/src/voxel_grid.rs`

The loops that place the markers need not end. They get a number of steps (`fuel`), and `none` means that
they were still running after that many steps; memory is unbounded. A `HashMap` is an association list,
and the order in which it is iterated over is a parameter.
-/

namespace Pasture.Voxel

open BorrowedBuffer OwningBuffer

/-- `Voxel`, voxel_grid.rs:14-17. -/
structure Voxel where
  pos : P3 Nat
  points : List Nat
  deriving DecidableEq, Repr

/-! ## The voxel of a point -/

/-- A loop `while !markers.is_empty() && markers[index] < p { index += 1; }` of `find_leaf`, voxel_grid.rs:29-37,
    for markers that are not empty: the markers from `index` on are given. Indexing past the end panics. -/
def passMarkers (p : F64) : List F64 → Nat → Out Nat
  | [], _ => panicked
  | m :: ms, i => if Flt.lt m p then passMarkers p ms (i + 1) else .ok i

/-- `find_leaf` on one axis, voxel_grid.rs:26, 29-31, 39-41. -/
def leafOnAxis (p : F64) (markers : List F64) : Out Nat := do
  let i ← if markers.isEmpty then pure 0 else passMarkers p markers 0
  if i > 0 then
    let lower ← expectSome markers[i - 1]?
    let upper ← expectSome markers[i]?
    if Flt.lt (p.sub lower) (upper.sub p) then pure (i - 1) else pure i
  else pure i

/-- `find_leaf`, voxel_grid.rs:20-49. -/
def findLeaf (p : P3 F64) (mx my mz : List F64) : Out (P3 Nat) := do
  let x ← leafOnAxis p.x mx
  let y ← leafOnAxis p.y my
  let z ← leafOnAxis p.z mz
  pure ⟨x, y, z⟩

/-- A loop of `create_markers_for_axis`, voxel_grid.rs:64-67, 68-71, 72-75. -/
def markersOnAxis : Nat → F64 → F64 → F64 → Option (List F64)
  | 0, _, _, _ => none
  | fuel + 1, curr, max, leafsize =>
    if Flt.lt curr max then
      let curr := curr.add leafsize
      (markersOnAxis fuel curr max leafsize).map fun ms => curr :: ms
    else some []

/-- `create_markers_for_axis`, voxel_grid.rs:52-77. -/
def createMarkers (fuel : Nat) (box : AABB F64) (leafsize : P3 F64) :
    Option (List F64 × List F64 × List F64) := do
  let mx ← markersOnAxis fuel box.min.x box.max.x leafsize.x
  let my ← markersOnAxis fuel box.min.y box.max.y leafsize.y
  let mz ← markersOnAxis fuel box.min.z box.max.z leafsize.z
  pure (mx, my, mz)

/-! ## The voxels -/

/-- `<` on tuples `(usize, usize, usize)`. -/
def posLt (a b : P3 Nat) : Bool :=
  decide (a.x < b.x) || (decide (a.x = b.x) && (decide (a.y < b.y) || (decide (a.y = b.y) && decide (a.z < b.z))))

/-- The result of a binary search: `Ok(index)` or `Err(index)`. -/
inductive Search where
  | found (index : Nat)
  | insertAt (index : Nat)
  deriving DecidableEq, Repr

/-- The loop of the standard library's `binary_search_by_key(&pos, |v| v.pos)`; `right - left` halves in every
    step, `fuel` is at least that. -/
def searchLoop (voxels : List Voxel) (pos : P3 Nat) : Nat → Nat → Nat → Out Search
  | 0, left, _ => .ok (.insertAt left)
  | fuel + 1, left, right =>
    if left < right then do
      let mid := left + (right - left) / 2
      let v ← expectSome voxels[mid]?
      if v.pos = pos then pure (.found mid)
      else if posLt v.pos pos then searchLoop voxels pos fuel (mid + 1) right
      else searchLoop voxels pos fuel left mid
    else .ok (.insertAt left)

/-- `binary_search_by_key(&pos, |v| v.pos)`. -/
def binarySearch (voxels : List Voxel) (pos : P3 Nat) : Out Search :=
  searchLoop voxels pos voxels.length 0 voxels.length

/-- `Vec::insert`. -/
def vecInsert {α : Type} (xs : List α) (i : Nat) (x : α) : Out (List α) :=
  if i ≤ xs.length then .ok (xs.take i ++ x :: xs.drop i) else panicked

/-- `voxels[index].points.push(i)`. -/
def pushPoint (voxels : List Voxel) (index i : Nat) : Out (List Voxel) := do
  let v ← expectSome voxels[index]?
  pure (voxels.set index { v with points := v.points ++ [i] })

/-- Body of the loop over the points, voxel_grid.rs:132-152. -/
def voxelStep (mx my mz : List F64) (voxels : List Voxel) (ip : Nat × P3 F64) : Out (List Voxel) := do
  let pos ← findLeaf ip.2 mx my mz
  let found ← binarySearch voxels pos
  match found with
  | .found index => pushPoint voxels index ip.1
  | .insertAt index => vecInsert voxels index ⟨pos, [ip.1]⟩

/-- The loop over the points, voxel_grid.rs:129-153. -/
def collectVoxels (mx my mz : List F64) (positions : List (P3 F64)) : Out (List Voxel) :=
  forLoop ((List.range positions.length).zip positions) [] (voxelStep mx my mz)

/-! ## The attributes of the centroid -/

/-- `buffer.view_attribute::<T>(attribute_definition).at(p)`. -/
def valueAt {β : Type} [BorrowedBuffer β] (b : β) (ty : DataType) (d : AttrDef) (p : Nat) : Out Bytes := do
  let v ← AttributeView.new b ty d
  v.get b p

/-- The number types the functions for numbers distinguish, e.g. voxel_grid.rs:175-206. -/
def numberType : DataType → Option Prim
  | .u8 => some .u8 | .i8 => some .i8 | .u16 => some .u16 | .i16 => some .i16 | .u32 => some .u32
  | .i32 => some .i32 | .u64 => some .u64 | .i64 => some .i64 | .f32 => some .f32 | .f64 => some .f64
  | _ => none

/-- The vector types `centroid_average_vec` distinguishes, voxel_grid.rs:341-375. -/
def vectorType : DataType → Option Prim
  | .vec3u8 => some .u8 | .vec3u16 => some .u16 | .vec3f32 => some .f32 | .vec3f64 => some .f64
  | _ => none

/-- `value as f64`. -/
def asF64 (n : Num) : F64 :=
  match asNum .f64 n with
  | .double x => x
  | _ => Flt.zero .f64

/-- Body of the loop of `centroid_max_pool`, voxel_grid.rs:174-210. -/
def maxPoolStep {β : Type} [BorrowedBuffer β] (b : β) (d : AttrDef) (ty : DataType) (currMax : F64) (p : Nat) :
    Out F64 :=
  match numberType ty with
  | none => panicked
  | some t => do
    let v ← valueAt b ty d p
    let value := asF64 (readNum t v)
    if Flt.lt currMax value then pure value else pure currMax

/-- `centroid_max_pool`, voxel_grid.rs:166-213. -/
def maxPool {β : Type} [BorrowedBuffer β] (b : β) (d : AttrDef) (ty : DataType) (points : List Nat) : Out F64 :=
  forLoop points (Flt.zero .f64) (maxPoolStep b d ty)

/-- `*map.entry(key).or_insert(0) += 1`. -/
def countKey (map : List (Int × Nat)) (key : Int) : List (Int × Nat) :=
  if (map.lookup key).isSome then map.map fun e => if e.1 = key then (e.1, e.2 + 1) else e
  else map ++ [(key, 1)]

/-- Body of the first loop of `centroid_most_common`, voxel_grid.rs:223-316. The keys are the numbers instead of
    their decimal representations, which are parsed again at the end. Floats, which cannot always be parsed as
    integers, are left out: no attribute of a floating point type is treated this way. -/
def countStep {β : Type} [BorrowedBuffer β] (b : β) (d : AttrDef) (ty : DataType) (map : List (Int × Nat)) (p : Nat) :
    Out (List (Int × Nat)) :=
  match numberType ty with
  | none => panicked
  | some t => do
    let v ← valueAt b ty d p
    match readNum t v with
    | .int z => pure (countKey map z)
    | _ => panicked

/-- Body of the second loop of `centroid_most_common`, voxel_grid.rs:320-325: `(highest_count, curr_key)`; the
    key is at first the empty string. -/
def highestStep (acc : Nat × Option Int) (e : Int × Nat) : Nat × Option Int :=
  if e.2 > acc.1 then (e.2, some e.1) else acc

/-- `centroid_most_common`, voxel_grid.rs:216-327. `order` is the order in which the map is iterated over. Parsing
    the empty string panics. -/
def mostCommon {β : Type} [BorrowedBuffer β] (order : List (Int × Nat) → List (Int × Nat)) (b : β) (d : AttrDef)
    (ty : DataType) (points : List Nat) : Out Int := do
  let map ← forLoop points [] (countStep b d ty)
  expectSome ((order map).foldl highestStep (0, none)).2

/-- Body of the loop of `centroid_average_vec`, voxel_grid.rs:340-376. -/
def sumVecStep {β : Type} [BorrowedBuffer β] (b : β) (d : AttrDef) (ty : DataType) (sum : P3 F64) (p : Nat) :
    Out (P3 F64) :=
  match vectorType ty with
  | none => panicked
  | some t => do
    let v ← valueAt b ty d p
    let c := fun i => asF64 (readNum t (Converter.component t.size i v))
    pure ⟨sum.x.add (c 0), sum.y.add (c 1), sum.z.add (c 2)⟩

/-- `v.points.len() as f64`. -/
def countF64 (points : List Nat) : F64 := Flt.ofInt .f64 points.length

/-- `centroid_average_vec`, voxel_grid.rs:331-384. -/
def averageVec {β : Type} [BorrowedBuffer β] (b : β) (d : AttrDef) (ty : DataType) (points : List Nat) :
    Out (P3 F64) := do
  let zero := Flt.zero .f64
  let sum ← forLoop points ⟨zero, zero, zero⟩ (sumVecStep b d ty)
  let n := countF64 points
  pure ⟨sum.x.div n, sum.y.div n, sum.z.div n⟩

/-- Body of the loop of `centroid_average_num`, voxel_grid.rs:395-435. -/
def sumNumStep {β : Type} [BorrowedBuffer β] (b : β) (d : AttrDef) (ty : DataType) (sum : F64) (p : Nat) : Out F64 :=
  match numberType ty with
  | none => panicked
  | some t => do
    let v ← valueAt b ty d p
    pure (sum.add (asF64 (readNum t v)))

/-- `centroid_average_num`, voxel_grid.rs:388-437. -/
def averageNum {β : Type} [BorrowedBuffer β] (b : β) (d : AttrDef) (ty : DataType) (points : List Nat) : Out F64 := do
  let sum ← forLoop points (Flt.zero .f64) (sumNumStep b d ty)
  pure (sum.div (countF64 points))

/-- What `set_all_attributes` does with an attribute: a function of this file, and `as p`. -/
inductive Reduction where
  | averageVec (p : Prim)
  | averageNum (p : Prim)
  | mostCommon (p : Prim)
  | mostCommonFlag
  | maxPool (p : Prim)
  deriving DecidableEq, Repr

/-- `POINT_ID`, point_layout.rs:611-614. -/
def pointId : AttrDef := ⟨"PointID", .u64⟩

/-- The cascade of `if a.name() == .. && a.datatype() == ..` in `set_all_attributes`, voxel_grid.rs:462-685. -/
def reductions : List (AttrDef × Reduction) :=
  [(Las.position3D, .averageVec .f64), (Las.intensity, .averageNum .u16), (Las.returnNumber, .mostCommon .u8),
   (Las.numberOfReturns, .mostCommon .u8), (Las.classificationFlags, .maxPool .u8), (Las.scannerChannel, .mostCommon .u8),
   (Las.scanDirectionFlag, .mostCommonFlag), (Las.edgeOfFlightLine, .mostCommonFlag), (Las.classification, .mostCommon .u8),
   (Las.scanAngleRank, .mostCommon .i8), (Las.scanAngle, .mostCommon .i16), (Las.userData, .mostCommon .u8),
   (Las.pointSourceId, .mostCommon .u16), (Las.colorRgb, .averageVec .u16), (Las.gpsTime, .maxPool .f64),
   (Las.nir, .averageNum .u16), (pointId, .maxPool .u64), (Tiles3d.normal, .averageVec .f32)]

/-- The waveform attributes, voxel_grid.rs:450-454. -/
def waveformAttributes : List AttrDef :=
  [Las.waveformDataOffset, Las.waveformPacketSize, Las.waveformParameters, Las.wavePacketDescriptorIndex,
   Las.returnPointWaveformLocation]

/-- `bytemuck::bytes_of(&(x as p))`. -/
def castBytes (p : Prim) (n : Num) : Bytes := writeNum p (asNum p n)

/-- One branch of `set_all_attributes`: the bytes that are set. -/
def reducedValue {β : Type} [BorrowedBuffer β] (order : List (Int × Nat) → List (Int × Nat)) (b : β) (d : AttrDef)
    (points : List Nat) : Reduction → Out Bytes
  | .averageVec p => do
    let v ← averageVec b d d.datatype points
    pure (castBytes p (.double v.x) ++ castBytes p (.double v.y) ++ castBytes p (.double v.z))
  | .averageNum p => do
    let x ← averageNum b d d.datatype points
    pure (castBytes p (.double x))
  | .mostCommon p => do
    let z ← mostCommon order b d d.datatype points
    pure (castBytes p (.int z))
  | .mostCommonFlag => do
    let z ← mostCommon order b d d.datatype points
    pure [if z ≠ 0 then 1#8 else 0#8]
  | .maxPool p => do
    let x ← maxPool b d d.datatype points
    pure (castBytes p (.double x))

/-- `Result::unwrap`. -/
def unwrap {α : Type} : Out α → Out α
  | .error .err => panicked
  | r => r

/-- Body of the loop of `set_all_attributes`, voxel_grid.rs:459-686. -/
def setStep {β : Type} [BorrowedBuffer β] (order : List (Int × Nat) → List (Int × Nat)) (b : β) (points : List Nat)
    (centroid : UntypedPoint) (a : Member) : Out UntypedPoint :=
  match reductions.lookup a.definition with
  | none => panicked
  | some r => do
    let v ← reducedValue order b a.definition points r
    unwrap (centroid.setRawAttribute a.definition v)

/-- `set_all_attributes`, voxel_grid.rs:441-687. -/
def setAllAttributes {β : Type} [BorrowedBuffer β] (order : List (Int × Nat) → List (Int × Nat)) (target : PointLayout)
    (centroid : UntypedPoint) (points : List Nat) (b : β) : Out UntypedPoint :=
  if waveformAttributes.any target.hasAttribute then panicked
  else forLoop target.attributes centroid (setStep order b points)

/-! ## The filter -/

/-- Body of the loop over the voxels, voxel_grid.rs:155-164. -/
def centroidStep {β γ : Type} [BorrowedBuffer β] [OwningBuffer γ] (order : List (Int × Nat) → List (Int × Nat)) (b : β)
    (filtered : γ) (v : Voxel) : Out γ := do
  let l := layout filtered
  let centroid ← setAllAttributes order l (UntypedPoint.new l) v.points b
  pushPoints filtered centroid.buffer

/-- `voxelgrid_filter` after the markers are placed, voxel_grid.rs:126-165. -/
def filterWith {β γ : Type} [BorrowedBuffer β] [OwningBuffer γ] (order : List (Int × Nat) → List (Int × Nat)) (b : β)
    (mx my mz : List F64) (filtered : γ) : Out γ := do
  let view ← AttributeView.new b .vec3f64 position3D
  let xs ← view.values b
  let voxels ← collectVoxels mx my mz (xs.map readVec3F64)
  forLoop voxels filtered (centroidStep order b)

/-- `voxelgrid_filter`, voxel_grid.rs:107-165. -/
def voxelgridFilter {β γ : Type} [BorrowedBuffer β] [OwningBuffer γ] (fuel : Nat)
    (order : List (Int × Nat) → List (Int × Nat)) (b : β) (leafsize : P3 F64) (filtered : γ) : Option (Out γ) :=
  if ¬ (layout b).hasAttribute position3D then some panicked
  else
    match calculateBounds b with
    | .error f => some (.error f)
    | .ok none => some panicked
    | .ok (some box) =>
      match createMarkers fuel box leafsize with
      | none => none
      | some (mx, my, mz) => some (filterWith order b mx my mz filtered)

end Pasture.Voxel
