import Verif.Spec.Bounds
import Verif.Spec.Float

/-!
# Specification: the voxel grid

Every axis has markers at `lo + leaf`, `lo + leaf + leaf`, ... up to the first one that is not below `hi`
(computed with `f64`s). A voxel is a triple of markers; a point belongs to the voxel whose markers are
nearest to it.
-/

namespace Pasture.Spec

/-- A float that is neither infinite nor NaN. -/
def Finite {F : FloatFormat} (x : Flt F) : Prop := x.isFinite = true

/-- `lo + leaf + .. + leaf`, with `k` summands `leaf`, rounded after every addition. -/
def marker (lo leaf : F64) : Nat → F64
  | 0 => lo
  | k + 1 => (marker lo leaf k).add leaf

/-- The `k` markers of an axis. -/
def markersOf (lo leaf : F64) (k : Nat) : List F64 := (List.range k).map fun i => marker lo leaf (i + 1)

/-- `k` markers are needed to reach `hi`. -/
def Reaches (lo hi leaf : F64) (k : Nat) : Prop :=
  (∀ i < k, Flt.lt (marker lo leaf i) hi = true) ∧ Flt.lt (marker lo leaf k) hi = false

/-- The distance from a coordinate to a marker, as computed. -/
def distance (x m : F64) : F64 := if Flt.lt m x then x.sub m else m.sub x

/-- Marker number `j` is nearest to `x`, according to the computed distances. An axis without markers (all points
    have the same coordinate) has one voxel, number 0. -/
def NearestMarker (ms : List F64) (x : F64) (j : Nat) : Prop :=
  (ms = [] ∧ j = 0) ∨ ∃ m, ms[j]? = some m ∧ ∀ m' ∈ ms, Flt.le (distance x m) (distance x m') = true

/-- Lexicographic order of voxels. -/
def LexLt (a b : P3 Nat) : Prop :=
  a.x < b.x ∨ (a.x = b.x ∧ (a.y < b.y ∨ (a.y = b.y ∧ a.z < b.z)))

instance (a b : P3 Nat) : Decidable (LexLt a b) := by unfold LexLt; infer_instance

/-- The markers on the three axes. -/
structure Grid where
  x : List F64
  y : List F64
  z : List F64

/-- Voxel `v` is nearest to `p` on each axis. -/
def Grid.Nearest (g : Grid) (p : P3 F64) (v : P3 Nat) : Prop :=
  NearestMarker g.x p.x v.x ∧ NearestMarker g.y p.y v.y ∧ NearestMarker g.z p.z v.z

/-- The non-empty voxels, each with the indices of its points: in lexicographic order; the points in the order of
    the buffer; every point in exactly one voxel, which is nearest to it. -/
structure IsPartition (g : Grid) (positions : List (P3 F64)) (voxels : List (P3 Nat × List Nat)) : Prop where
  sorted : voxels.Pairwise fun a b => LexLt a.1 b.1
  nonempty : ∀ v ∈ voxels, v.2 ≠ []
  increasing : ∀ v ∈ voxels, v.2.Pairwise (· < ·)
  nearest : ∀ v ∈ voxels, ∀ i ∈ v.2, ∃ p, positions[i]? = some p ∧ g.Nearest p v.1
  exactlyOne : ∀ i < positions.length, ∃! v, v ∈ voxels ∧ i ∈ v.2

/-- The positions of points. -/
def positionsOf (ps : List Point) : List (P3 F64) := (ps.filterMap fun p => p.get position3D).map positionOf

/-! ## The attributes of an output point -/

/-- A number as `f64`. -/
def toDouble (n : Num) : F64 :=
  match asNum .f64 n with
  | .double x => x
  | _ => Flt.zero .f64

/-- The mean as computed: the sum, rounded after every addition, divided by the count. -/
def computedMean (xs : List F64) : F64 := (xs.foldl Flt.add (Flt.zero .f64)).div (Flt.ofInt .f64 xs.length)

/-- `z` is one of the numbers, and none occurs more often. -/
def MostCommon (z : Int) (zs : List Int) : Prop := z ∈ zs ∧ ∀ y, zs.count y ≤ zs.count z

/-- The numbers of integer values. -/
def integersOf (t : DataType) (vals : List Bytes) : List Int :=
  vals.filterMap fun v =>
    match numbersOf t v with
    | [.int z] => some z
    | _ => none

/-- The values of attribute `d` of the points with the given indices. -/
def valuesAt (ps : List Point) (indices : List Nat) (d : AttrDef) : List Bytes :=
  indices.filterMap fun i => ps[i]?.bind fun p => p.get d

/-- Attributes whose mean is taken. -/
def averaged : List AttrDef :=
  [⟨"Position3D", .vec3f64⟩, ⟨"Intensity", .u16⟩, ⟨"NIR", .u16⟩, ⟨"ColorRGB", .vec3u16⟩, ⟨"Normal", .vec3f32⟩]

/-- Attributes whose most common value is taken. -/
def elected : List AttrDef :=
  [⟨"ReturnNumber", .u8⟩, ⟨"NumberOfReturns", .u8⟩, ⟨"ScannerChannel", .u8⟩, ⟨"Classification", .u8⟩,
   ⟨"ScanAngleRank", .i8⟩, ⟨"ScanAngle", .i16⟩, ⟨"UserData", .u8⟩, ⟨"PointSourceID", .u16⟩]

/-- Attributes for which it is said whether their most common value is 0. -/
def flags : List AttrDef := [⟨"ScanDirectionFlag", .u8⟩, ⟨"EdgeOfFlightLine", .u8⟩]

/-- Attributes whose greatest value is taken. -/
def pooled : List AttrDef := [⟨"ClassificationFlags", .u8⟩, ⟨"GpsTime", .f64⟩, ⟨"PointID", .u64⟩]

/-- The attributes an output point may have. -/
def reducible : List AttrDef := averaged ++ elected ++ flags ++ pooled

/-- The target layout has only attributes that can be computed from those of the source layout. -/
def Covered (l l2 : PointLayout) : Prop :=
  ∀ m ∈ l2.attributes, m.definition ∈ reducible ∧ m.definition ∈ l.attributes.map Member.definition

/-- `v` is what becomes of the values `vals` of attribute `d`. -/
structure Reduced (d : AttrDef) (vals : List Bytes) (v : Bytes) : Prop where
  mean : d ∈ averaged → ∀ p, numberType d.datatype = some p → ∀ (j : Nat) x, (numbersOf d.datatype v)[j]? = some x →
    x = asNum p (.double (computedMean ((vals.filterMap fun w => (numbersOf d.datatype w)[j]?).map toDouble)))
  mode : d ∈ elected → ∃ z, numbersOf d.datatype v = [.int z] ∧ MostCommon z (integersOf d.datatype vals)
  flag : d ∈ flags → ∃ z, numbersOf d.datatype v = [.int (if z = 0 then 0 else 1)] ∧
    MostCommon z (integersOf d.datatype vals)
  pool : d ∈ pooled → ∀ p, numberType d.datatype = some p → ∃ x, numbersOf d.datatype v = [asNum p (.double x)] ∧
    Greatest x (Flt.zero .f64 :: ((vals.flatMap (numbersOf d.datatype)).map toDouble).filter fun y => !y.isNaN)

/-- The point made of the points with the given indices. -/
def IsCentroid (l : PointLayout) (ps : List Point) (indices : List Nat) (q : Point) : Prop :=
  q.map Prod.fst = l.attributes.map Member.definition ∧
    ∀ m ∈ l.attributes, ∃ v, q.get m.definition = some v ∧ v.length = m.size ∧
      Reduced m.definition (valuesAt ps indices m.definition) v

end Pasture.Spec
