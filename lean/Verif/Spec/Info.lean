import Verif.Spec.Bounds
import Verif.Spec.Points

/-!
# Specification: the extents of attributes
-/

namespace Pasture.Spec

/-- The attributes the `info` tool reports, in this order. -/
def reportedAttributes : List (AttrDef × ValueType) :=
  [(⟨"Position3D", .vec3f64⟩, .vec3f64), (⟨"Intensity", .u16⟩, .scalar .u16), (⟨"ReturnNumber", .u8⟩, .scalar .u8),
    (⟨"NumberOfReturns", .u8⟩, .scalar .u8), (⟨"ScanDirectionFlag", .u8⟩, .scalar .u8),
    (⟨"EdgeOfFlightLine", .u8⟩, .scalar .u8), (⟨"Classification", .u8⟩, .scalar .u8),
    (⟨"ScanAngleRank", .i8⟩, .scalar .i8), (⟨"UserData", .u8⟩, .scalar .u8), (⟨"PointSourceID", .u16⟩, .scalar .u16),
    (⟨"ColorRGB", .vec3u16⟩, .vec3u16), (⟨"GpsTime", .f64⟩, .scalar .f64), (⟨"NIR", .u16⟩, .scalar .u16)]

/-- Component `k` of the values that the points have for the attribute. -/
def reportedValues (ps : List Point) (d : AttrDef) (k : Nat) : List Num :=
  ps.filterMap fun p => (p.get d).bind fun v => (numbersOf d.datatype v)[k]?

/-- The least and the greatest values of the attribute, component by component. -/
def IsExtent (d : AttrDef) (count : Nat) (ps : List Point) (lo hi : List Num) : Prop :=
  lo.length = count ∧ hi.length = count ∧ ∀ k < count, ∃ x y, lo[k]? = some x ∧ hi[k]? = some y ∧
    Least x (reportedValues ps d k) ∧ Greatest y (reportedValues ps d k)

/-- What is known about an attribute after some points of layout `l`: nothing before the first point and for attributes
    that the points do not have, its extent otherwise. -/
def Known (l : PointLayout) (ps : List Point) (d : AttrDef) (count : Nat) : Option (List Num × List Num) → Prop
  | none => ps = [] ∨ ∀ m ∈ l.attributes, m.name ≠ d.name
  | some (lo, hi) => (∃ m ∈ l.attributes, m.name = d.name) ∧ IsExtent d count ps lo hi

end Pasture.Spec
