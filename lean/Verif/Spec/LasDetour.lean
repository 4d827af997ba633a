import Verif.Spec.LasReader

/-!
# Specification: layouts to read LAS files into
-/

namespace Pasture.Spec

/-- Positions, if there are any, are in double precision, and no attribute is one of those that only exist in the records
    of a file. -/
structure PlainTarget (target : PointLayout) : Prop where
  positions : ∀ m ∈ target.attributes, m.name = "Position3D" → m.datatype = .vec3f64
  names : ∀ m ∈ target.attributes, m.name ∉ ["LASLocalPosition", "LASBasicFlags", "LASExtendedFlags"]

end Pasture.Spec
