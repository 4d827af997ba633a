import Verif.Model.Bounds

/-!
# Model of the arithmetic of `AABB<f32>` and `AABB<f64>`, `pasture-core/src/math/bounds.rs`
-/

namespace Pasture.AABB

variable {F : FloatFormat}

/-- `extent`, bounds.rs:64-66. -/
def extent (b : AABB (Flt F)) : P3 (Flt F) :=
  ⟨b.max.x.sub b.min.x, b.max.y.sub b.min.y, b.max.z.sub b.min.z⟩

/-- `center`, bounds.rs:179-185, 219-225. -/
def center (b : AABB (Flt F)) : P3 (Flt F) :=
  let two := Flt.ofInt F 2
  ⟨(b.min.x.add b.max.x).div two, (b.min.y.add b.max.y).div two, (b.min.z.add b.max.z).div two⟩

/-- `contains_approx`, bounds.rs:228-242 (for `f64` only). -/
def containsApprox (b : AABB F64) (p : P3 F64) (epsilon : F64) : Bool :=
  !(Flt.lt (p.x.sub b.min.x) epsilon.negate || Flt.lt epsilon (p.x.sub b.max.x)
    || Flt.lt (p.y.sub b.min.y) epsilon.negate || Flt.lt epsilon (p.y.sub b.max.y)
    || Flt.lt (p.z.sub b.min.z) epsilon.negate || Flt.lt epsilon (p.z.sub b.max.z))

/-- The position in the order of `FloatOrd` (crate `float-ord`): that of the bits, with the sign. -/
def ordKey (x : Flt F) : Int := if x.neg then -(x.mag : Int) - 1 else x.mag

/-- `std::cmp::max(FloatOrd(a), FloatOrd(b)).0`. -/
def ordMax (a b : Flt F) : Flt F := if ordKey b < ordKey a then a else b

/-- `as_cubic`, bounds.rs:196-210, 253-267. -/
def asCubic (b : AABB (Flt F)) : AABB (Flt F) :=
  let e := b.extent
  let maxAxis := ordMax e.x (ordMax e.y e.z)
  let half := maxAxis.div (Flt.ofInt F 2)
  let c := b.center
  ⟨⟨c.x.sub half, c.y.sub half, c.z.sub half⟩, ⟨c.x.add half, c.y.add half, c.z.add half⟩⟩

end Pasture.AABB
