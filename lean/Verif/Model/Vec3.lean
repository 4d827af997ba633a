import Mathlib.Data.Nat.Sqrt
import Verif.Model.Bounds

/-!
# Model of the vector arithmetic of nalgebra

The source of nalgebra is not part of the repository; the order of the operations is the one of its version 0.3x
(`cross`, the special case of `dot` for three components, `norm_squared`, `norm`). The functions are written for any
type with these operations, so that the formulas can also be read with exact numbers.
-/

namespace Pasture

namespace Flt

/-- `x.abs()`. -/
def abs {F : FloatFormat} (x : Flt F) : Flt F := ⟨false, x.mag⟩

/-- `x.sqrt()`: the square root of `u` units is the square root of `u * one` in units. Twice this root, rounded down
    to an integer and followed by a bit that tells whether something was cut off, rounds like the root itself. -/
def sqrt {F : FloatFormat} (x : Flt F) : Flt F :=
  if x.isNaN then nan F
  else if x.mag = 0 then x
  else if x.neg then nan F
  else if x.isInf then x
  else
    let n := 4 * (F.units x.mag * F.one)
    let r := n.sqrt
    ⟨false, roundMag F (if r * r = n then 2 * r else 2 * r + 1) 4⟩

/-- `f64::min(x, y)`: the other one if one of them is a NaN. -/
def min {F : FloatFormat} (x y : Flt F) : Flt F := if x.isNaN then y else if y.isNaN then x else if lt y x then y else x

end Flt

/-- The operations the formulas use. -/
class Arith (α : Type) where
  zero : α
  add : α → α → α
  sub : α → α → α
  mul : α → α → α
  div : α → α → α
  neg : α → α
  abs : α → α
  sqrt : α → α
  min : α → α → α
  lt : α → α → Bool
  le : α → α → Bool
  eq : α → α → Bool

instance {F : FloatFormat} : Arith (Flt F) where
  zero := Flt.zero F
  add := Flt.add
  sub := Flt.sub
  mul := Flt.mul
  div := Flt.div
  neg := Flt.negate
  abs := Flt.abs
  sqrt := Flt.sqrt
  min := Flt.min
  lt := Flt.lt
  le := Flt.le
  eq := Flt.feq

namespace Vec3

open Arith

variable {α : Type} [Arith α]

/-- `a - b` for `Vector3`. -/
def sub (a b : P3 α) : P3 α := ⟨Arith.sub a.x b.x, Arith.sub a.y b.y, Arith.sub a.z b.z⟩

/-- `a.cross(&b)`. -/
def cross (a b : P3 α) : P3 α :=
  ⟨Arith.sub (mul a.y b.z) (mul a.z b.y), Arith.sub (mul a.z b.x) (mul a.x b.z), Arith.sub (mul a.x b.y) (mul a.y b.x)⟩

/-- `a.dot(&b)`. -/
def dot (a b : P3 α) : α := add (add (mul a.x b.x) (mul a.y b.y)) (mul a.z b.z)

/-- `-a`. -/
def neg (a : P3 α) : P3 α := ⟨Arith.neg a.x, Arith.neg a.y, Arith.neg a.z⟩

/-- `a.magnitude_squared()`. -/
def magnitudeSquared (a : P3 α) : α := add Arith.zero (dot a a)

/-- `a.norm()`, which is `a.magnitude()`. -/
def norm (a : P3 α) : α := Arith.sqrt (magnitudeSquared a)

/-- `a.normalize()`. -/
def normalize (a : P3 α) : P3 α :=
  let n := norm a
  ⟨div a.x n, div a.y n, div a.z n⟩

end Vec3

end Pasture
