import Verif.Model.Numbers
import Verif.Spec.Float
import Mathlib.Data.Nat.Digits.Defs

/-!
# Specification: numbers held in memory
-/

namespace Pasture.Spec

/-- The little-endian number in some bytes. -/
def littleEndian (b : Bytes) : Nat := Nat.ofDigits 256 (b.map BitVec.toNat)

/-- `b` is the memory of the integer `z` of type `p`: it has the size of `p`, `z` is in the range of
    `p`, and the bits are those of `z` modulo 2^bits (two's complement). -/
structure Holds (p : Prim) (b : Bytes) (z : Int) : Prop where
  length : b.length = p.size
  range : p.lo ≤ z ∧ z ≤ p.hi
  bits : (littleEndian b : Int) % 2 ^ (8 * p.size) = z % 2 ^ (8 * p.size)

/-- `b` is the memory of the `f32` `x`. -/
structure HoldsF32 (b : Bytes) (x : F32) : Prop where
  length : b.length = 4
  bits : littleEndian b = (if x.neg then 2 ^ 31 else 0) + x.mag
  range : x.mag < 2 ^ 31

/-- `b` is the memory of the `f64` `x`. -/
structure HoldsF64 (b : Bytes) (x : F64) : Prop where
  length : b.length = 8
  bits : littleEndian b = (if x.neg then 2 ^ 63 else 0) + x.mag
  range : x.mag < 2 ^ 63

end Pasture.Spec
