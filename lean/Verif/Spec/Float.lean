import Verif.Model.Float
import Mathlib.Data.Rat.Floor
import Mathlib.Algebra.Order.Field.Power

/-!
# Specification: IEEE 754 values and correct rounding
-/

namespace Pasture.Spec

/-- The exponent bias. -/
def bias (F : FloatFormat) : Int := 2 ^ (F.expBits - 1) - 1

/-- The number a finite bit pattern stands for: `m · 2^(1 - bias - p)` for exponent field 0, else
    `(2^p + m) · 2^(e - bias - p)`, with `m` the `p` low bits and `e` the exponent field. -/
def value {F : FloatFormat} (x : Flt F) : ℚ :=
  (if x.neg then -1 else 1) *
    (if x.mag / 2 ^ F.mantBits = 0 then
      (x.mag % 2 ^ F.mantBits : ℕ) * (2 : ℚ) ^ (1 - bias F - F.mantBits)
    else
      (2 ^ F.mantBits + (x.mag % 2 ^ F.mantBits : ℕ)) *
        (2 : ℚ) ^ ((x.mag / 2 ^ F.mantBits : ℕ) - bias F - F.mantBits))

/-- From here on numbers round to infinity: half a step above the largest finite float. -/
def overflowThreshold (F : FloatFormat) : ℚ :=
  (2 - (2 : ℚ) ^ (-(F.mantBits : Int) - 1)) * (2 : ℚ) ^ bias F

/-- `y` is the result of rounding the number `q` (round to nearest, ties to even). -/
structure RoundsTo {F : FloatFormat} (q : ℚ) (y : Flt F) : Prop where
  not_nan : y.isNaN = false
  overflow : y.isInf = true ↔ overflowThreshold F ≤ |q|
  nearest : y.isFinite = true → ∀ z : Flt F, z.isFinite = true → |q - value y| ≤ |q - value z|
  ties : y.isFinite = true → ∀ z : Flt F, z.isFinite = true → |q - value y| = |q - value z| →
    value z = value y ∨ y.mag % 2 = 0
  sign : q ≠ 0 → (y.neg = true ↔ q < 0)

/-- Truncation towards zero. -/
def trunc (q : ℚ) : Int := if q < 0 then ⌈q⌉ else ⌊q⌋

/-- The formats of IEEE 754 have at least this much room. -/
def Usable (F : FloatFormat) : Prop :=
  1 ≤ F.mantBits ∧ 2 ≤ F.expBits ∧ F.mantBits + 1 < 2 ^ (F.expBits - 1)

instance (F : FloatFormat) : Decidable (Usable F) := by unfold Usable; infer_instance

theorem usable_f32 : Usable .f32 := by decide
theorem usable_f64 : Usable .f64 := by decide

end Pasture.Spec
