import Verif.Model.Basic

/-!
# Model of `f32` and `f64`

Rust's floating point types are IEEE 754 binary32 and binary64 with rounding to nearest, ties to
even. A float is its sign bit and the remaining bits as a number (`mag`); a finite float is a whole
number of units, the unit being the smallest positive float (2⁻¹⁴⁹ or 2⁻¹⁰⁷⁴), so every operation
is exact integer arithmetic followed by one rounding. Spec/Float.lean gives the usual reading of the
bit pattern, and Props/Float.lean proves that the two agree and that the rounding is to nearest.

Simplification: an operation that produces a NaN produces one fixed NaN (Rust leaves sign and
payload of such NaNs unspecified).
-/

namespace Pasture

/-- A binary interchange format of IEEE 754: explicit significand bits and exponent bits. -/
structure FloatFormat where
  mantBits : Nat
  expBits : Nat
  deriving DecidableEq, Repr

namespace FloatFormat

/-- `f32`. -/
def f32 : FloatFormat := ⟨23, 8⟩

/-- `f64`. -/
def f64 : FloatFormat := ⟨52, 11⟩

/-- The magnitude bits of infinity; smaller magnitudes are finite, larger ones are NaNs. -/
def infMag (F : FloatFormat) : Nat := (2 ^ F.expBits - 1) * 2 ^ F.mantBits

/-- The magnitude bits of the NaN that operations produce. -/
def nanMag (F : FloatFormat) : Nat := F.infMag + 2 ^ (F.mantBits - 1)

/-- The number of units in 1: the unit is `2 ^ (1 - bias - mantBits)`,
    `bias = 2 ^ (expBits - 1) - 1`. -/
def one (F : FloatFormat) : Nat := 2 ^ (2 ^ (F.expBits - 1) - 2 + F.mantBits)

/-- Units of the finite float with magnitude bits `k`. -/
def units (F : FloatFormat) (k : Nat) : Nat :=
  if k / 2 ^ F.mantBits = 0 then k % 2 ^ F.mantBits
  else (k % 2 ^ F.mantBits + 2 ^ F.mantBits) * 2 ^ (k / 2 ^ F.mantBits - 1)

end FloatFormat

/-- `a / b` rounded to the nearest integer, ties to even. -/
def roundDiv (a b : Nat) : Nat :=
  if 2 * (a % b) < b then a / b
  else if b < 2 * (a % b) then a / b + 1
  else if a / b % 2 = 0 then a / b
  else a / b + 1

/-- The magnitude bits of the float nearest to `num / den` units (ties to even, infinity on
    overflow). -/
def roundMag (F : FloatFormat) (num den : Nat) : Nat :=
  let e := (num / den).log2 - F.mantBits
  let m := roundDiv num (den * 2 ^ e)
  min (e * 2 ^ F.mantBits + m) F.infMag

/-- A floating point value: sign bit and magnitude bits. -/
structure Flt (F : FloatFormat) where
  neg : Bool
  mag : Nat
  deriving DecidableEq, Repr

/-- `f64`. -/
abbrev F64 := Flt .f64

/-- `f32`. -/
abbrev F32 := Flt .f32

namespace Flt

variable {F G : FloatFormat}

/-- `to_bits`. -/
def toBits (x : Flt F) : Nat :=
  (if x.neg then 2 ^ (F.mantBits + F.expBits) else 0) + x.mag

/-- `from_bits`. -/
def ofBits (F : FloatFormat) (n : Nat) : Flt F :=
  ⟨n / 2 ^ (F.mantBits + F.expBits) % 2 = 1, n % 2 ^ (F.mantBits + F.expBits)⟩

/-- `is_finite`. -/
def isFinite (x : Flt F) : Bool := decide (x.mag < F.infMag)

/-- `is_nan`. -/
def isNaN (x : Flt F) : Bool := decide (F.infMag < x.mag)

/-- `is_infinite`. -/
def isInf (x : Flt F) : Bool := decide (x.mag = F.infMag)

/-- `0.0`. -/
def zero (F : FloatFormat) : Flt F := ⟨false, 0⟩

/-- The NaN operations produce. -/
def nan (F : FloatFormat) : Flt F := ⟨false, F.nanMag⟩

/-- Infinity with the given sign. -/
def inf (F : FloatFormat) (neg : Bool) : Flt F := ⟨neg, F.infMag⟩

/-- Signed number of units of a finite float. -/
def sunits (x : Flt F) : Int := if x.neg then -(F.units x.mag : Int) else F.units x.mag

/-- The float nearest to `num / den` units; an exact zero gets the sign `zeroNeg`. -/
def ofUnits (F : FloatFormat) (num : Int) (den : Nat) (zeroNeg : Bool := false) : Flt F :=
  ⟨if num = 0 then zeroNeg else decide (num < 0), roundMag F num.natAbs den⟩

/-- `n as f32` / `n as f64` for an integer `n`. -/
def ofInt (F : FloatFormat) (n : Int) : Flt F := ofUnits F (n * F.one) 1

/-- `x as iN` / `x as uN` where the integer type has the range `lo..=hi`: truncation towards zero,
    saturating at the bounds, and 0 for NaN. -/
def toIntSat (x : Flt F) (lo hi : Int) : Int :=
  if x.isNaN then 0
  else if x.isInf then if x.neg then lo else hi
  else max lo (min hi (x.sunits.tdiv F.one))

/-- `x as f32` / `x as f64` for a float `x` of the other format. -/
def cast (G : FloatFormat) (x : Flt F) : Flt G :=
  if x.isNaN then nan G
  else if x.isInf then inf G x.neg
  else ofUnits G (x.sunits * G.one) F.one x.neg

/-- `-x`. -/
def negate (x : Flt F) : Flt F := ⟨!x.neg, x.mag⟩

/-- `x + y`. -/
def add (x y : Flt F) : Flt F :=
  if x.isNaN ∨ y.isNaN then nan F
  else if x.isInf then if y.isInf ∧ x.neg ≠ y.neg then nan F else x
  else if y.isInf then y
  else ofUnits F (x.sunits + y.sunits) 1 (x.neg && y.neg)

/-- `x - y`. -/
def sub (x y : Flt F) : Flt F := add x (negate y)

/-- `x * y`. -/
def mul (x y : Flt F) : Flt F :=
  if x.isNaN ∨ y.isNaN then nan F
  else if x.isInf then if y.mag = 0 then nan F else inf F (x.neg != y.neg)
  else if y.isInf then if x.mag = 0 then nan F else inf F (x.neg != y.neg)
  else ofUnits F (x.sunits * y.sunits) F.one (x.neg != y.neg)

/-- `x / y`. -/
def div (x y : Flt F) : Flt F :=
  if x.isNaN ∨ y.isNaN then nan F
  else if x.isInf then if y.isInf then nan F else inf F (x.neg != y.neg)
  else if y.isInf then ⟨x.neg != y.neg, 0⟩
  else if y.mag = 0 then if x.mag = 0 then nan F else inf F (x.neg != y.neg)
  else ofUnits F ((if y.neg then -1 else 1) * x.sunits * F.one) (F.units y.mag) (x.neg != y.neg)

/-- The position of a number on the real line extended by the infinities, as an integer that
    orders all non-NaN floats. -/
def rank (x : Flt F) : Int := if x.neg then -(x.mag : Int) else x.mag

/-- `x < y`. -/
def lt (x y : Flt F) : Bool := !x.isNaN && !y.isNaN && decide (x.rank < y.rank)

/-- `x <= y`. -/
def le (x y : Flt F) : Bool := !x.isNaN && !y.isNaN && decide (x.rank ≤ y.rank)

/-- `x == y`. -/
def feq (x y : Flt F) : Bool := !x.isNaN && !y.isNaN && decide (x.rank = y.rank)

end Flt

end Pasture
