import Verif.Model.Float

/-!
# Numbers in memory, and Rust's `as` between primitive numeric types

Multi-byte numbers are little-endian: native byte order on the platforms pasture targets (bytemuck
casts and `read_unaligned` use native order), and the byte order that the LAS and 3D Tiles formats
prescribe.
-/

namespace Pasture

/-- The number with the given little-endian bytes. -/
def leNat : Bytes → Nat
  | [] => 0
  | b :: bs => b.toNat + 256 * leNat bs

/-- The `k` low bytes of `n`, little-endian. -/
def natLE : Nat → Nat → Bytes
  | 0, _ => []
  | k + 1, n => BitVec.ofNat 8 n :: natLE k (n / 256)

/-- The primitive numeric types attributes are made of. -/
inductive Prim where
  | u8 | i8 | u16 | i16 | u32 | i32 | u64 | i64 | f32 | f64
  deriving DecidableEq, Repr

namespace Prim

/-- `size_of`. -/
def size : Prim → Nat
  | u8 => 1 | i8 => 1 | u16 => 2 | i16 => 2 | u32 => 4 | i32 => 4 | u64 => 8 | i64 => 8
  | f32 => 4 | f64 => 8

/-- `MIN` of an integer type. -/
def lo : Prim → Int
  | i8 => -2 ^ 7 | i16 => -2 ^ 15 | i32 => -2 ^ 31 | i64 => -2 ^ 63
  | _ => 0

/-- `MAX` of an integer type. -/
def hi : Prim → Int
  | u8 => 2 ^ 8 - 1 | u16 => 2 ^ 16 - 1 | u32 => 2 ^ 32 - 1 | u64 => 2 ^ 64 - 1
  | i8 => 2 ^ 7 - 1 | i16 => 2 ^ 15 - 1 | i32 => 2 ^ 31 - 1 | i64 => 2 ^ 63 - 1
  | _ => 0

/-- Is this an integer type? -/
def isInt : Prim → Bool
  | f32 => false | f64 => false | _ => true

end Prim

/-- A value of a primitive numeric type. -/
inductive Num where
  | int (z : Int)
  | single (x : F32)
  | double (x : F64)
  deriving DecidableEq, Repr

/-- The integer of type `p` with bits `n`: two's complement for signed types. -/
def intOfBits (p : Prim) (n : Nat) : Int :=
  if (n : Int) ≤ p.hi then n else n - 2 ^ (8 * p.size)

/-- Read a value of type `p` from memory (`ptr.read_unaligned()`, `from_le_bytes`). -/
def readNum (p : Prim) (b : Bytes) : Num :=
  match p with
  | .f32 => .single (Flt.ofBits .f32 (leNat b))
  | .f64 => .double (Flt.ofBits .f64 (leNat b))
  | p => .int (intOfBits p (leNat b))

/-- The bytes of a value of type `p` (`ptr.write_unaligned(v)`, `to_le_bytes`). -/
def writeNum (p : Prim) : Num → Bytes
  | .int z => natLE p.size (z % 2 ^ (8 * p.size)).toNat
  | .single x => natLE p.size x.toBits
  | .double x => natLE p.size x.toBits

/-- An integer cut down to the bits of the integer type `p`. -/
def wrapInt (p : Prim) (z : Int) : Int := intOfBits p (z % 2 ^ (8 * p.size)).toNat

/-- `v as p`. Integers wrap; floats to integers truncate and saturate (NaN gives 0); integers to
    floats and `f64` to `f32` round to nearest. -/
def asNum (p : Prim) : Num → Num
  | .int z =>
    match p with
    | .f32 => .single (Flt.ofInt .f32 z)
    | .f64 => .double (Flt.ofInt .f64 z)
    | p => .int (wrapInt p z)
  | .single x =>
    match p with
    | .f32 => .single x
    | .f64 => .double (x.cast .f64)
    | p => .int (x.toIntSat p.lo p.hi)
  | .double x =>
    match p with
    | .f32 => .single (x.cast .f32)
    | .f64 => .double x
    | p => .int (x.toIntSat p.lo p.hi)

end Pasture
