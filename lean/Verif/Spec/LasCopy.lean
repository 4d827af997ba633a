import Mathlib.Algebra.Order.Group.Unbundled.Int
import Verif.Spec.LasWriter

/-!
# Specification: copying a LAS file

Reading points and writing them to a file with the same point format, scales and offsets.
-/

namespace Pasture.Spec

open Pasture.Las

/-- Integer coordinate `k` of a record: a record begins with three i32. -/
def storedInt (rec : Bytes) (k : Nat) : Int := intOfBits .i32 (leNat (window rec (4 * k) 4))

/-- `rec'` is `rec` except that the integer coordinates may differ by up to `e`. -/
structure CopyOf (e : Nat) (rec rec' : Bytes) : Prop where
  length : rec'.length = rec.length
  rest : rec'.drop 12 = rec.drop 12
  coordinates : ∀ k < 3, |storedInt rec' k - storedInt rec k| ≤ e

/-- Write buffers one after the other. -/
def writeAll {β : Type} [BorrowedBuffer β] : RawLasWriter → List β → Out RawLasWriter
  | w, [] => .ok w
  | w, b :: bs => do
    let w ← w.write b
    writeAll w bs

/-- The same for LAZ files. -/
def writeAllLaz {β : Type} [BorrowedBuffer β] : RawLazWriter → List β → Out RawLazWriter
  | w, [] => .ok w
  | w, b :: bs => do
    let w ← w.write b
    writeAllLaz w bs

/-- Read points in pieces of `ns` points, write them, and flush. -/
def copyToLas {ρ : Type} [PointReader ρ] [SeekToPoint ρ] (β : Type) [OwningBuffer β] [AsMemoryMut β]
    [MakeBufferFromLayout β] (encode : LasHeader → Bytes) (r : ρ) (w : RawLasWriter) (ns : List Nat) :
    Out RawLasWriter := do
  let bs ← runCalls β r (ns.map .read)
  let w ← writeAll w bs
  pure (w.flush encode)

/-- Read points in pieces of `ns` points and write them to a LAZ file. -/
def copyToLaz {ρ : Type} [PointReader ρ] [SeekToPoint ρ] (β : Type) [OwningBuffer β] [AsMemoryMut β]
    [MakeBufferFromLayout β] (r : ρ) (w : RawLazWriter) (ns : List Nat) : Out RawLazWriter := do
  let bs ← runCalls β r (ns.map .read)
  writeAllLaz w bs

/-- All axes. -/
def Axes (P : Axis → Prop) (t : Transforms) : Prop := P t.x ∧ P t.y ∧ P t.z

/-- The integer is the same after the coordinate was computed from it and it from the coordinate. -/
def Stable (a : Axis) : Prop := ∀ z : Int, -2 ^ 31 ≤ z → z < 2 ^ 31 → quantize a (dequantize a z) = .ok z

/-- The scale is a power of two and the offset a multiple of it. -/
def DyadicAxis (a : Axis) : Prop :=
  a.scale.isFinite = true ∧ a.offset.isFinite = true ∧ ∃ (k m : Int), -1000 ≤ k ∧ k ≤ 900 ∧ |m| ≤ 2 ^ 50 ∧
    value a.scale = 2 ^ k ∧ value a.offset = m * 2 ^ k

end Pasture.Spec
