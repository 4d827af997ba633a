import Verif.Spec.LasWriter
import Verif.Spec.Float

/-!
# Specification: what the records in a LAS file say

Everything is read off the bytes of the file, by the tables of LAS 1.4: a record starts with three signed 32 bit
coordinates, then come the intensity and the flags, whose lowest bits are the return number.
-/

namespace Pasture.Spec

open Pasture.Las

/-- The records in a file: `k` of format `n` from byte `start` on. -/
def fileRecords (n start k : Nat) (data : Bytes) : List Bytes :=
  (List.range k).map fun i => window data (start + i * lasRecordLength n) (lasRecordLength n)

/-- The number of return numbers that formats have room for: three bits up to format 5, four bits from format 6 on. -/
def returnRange (n : Nat) : Nat := if n ≤ 5 then 8 else 16

/-- LAS 1.4, tables 8 and 16: the return number of a record is in the lowest bits of byte 14. -/
def recordReturn (n : Nat) (rec : Bytes) : Nat := leNat (window rec 14 1) % returnRange n

/-- The `k`-th stored coordinate of a record: a signed integer of four bytes. -/
def recordInt (rec : Bytes) (k : Nat) : Int :=
  if leNat (window rec (4 * k) 4) < 2 ^ 31 then leNat (window rec (4 * k) 4) else leNat (window rec (4 * k) 4) - 2 ^ 32

/-- The axes: number, coordinate of a position, scale and offset. -/
def lasAxes : List (Nat × (P3 F64 → F64) × (Transforms → Axis)) :=
  [(0, P3.x, Transforms.x), (1, P3.y, Transforms.y), (2, P3.z, Transforms.z)]

/-- The coordinate a reader computes for a record (`C37_read` says how far that is from the exact one). -/
def recordCoordinate (t : Transforms) (axis : Nat × (P3 F64 → F64) × (Transforms → Axis)) (rec : Bytes) : ℚ :=
  value (dequantize (axis.2.2 t) (recordInt rec axis.1))

/-- On all axes, the box in the header contains the coordinates of the records, and touches some of them at both ends,
    up to `slack` steps of the coordinate grid. -/
def BoxesRecords (slack : ℚ) (h : LasHeader) (t : Transforms) (recs : List Bytes) : Prop :=
  ∀ axis ∈ lasAxes, (axis.2.1 h.min).isFinite = true ∧ (axis.2.1 h.max).isFinite = true ∧
    (∀ r ∈ recs, value (axis.2.1 h.min) - slack * |value (axis.2.2 t).scale| ≤ recordCoordinate t axis r ∧
      recordCoordinate t axis r ≤ value (axis.2.1 h.max) + slack * |value (axis.2.2 t).scale|) ∧
    (∃ r ∈ recs, recordCoordinate t axis r ≤ value (axis.2.1 h.min) + slack * |value (axis.2.2 t).scale|) ∧
    ∃ r ∈ recs, value (axis.2.1 h.max) - slack * |value (axis.2.2 t).scale| ≤ recordCoordinate t axis r

/-- Scales and offsets of all axes are ordinary. -/
def OrdinaryTransforms (t : Transforms) : Prop := OrdinaryAxis t.x ∧ OrdinaryAxis t.y ∧ OrdinaryAxis t.z

/-- The return numbers of the points fit into the bits that format `n` has for them. -/
def ReturnsFit (n : Nat) (ps : List Point) : Prop :=
  ∀ p ∈ ps, ∀ v, lasValue p "ReturnNumber" = some v → leNat v < returnRange n

/-- The header counts the records with return numbers 1 to 15. -/
def CountsRecordReturns (n : Nat) (byReturn : List Nat) (recs : List Bytes) : Prop :=
  ∀ k, 1 ≤ k → k ≤ 15 → byReturn[k - 1]? = some (recs.filter fun r => recordReturn n r = k).length

end Pasture.Spec
