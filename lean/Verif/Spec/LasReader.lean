import Verif.Model.LasReader
import Verif.Spec.ConvertObserve

/-!
# Specification: reading points from a LAS or LAZ file

A file is the list of its point records. A reader stands before one of them.
-/

namespace Pasture.Spec

open Pasture.Las

/-- The stream holds the records `recs`, of `size` bytes each, from byte `offset` on, and stands before
    record `i`. -/
class StoresRecords (σ : Type) where
  holds : σ → (offset size : Nat) → (recs : List Bytes) → (i : Nat) → Prop

instance : StoresRecords Stream where
  holds s offset size recs i :=
    window s.data offset (recs.length * size) = recs.flatten ∧ s.pos = offset + i * size

/-- After decompression. There may be more records than those. -/
instance : StoresRecords LazStream where
  holds s _ size recs i := (∃ more, s.records = recs ++ more) ∧ s.itemSize = size ∧ s.next = i

/-- The reader `r` is open on a file with the records `recs` and stands before record `i`. Its records
    layout describes a whole record (`C43_described_partial` says when it does). -/
structure Standing {σ : Type} [StoresRecords σ] (r : RawReader σ) (recs : List Bytes) (i : Nat) : Prop where
  stored : StoresRecords.holds r.reader r.offsetToFirstPoint r.sizeOfPoint recs i
  count : r.pointCount = recs.length
  index : r.currentPointIndex = i
  inside : i ≤ recs.length
  sizes : ∀ rec ∈ recs, rec.length = r.sizeOfPoint
  described : r.recordsLayout.size = r.sizeOfPoint
  /-- The record length is a u16 in the header. -/
  short : r.sizeOfPoint < 2 ^ 16
  solid : Solid r.recordsLayout

/-- Two readers of the same file, possibly at different positions. -/
def SameFile {σ : Type} (r r' : RawReader σ) : Prop :=
  r'.pointCount = r.pointCount ∧ r'.transforms = r.transforms ∧ r'.layout = r.layout ∧
    r'.recordsLayout = r.recordsLayout ∧ r'.offsetToFirstPoint = r.offsetToFirstPoint ∧
    r'.sizeOfPoint = r.sizeOfPoint

/-! ## How records become points of another layout -/

/-- World coordinate of a stored coordinate that was converted to f64. -/
def world (a : Axis) (v : Num) : Num :=
  match v with
  | .double v => .double ((v.mul a.scale).add a.offset)
  | n => n

/-- World position as three f64, from local coordinates as three f64. -/
def worldPosition (t : Transforms) (v : Bytes) : Bytes :=
  writeNum .f64 (world t.x (readNum .f64 (window v 0 8))) ++
    writeNum .f64 (world t.y (readNum .f64 (window v 8 8))) ++
    writeNum .f64 (world t.z (readNum .f64 (window v 16 8)))

/-- World position as three f32, from local coordinates as three f32: computed in f64. -/
def worldPosition32 (t : Transforms) (v : Bytes) : Bytes :=
  writeNum .f32 (asNum .f32 (world t.x (asNum .f64 (readNum .f32 (window v 0 4))))) ++
    writeNum .f32 (asNum .f32 (world t.y (asNum .f64 (readNum .f32 (window v 4 4))))) ++
    writeNum .f32 (asNum .f32 (world t.z (asNum .f64 (readNum .f32 (window v 8 4)))))

/-- Bits `[shift, shift + width)` of a flags value of `size` bytes. -/
def bitField (size shift width : Nat) (v : Bytes) : Bytes := natLE size (leNat v / 2 ^ shift % 2 ^ width)

/-- The attributes packed into the flags byte of formats 0 to 5: name, first bit, number of bits. -/
def packedBasic : List (String × Nat × Nat) :=
  [("ReturnNumber", 0, 3), ("NumberOfReturns", 3, 3), ("ScanDirectionFlag", 6, 1), ("EdgeOfFlightLine", 7, 1)]

/-- The attributes packed into the two flags bytes of formats 6 to 10. -/
def packedExtended : List (String × Nat × Nat) :=
  [("ReturnNumber", 0, 4), ("NumberOfReturns", 4, 4), ("ClassificationFlags", 8, 4), ("ScannerChannel", 12, 2),
    ("ScanDirectionFlag", 14, 1), ("EdgeOfFlightLine", 15, 1)]

/-- The target attribute with this name, filled in the given way. -/
def customise (target : PointLayout) (name : String) (call : AttrDef → List MappingCall) : List MappingCall :=
  match target.attributes.find? (fun m => m.name = name) with
  | some m => call m.definition
  | none => []

/-- World positions come from the local ones; as f64 or f32. -/
def positionCalls (t : Transforms) (d : AttrDef) : List MappingCall :=
  match d.datatype with
  | .vec3f64 => [.transformed localPosition d .vec3f64 (worldPosition t) false]
  | .vec3f32 => [.transformed localPosition d .vec3f32 (worldPosition32 t) false]
  | _ => []

/-- Everything a LAS reader fills in another way than by name. -/
def lasCalls (raw target : PointLayout) (t : Transforms) : List MappingCall :=
  customise target "Position3D" (positionCalls t) ++
    if basicFlags ∈ raw.attributes.map Member.definition then
      packedBasic.flatMap fun (name, shift, width) => customise target name fun d =>
        [.transformed basicFlags d .u8 (bitField 1 shift width) true]
    else
      packedExtended.flatMap fun (name, shift, width) => customise target name fun d =>
        [.transformed extendedFlags d .u16 (bitField 2 shift width) true]

/-- How the attributes of `target` are filled from records. -/
def lasPlan (raw target : PointLayout) (t : Transforms) : Plan := planOf raw (lasCalls raw target t)

/-- Records can be read as points of the layout `target`: positions are vectors of f64 or f32, and every
    other attribute that has a source has a convertible datatype. -/
def Readable (raw target : PointLayout) (t : Transforms) : Prop :=
  (∀ m ∈ target.attributes, m.name = "Position3D" → m.datatype = .vec3f64 ∨ m.datatype = .vec3f32) ∧
    (∀ m ∈ target.attributes, named raw m.name → (defaultPlan raw m.definition).isSome) ∧
    ∀ c ∈ lasCalls raw target t, c.allowed raw target

/-- What becomes of the point `old` of layout `target` when the record `rec` is read into its place. -/
def readPoint (raw target : PointLayout) (t : Transforms) (rec : Bytes) (old : Point) : Point :=
  if target = raw then pointOf raw rec else (lasPlan raw target t).apply (pointOf raw rec) old

/-- The points `qs` after the records `recs` were read into the first places. -/
def readOver (raw target : PointLayout) (t : Transforms) (recs : List Bytes) (qs : List Point) : List Point :=
  qs.mapIdx fun j q =>
    match recs[j]? with
    | some rec => readPoint raw target t rec q
    | none => q

/-- A call `read_into(b, count)` on a reader before record `i`, for a buffer of points `qs` in the layout
    `target`, did what it should: it read as many points as asked for, or all that remain, into the first
    places of the buffer, and stands behind them. -/
def ReadCorrectly {σ β : Type} [StoresRecords σ] [BorrowedBuffer β] (r : RawReader σ) (recs : List Bytes)
    (i : Nat) (target : PointLayout) (qs : List Point) (count : Nat) (consistent : β → Prop)
    (out : Out (Nat × β × RawReader σ)) : Prop :=
  ∃ b' r', out = .ok (min count (recs.length - i), b', r') ∧ SameFile r r' ∧
    Standing r' recs (i + min count (recs.length - i)) ∧ consistent b' ∧
    ShowsPoints b' target
      (readOver r.recordsLayout target r.transforms ((recs.drop i).take count) qs)

/-- The index a seek asks for, seen from index `i` of `n`. -/
def _root_.Pasture.Las.SeekFrom.wanted (n i : Nat) : SeekFrom → Int
  | .start k => k
  | .fromEnd k => n + k
  | .current k => i + k

/-- The arguments of a seek are a `u64` or an `i64`. -/
def _root_.Pasture.Las.SeekFrom.valid : SeekFrom → Prop
  | .start k => k < 2 ^ 64
  | .fromEnd k => -2 ^ 63 ≤ k ∧ k < 2 ^ 63
  | .current k => -2 ^ 63 ≤ k ∧ k < 2 ^ 63

/-! ## Sequences of calls -/

/-- A call on an open reader. -/
inductive ReaderCall where
  | read (n : Nat)
  | seek (p : SeekFrom)

/-- Perform the calls; the buffers `read` returned. -/
def runCalls {ρ : Type} [PointReader ρ] [SeekToPoint ρ] (β : Type) [OwningBuffer β] [AsMemoryMut β]
    [MakeBufferFromLayout β] : ρ → List ReaderCall → Out (List β)
  | _, [] => .ok []
  | r, .read n :: calls => do
    let (b, r) ← readPoints β r n
    let bs ← runCalls β r calls
    pure (b :: bs)
  | r, .seek p :: calls => do
    let (_, r) ← SeekToPoint.seekPoint r p
    runCalls β r calls

/-- The records each `read` of a sequence of calls has to return, from record `i` on. -/
def partsRead {α : Type} (recs : List α) : Nat → List ReaderCall → List (List α)
  | _, [] => []
  | i, .read n :: calls => (recs.drop i).take n :: partsRead recs (i + min n (recs.length - i)) calls
  | i, .seek p :: calls => partsRead recs (min (p.wanted recs.length i).toNat recs.length) calls

/-- All seeks go to indices from 0 to 2^63 - 1. -/
def seeksInRange (n : Nat) : Nat → List ReaderCall → Prop
  | _, [] => True
  | i, .read k :: calls => seeksInRange n (i + min k (n - i)) calls
  | i, .seek p :: calls =>
    (0 ≤ p.wanted n i ∧ p.wanted n i < 2 ^ 63) ∧ seeksInRange n (min (p.wanted n i).toNat n) calls

end Pasture.Spec
