import Verif.Model.Bounds
import Verif.Model.Pnts

/-!
# Model of the detailed analysis of the `info` tool (`pasture-tools/src/bin/info.rs`)

What is printed is the result: the attributes with their least and greatest values. Times are left out.
-/

namespace Pasture.Info

open Las BorrowedBuffer OwningBuffer

/-- The least and the greatest value of an attribute. -/
abbrev Extent := Option (List Num × List Num)

/-- The attributes looked at, with the types of the values, info.rs:121-133. -/
def attributes : List (AttrDef × ValueType) :=
  [(position3D, .vec3f64), (⟨"Intensity", .u16⟩, .scalar .u16), (⟨"ReturnNumber", .u8⟩, .scalar .u8),
    (⟨"NumberOfReturns", .u8⟩, .scalar .u8), (⟨"ScanDirectionFlag", .u8⟩, .scalar .u8),
    (⟨"EdgeOfFlightLine", .u8⟩, .scalar .u8), (⟨"Classification", .u8⟩, .scalar .u8),
    (⟨"ScanAngleRank", .i8⟩, .scalar .i8), (⟨"UserData", .u8⟩, .scalar .u8), (⟨"PointSourceID", .u16⟩, .scalar .u16),
    (⟨"ColorRGB", .vec3u16⟩, .vec3u16), (⟨"GpsTime", .f64⟩, .scalar .f64), (⟨"NIR", .u16⟩, .scalar .u16)]

/-- `minmax_chunk!`, info.rs:64-83. -/
def minmaxChunk {β : Type} [BorrowedBuffer β] (b : β) (a : (AttrDef × ValueType) × Extent) :
    Out ((AttrDef × ValueType) × Extent) :=
  if (layout b).hasAttributeWithName a.1.1.name then do
    let m ← minmaxAttribute b a.1.2 a.1.1
    let (lo, hi) ← expectSome m
    match a.2 with
    | none => pure (a.1, some (lo, hi))
    | some (oldMin, oldMax) =>
      pure (a.1, some (List.zipWith Num.infimum oldMin lo, List.zipWith Num.supremum oldMax hi))
  else pure a

/-- Body of the loop over the chunks, info.rs:115-139. -/
def analyzeChunk {ρ : Type} [PointReader ρ] (chunkSize total : Nat)
    (s : ρ × VectorBuffer × List ((AttrDef × ValueType) × Extent)) (idx : Nat) :
    Out (ρ × VectorBuffer × List ((AttrDef × ValueType) × Extent)) := do
  let b := clear s.2.1
  let n := min chunkSize (total - idx * chunkSize)
  let (_, b, r) ← PointReader.readInto s.1 b n
  let extents ← s.2.2.mapM (minmaxChunk b)
  pure (r, b, extents)

/-- `analyze_file`, info.rs:85-199. -/
def analyzeFile {ρ : Type} [PointReader ρ] [SeekToPoint ρ] (r : ρ) : Out (List ((AttrDef × ValueType) × Extent) × ρ) := do
  let (total, r) ← pointCount r
  let start := attributes.map fun a => (a, none)
  if total = 0 then pure (start, r)
  else
    let chunkSize := 1000000
    let b := VectorBuffer.newFromLayout (PointReader.defaultLayout r)
    let numChunks := (total + chunkSize - 1) / chunkSize
    let (r, _, extents) ← forLoop (List.range numChunks) (r, b, start) (analyzeChunk chunkSize total)
    pure (extents, r)

end Pasture.Info
