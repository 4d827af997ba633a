import Verif.Model.LasMetadata
import Verif.Model.Bounds

/-!
# Model of `LASMetadata` as a whole (`pasture-io/src/las/las_metadata.rs`)

The header of a file as the `las` crate parses it is given. `lossy` is `String::from_utf8_lossy`.
-/

namespace Pasture.Las

/-- `ClassificationLookupEntry`, las_metadata.rs:79-83. -/
structure ClassEntry where
  classification : Byte
  description : String
  deriving DecidableEq, Repr

/-- `ClassificationLookup::RECORD_ID`, las_metadata.rs:92. -/
def classificationRecordId : BitVec 16 := 0

/-- `TextAreaDescription::RECORD_ID`, las_metadata.rs:157. -/
def textAreaRecordId : BitVec 16 := 3

/-- `TryFrom<&Vlr> for ClassificationLookup`, las_metadata.rs:99-139. The raw entries have alignment 1, so the cast of the
    bytes succeeds; there are 256 of them. -/
def classificationOfVlr (lossy : Bytes → String) (v : Vlr) : Out (List ClassEntry) := do
  bailIf (decide (v.userId ≠ knownVlrUserId))
  bailIf (decide (v.recordId ≠ classificationRecordId))
  bailIf (decide (v.data.length ≠ 256 * 16))
  (List.range 256).mapM fun i => do
    let raw ← sliceGet v.data (i * 16) (i * 16 + 16)
    let classification ← sliceGet raw 0 1
    let description ← sliceGet raw 1 16
    pure ⟨BitVec.ofNat 8 (leNat classification), lossy description⟩

/-- `TryFrom<&Vlr> for TextAreaDescription`, las_metadata.rs:164-186. -/
def textAreaOfVlr (v : Vlr) : Out String := do
  bailIf (decide (v.userId ≠ knownVlrUserId))
  bailIf (decide (v.recordId ≠ textAreaRecordId))
  orErr (fromUtf8 v.data)

/-- What the code uses of `las::Header` (crate `las`). A date is a year and a day of the year. -/
structure FileHeader where
  min : P3 F64
  max : P3 F64
  numberOfPoints : Nat
  format : Format
  vlrs : List Vlr
  evlrs : List Vlr
  date : Option (Int × Nat)
  fileSourceId : BitVec 16
  generatingSoftware : String
  systemIdentifier : String
  version : String

/-- `LASMetadata`, las_metadata.rs:779-788. -/
structure FileMetadata where
  bounds : AABB F64
  pointCount : Nat
  format : Format
  header : Option FileHeader
  classificationLookup : Option (List ClassEntry)
  textArea : Option String
  extraBytes : Option (List ExtraEntry)

/-- `.find(|vlr| ..).map(try_from).transpose()?`, las_metadata.rs:1032-1038, 1041-1049, 1051-1059. -/
def findVlr {α : Type} (vlrs : List Vlr) (recordId : BitVec 16) (parse : Vlr → Out α) : Out (Option α) :=
  match vlrs.find? fun v => v.userId = knownVlrUserId ∧ v.recordId = recordId with
  | none => pure none
  | some v => do
    let x ← parse v
    pure (some x)

/-- `TryFrom<&las::Header> for LASMetadata`, las_metadata.rs:1028-1071, with `las_bounds_to_pasture_bounds`, 45-49. -/
def metadataOfHeader (lossy : Bytes → String) (h : FileHeader) : Out FileMetadata := do
  let classes ← findVlr h.vlrs classificationRecordId (classificationOfVlr lossy)
  let text ← findVlr h.vlrs textAreaRecordId textAreaOfVlr
  let extra ← findVlr h.vlrs extraBytesRecordId extraBytesOfVlr
  pure {
    bounds := ⟨h.min, h.max⟩, pointCount := h.numberOfPoints, format := h.format, header := some h,
    classificationLookup := classes, textArea := text, extraBytes := extra }

/-- The value of a named field: a `u16` or a `String`. -/
inductive FieldValue where
  | number (n : BitVec 16)
  | text (s : String)
  deriving DecidableEq, Repr

/-- `u16::try_from(..).unwrap()`. -/
def u16OrPanic (n : Int) : Out (BitVec 16) :=
  if 0 ≤ n ∧ n < 2 ^ 16 then pure (BitVec.ofInt 16 n) else panicked

/-- `get_named_field`, las_metadata.rs:981-1020, with the names of 26-41. -/
def getNamedField (m : FileMetadata) (name : String) : Out (Option FieldValue) :=
  match m.header with
  | none => pure none
  | some h =>
    if name = "LASFIELD_FileCreationDayOfYear" then
      match h.date with
      | none => pure none
      | some (_, day) => do
        let n ← u16OrPanic day
        pure (some (.number n))
    else if name = "LASFIELD_FileCreationYear" then
      match h.date with
      | none => pure none
      | some (year, _) => do
        let n ← u16OrPanic year
        pure (some (.number n))
    else if name = "LASFIELD_FileSourceID" then pure (some (.number h.fileSourceId))
    else if name = "LASFIELD_GeneratingSoftware" then pure (some (.text h.generatingSoftware))
    else if name = "LASFIELD_SystemIdentifier" then pure (some (.text h.systemIdentifier))
    else if name = "LASFIELD_Version" then pure (some (.text h.version))
    else pure none

end Pasture.Las
