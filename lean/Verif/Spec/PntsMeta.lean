import Verif.Model.PntsMeta
import Verif.Spec.Malformed
import Verif.Spec.Serde

/-!
# Specification: what the feature table of a `.pnts` file says

Independent of the code: the header of the format, and what the entries of the JSON object behind it mean in the 3D Tiles
specification.
-/

namespace Pasture.Spec.Pnts

open Tiles3d

/-- An entry of the feature table. -/
def entry (J : JsonText) (file : Bytes) (key : String) : Option Json := (tableOf J file).bind fun es => es.lookup key

/-- A reference to the binary part of the file. -/
def IsReference (v : Json) : Prop :=
  ∃ es, v = .object es ∧ (∃ offset : Nat, es.lookup "byteOffset" = some (.int offset)) ∧
    (es.lookup "componentType" = none ∨ es.lookup "componentType" = some .null ∨
      ∃ s, es.lookup "componentType" = some (.string s))

/-- Objects that name an offset are references; anything else may stand in the table. -/
def IsEntry (v : Json) : Prop := ∀ es, v = .object es → es.lookup "byteOffset" ≠ none → IsReference v

/-- A `.pnts` file: a header of 28 bytes that begins with `pnts`, and behind it a JSON object of the size the header tells,
    which refers to the attributes that are stored. -/
structure ReadablePnts (J : JsonText) (file : Bytes) : Prop where
  long : 28 + field file 3 ≤ file.length
  magic : window file 0 4 = [0x70#8, 0x6e#8, 0x74#8, 0x73#8]
  table : ∃ es, tableOf J file = some es ∧ ∀ e ∈ es, IsEntry e.2
  columns : ∀ s ∈ semantics, ∀ v, entry J file s.1 = some v → IsReference v

/-- `v` is a vector of single precision numbers. -/
def DescribesSingle (v : Json) (p : P3 F32) : Prop :=
  ∃ q, DescribesPoint v q ∧ p = ⟨q.x.cast .f32, q.y.cast .f32, q.z.cast .f32⟩

/-- `v` is a color. -/
def DescribesColor (v : Json) (c : List Byte) : Prop :=
  ∃ r g b a : Byte, v = .array [.int r.toNat, .int g.toNat, .int b.toNat, .int a.toNat] ∧ c = [r, g, b, a]

/-- `v` is a number of things. -/
def DescribesCount (v : Json) (n : Nat) : Prop := v = .int n

/-- Both are there and `v` describes `x`, or none is there. -/
def Told {α : Type} (describes : Json → α → Prop) (v : Option Json) (x : Option α) : Prop :=
  (v = none ∧ x = none) ∨ ∃ j a, v = some j ∧ x = some a ∧ describes j a

/-- The metadata are those in the table. -/
structure TellsMetadata (J : JsonText) (file : Bytes) (md : PntsMetadata) : Prop where
  points : entry J file "POINTS_LENGTH" = some (.int md.pointsLength)
  center : Told DescribesPoint (entry J file "RTC_CENTER") md.rtcCenter
  offset : Told DescribesSingle (entry J file "QUANTIZED_VOLUME_OFFSET") md.quantizedVolumeOffset
  scale : Told DescribesSingle (entry J file "QUANTIZED_VOLUME_SCALE") md.quantizedVolumeScale
  color : Told DescribesColor (entry J file "CONSTANT_RGBA") md.constantRgba
  batch : Told DescribesCount (entry J file "BATCH_LENGTH") md.batchLength

/-- What a named field of the metadata stands for. -/
def FieldTells (name : String) (v : Json) (x : PntsField) : Prop :=
  (name = "RTC_CENTER" ∧ ∃ p, x = .double p ∧ DescribesPoint v p) ∨
  ((name = "QUANTIZED_VOLUME_OFFSET" ∨ name = "QUANTIZED_VOLUME_SCALE") ∧ ∃ p, x = .single p ∧ DescribesSingle v p) ∨
  (name = "CONSTANT_RGBA" ∧ ∃ c, x = .color c ∧ DescribesColor v c) ∨
  (name = "BATCH_LENGTH" ∧ ∃ n, x = .length (some n) ∧ DescribesCount v n)

/-- The attributes of the file begin where a machine can address them. -/
def Addressable (J : JsonText) (file : Bytes) : Prop :=
  ∀ s ∈ semantics, ∀ o, columnStart J file s.1 = some o → o < 2 ^ 64

/-- The attributes a file stores, of those the format names. -/
def fileAttributes (J : JsonText) (file : Bytes) : List AttrDef :=
  (semantics.filter fun s => (entry J file s.1).isSome).map Prod.snd

/-- The names of the fields. -/
def fieldNames : List String :=
  ["RTC_CENTER", "QUANTIZED_VOLUME_OFFSET", "QUANTIZED_VOLUME_SCALE", "CONSTANT_RGBA", "BATCH_LENGTH"]

end Pasture.Spec.Pnts
