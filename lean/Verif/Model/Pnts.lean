import Verif.Model.LasReader
import Verif.Model.LasWriter
import Verif.Model.ConvertingView

/-!
# Model of the 3D Tiles point cloud reader and writer (`pasture-io/src/tiles3d`)

The text form of JSON values is the business of the `serde_json` crate; it is a parameter (`JsonText`). The
binary form of the header (the `bincode` crate: fields in order, little-endian) is modelled. `HashMap`s are
association lists; where one is iterated over, the order is a parameter. The stream written to is
`Las.Stream`: `write` writes everything it is given (the code calls `write`, not `write_all`, for the two
JSON headers) and never fails. The stream read from is a byte list read from its beginning. Sizes and offsets
are natural numbers (no overflow of `usize` and `u64`).
-/

namespace Pasture.Tiles3d

open BorrowedBuffer BorrowedMutBuffer OwningBuffer Las

/-! ## JSON -/

/-- `serde_json::Value`. A number is an integer (`u64` or `i64`) or a finite `f64`. An object is a list of
    entries; their order is not significant (`serde_json::Map` is sorted by key). -/
inductive Json where
  | null
  | bool (b : Bool)
  | int (z : Int)
  | float (x : F64)
  | string (s : String)
  | array (xs : List Json)
  | object (entries : List (String × Json))

/-- `serde_json::to_string` and `String::from_utf8` followed by `serde_json::from_str`. -/
structure JsonText where
  toText : Json → Bytes
  fromText : Bytes → Option Json

namespace Json

/-- `json!(x)` for an `f64`: NaN and the infinities become `null`. -/
def ofF64 (x : F64) : Json := if x.isFinite then .float x else .null

/-- `Value::as_u64`. -/
def asU64 : Json → Option Nat
  | .int z => if 0 ≤ z then some z.toNat else none
  | _ => none

/-- `Value::as_f64`. -/
def asF64 : Json → Option F64
  | .int z => some (Flt.ofInt .f64 z)
  | .float x => some x
  | _ => none

end Json

/-- `json_arr_to_vec3f64`, common.rs:77-94. -/
def vec3OfJson (xs : List Json) : Out (P3 F64) :=
  match xs with
  | [x, y, z] => do
    let x ← orErr x.asF64
    let y ← orErr y.asF64
    let z ← orErr z.asF64
    pure ⟨x, y, z⟩
  | _ => .error .err

/-- `json_arr_to_vec3f32`, common.rs:57-74. -/
def vec3f32OfJson (xs : List Json) : Out (P3 F32) := do
  let v ← vec3OfJson xs
  pure ⟨v.x.cast .f32, v.y.cast .f32, v.z.cast .f32⟩

/-- `json_arr_to_vec4u8`, common.rs:96-114. -/
def vec4OfJson (xs : List Json) : Out (List Byte) := do
  bailIf (xs.length ≠ 4)
  let vals ← xs.mapM fun v => orErr v.asU64
  vals.mapM fun v => if v < 256 then .ok (BitVec.ofNat 8 v) else .error .err

/-! ## The feature table -/

/-- `FeatureTableValue`, feature_table.rs:15-29. -/
inductive FeatureValue where
  | single (v : Json)
  | array (vs : List Json)
  | reference (byteOffset : Nat) (componentType : Option String)

/-- `FeatureTableHeader`, feature_table.rs:108-109. -/
abbrev FeatureTable := List (String × FeatureValue)

/-- `HashMap::insert`. -/
def insertEntry {α : Type} (t : List (String × α)) (k : String) (v : α) : List (String × α) :=
  (k, v) :: t.filter fun e => e.1 ≠ k

/-- `serde_json::from_value::<FeatureTableDataReference>`, with the attributes of feature_table.rs:15-21. -/
def referenceOfJson (entries : List (String × Json)) : Out FeatureValue := do
  let offset ← orErr ((entries.lookup "byteOffset").bind Json.asU64)
  match entries.lookup "componentType" with
  | none => pure (.reference offset none)
  | some .null => pure (.reference offset none)
  | some (.string s) => pure (.reference offset (some s))
  | some _ => .error .err

/-- `TryFrom<&Value> for FeatureTableValue`, feature_table.rs:56-80. -/
def FeatureValue.ofJson (v : Json) : Out FeatureValue :=
  match v with
  | .array xs => .ok (.array xs)
  | .object entries =>
    if (entries.lookup "byteOffset").isSome then referenceOfJson entries else .ok (.single v)
  | v => .ok (.single v)

/-- `From<&FeatureTableValue> for Value`, feature_table.rs:95-106. -/
def FeatureValue.toJson : FeatureValue → Json
  | .single v => v
  | .array vs => .array vs
  | .reference offset none => .object [("byteOffset", .int offset)]
  | .reference offset (some s) => .object [("byteOffset", .int offset), ("componentType", .string s)]

/-- `read_exact` of `n` bytes from position `pos` on. -/
def readAt (data : Bytes) (pos n : Nat) : Out Bytes :=
  if pos + n ≤ data.length then .ok ((data.drop pos).take n) else .error .err

/-- `read_json_header`, common.rs:14-24, from position `pos` on. -/
def readJsonHeader (J : JsonText) (data : Bytes) (pos size : Nat) : Out Json := do
  let text ← readAt data pos size
  orErr (J.fromText text)

/-- `write_json_header`, common.rs:29-54: the bytes written. -/
def jsonHeader (J : JsonText) (v : Json) (position : Nat) : Bytes :=
  let text := J.toText v
  let position := position + text.length
  text ++ List.replicate (alignTo position 8 - position) 0x20#8

/-- `deser_feature_table_header`, feature_table.rs:114-143. -/
def readFeatureTable (J : JsonText) (data : Bytes) (pos size : Nat) : Out FeatureTable := do
  let v ← readJsonHeader J data pos size
  match v with
  | .object entries => entries.mapM fun (k, v) => do
      let v ← FeatureValue.ofJson v
      pure (k, v)
  | _ => .error .err

/-- `ser_feature_table_header`, feature_table.rs:147-160: the bytes written. -/
def featureTableHeader (J : JsonText) (t : FeatureTable) (position : Nat) : Bytes :=
  jsonHeader J (.object (t.map fun (k, v) => (k, v.toJson))) position

/-! ## The header -/

/-- `PntsHeader`, pnts_types.rs:17-28. -/
structure PntsHeader where
  magic : Bytes
  version : Nat
  byteLength : Nat
  featureTableJson : Nat
  featureTableBinary : Nat
  batchTableJson : Nat
  batchTableBinary : Nat

/-- `PntsHeader::BYTE_LENGTH`, pnts_types.rs:32. -/
def headerLength : Nat := 28

/-- The magic bytes `pnts`, pnts_types.rs:43, 55. -/
def magicBytes : Bytes := [0x70#8, 0x6e#8, 0x74#8, 0x73#8]

/-- `bincode::serialize_into`. -/
def PntsHeader.bytes (h : PntsHeader) : Bytes :=
  h.magic ++ natLE 4 h.version ++ natLE 4 h.byteLength ++ natLE 4 h.featureTableJson ++
    natLE 4 h.featureTableBinary ++ natLE 4 h.batchTableJson ++ natLE 4 h.batchTableBinary

/-- `bincode::deserialize_from`. -/
def PntsHeader.read (data : Bytes) : Out PntsHeader := do
  let b ← readAt data 0 headerLength
  pure ⟨b.take 4, leNat ((b.drop 4).take 4), leNat ((b.drop 8).take 4), leNat ((b.drop 12).take 4),
    leNat ((b.drop 16).take 4), leNat ((b.drop 20).take 4), leNat ((b.drop 24).take 4)⟩

/-- `try_into().expect(..)` from `usize` to `u32`. -/
def toU32 (n : Nat) : Out Nat := if n < 2 ^ 32 then .ok n else panicked

/-! ## Attributes -/

/-- `COLOR_RGBA`, pnts_types.rs:10-14. -/
def colorRgba : AttrDef := ⟨"ColorRGBA", .vec4u8⟩

/-- `NORMAL`, point_layout.rs:617-620. -/
def normal : AttrDef := ⟨"Normal", .vec3f32⟩

/-- `pnts_semantics_name_from_point_attribute`, pnts_writer.rs:39-53. -/
def semanticsName (d : AttrDef) : Option String :=
  if d.name = position3D.name then some "POSITION"
  else if d.name = colorRgb.name then some "RGB"
  else if d.name = colorRgba.name then some "RGBA"
  else if d.name = normal.name then some "NORMAL"
  else none

/-- `supported_attributes`, pnts_writer.rs:119-127. -/
def supportedAttributes : List (String × DataType) :=
  [(position3D.name, .vec3f32), (colorRgb.name, .vec3u8), (colorRgba.name, .vec4u8), (normal.name, .vec3f32)]

/-- `PNTS_SEMANTICS_MAX_ALIGNMENT`, pnts_writer.rs:34. -/
def maxAlignment : Nat := 8

/-! ## Writing -/

/-- `attribute_converters`, pnts_writer.rs:72. -/
abbrev Converters := List (String × Option Converter)

/-- Body of the loop of `make_compatible_layout`, pnts_writer.rs:129-153. -/
def compatibleStep (st : PointLayout × Converters) (m : Member) : Out (PointLayout × Converters) :=
  match supportedAttributes.lookup m.name with
  | none => pure st
  | some ty => do
    let l ← st.1.addAttribute ⟨m.name, ty⟩ .default
    let dst ← expectSome (l.getAttributeByName m.name)
    if m.datatype = dst.datatype then pure (l, insertEntry st.2 m.name none)
    else do
      let c ← getConverterForAttributes m.definition dst.definition
      pure (l, insertEntry st.2 m.name c)

/-- `make_compatible_layout`, pnts_writer.rs:108-156. -/
def makeCompatibleLayout (l : PointLayout) : Out (PointLayout × Converters) :=
  forLoop l.attributes (PointLayout.default, []) compatibleStep

/-- `PntsWriter`, pnts_writer.rs:67-75. -/
structure PntsWriter where
  writer : Stream
  expectedLayout : PointLayout
  defaultLayout : PointLayout
  cachedPoints : HashMapBuffer
  attributeConverters : Converters
  rtcCenter : Option (P3 F64)
  requiresFlush : Bool

namespace PntsWriter

/-- `from_write_and_layout`, pnts_writer.rs:81-95. -/
def fromWriteAndLayout (writer : Stream) (l : PointLayout) : Out PntsWriter := do
  let (cache, converters) ← makeCompatibleLayout l
  pure ⟨writer, l, cache, MakeBufferFromLayout.newFromLayout cache, converters, none, true⟩

/-- `set_rtc_center`, pnts_writer.rs:100-102. -/
def setRtcCenter (w : PntsWriter) (c : P3 F64) : PntsWriter := { w with rtcCenter := some c }

/-- `cumulative_attribute_offsets`, pnts_writer.rs:232-241. -/
def cumulativeOffsets (n : Nat) : Nat → List Member → List Nat
  | _, [] => []
  | state, m :: ms => state :: cumulativeOffsets n (state + alignTo (m.size * n) maxAlignment) ms

/-- `point_semantics` of the attributes, pnts_writer.rs:243-259. -/
def pointSemantics (ms : List Member) (offsets : List Nat) : Out FeatureTable :=
  (ms.zip offsets).mapM fun (m, offset) => do
    let name ← expectSome (semanticsName m.definition)
    pure (name, .reference offset none)

/-- `create_feature_table`, pnts_writer.rs:230-279. The names of the attributes are distinct, so collecting the
    entries into a `HashMap` keeps them all. -/
def createFeatureTable (w : PntsWriter) : Out FeatureTable := do
  let n := len w.cachedPoints
  let ms := w.defaultLayout.attributes
  let t ← pointSemantics ms (cumulativeOffsets n 0 ms)
  let t := insertEntry t "POINTS_LENGTH" (.single (.int n))
  match w.rtcCenter with
  | none => pure t
  | some c => pure (insertEntry t "RTC_CENTER" (.array [Json.ofF64 c.x, Json.ofF64 c.y, Json.ofF64 c.z]))

/-- `calc_feature_table_body_length`, pnts_writer.rs:290-298. -/
def calcFeatureTableBodyLength (w : PntsWriter) : Nat :=
  (w.defaultLayout.attributes.map fun m => alignTo (len w.cachedPoints * m.size) maxAlignment).sum

/-- Body of the loop of `write_feature_table_body`, pnts_writer.rs:303-320. -/
def writeColumn (w : PntsWriter) (s : Stream) (m : Member) : Out Stream := do
  let n := len w.cachedPoints
  let column ← ColumnarBuffer.getAttributeRangeRef w.cachedPoints m.definition ⟨0, n⟩
  let s := s.write column
  let size := m.size * n
  let padding := alignTo size maxAlignment - size
  if padding ≠ 0 then pure (s.write (zeros padding)) else pure s

/-- `write_feature_table_body`, pnts_writer.rs:300-332. -/
def writeFeatureTableBody (w : PntsWriter) (s : Stream) : Out Stream := do
  let s ← forLoop w.defaultLayout.attributes s w.writeColumn
  let padding := alignTo s.pos 8 - s.pos
  if padding > 0 then pure (s.write (zeros padding)) else pure s

/-- `write_cached_points`, pnts_writer.rs:158-228. -/
def writeCachedPoints (J : JsonText) (w : PntsWriter) : Out PntsWriter := do
  let table ← w.createFeatureTable
  let featureTable := featureTableHeader J table headerLength
  let featureTableSize := featureTable.length
  let bodySize := w.calcFeatureTableBodyLength
  let bodySizeAligned := alignTo (headerLength + featureTableSize + bodySize) 8 - (headerLength + featureTableSize)
  let startOfBatchTable := headerLength + featureTableSize + bodySizeAligned
  let batchTable := jsonHeader J (.object []) startOfBatchTable
  let batchTableSize := batchTable.length
  let batchTableBodySize := 0
  let total := startOfBatchTable + batchTableSize + batchTableBodySize
  let total ← toU32 total
  let featureTableSize ← toU32 featureTableSize
  let bodySizeAligned ← toU32 bodySizeAligned
  let batchTableSize ← toU32 batchTableSize
  let batchTableBodySize ← toU32 batchTableBodySize
  let header : PntsHeader :=
    ⟨magicBytes, 1, total, featureTableSize, bodySizeAligned, batchTableSize, batchTableBodySize⟩
  let s := w.writer.write header.bytes
  let s := s.write featureTable
  let s ← w.writeFeatureTableBody s
  let s := s.write batchTable
  pure { w with writer := s, requiresFlush := false }

/-- Body of the inner loop of `write`, pnts_writer.rs:364-384. The converted value is computed into a fresh buffer;
    the code reuses one, which every conversion overwrites completely. -/
def writeValue {β : Type} [BorrowedBuffer β] (points : β) (src dst : Member) (converter : Option Converter)
    (base : Nat) (cache : HashMapBuffer) (i : Nat) : Out HashMapBuffer := do
  let buf ← getAttribute points src.definition i (zeros src.size)
  match converter with
  | some c => do
    let converted ← c.run buf (zeros dst.size)
    setAttribute cache dst.definition (base + i) converted
  | none => setAttribute cache dst.definition (base + i) buf

/-- Body of the loop over the converters in `write`, pnts_writer.rs:351-386. -/
def writeAttribute {β : Type} [BorrowedBuffer β] (points : β) (base : Nat) (cache : HashMapBuffer)
    (entry : String × Option Converter) : Out HashMapBuffer :=
  match (layout points).getAttributeByName entry.1 with
  | none => pure cache
  | some src => do
    let dst ← expectSome ((layout cache).getAttributeByName entry.1)
    forLoop (List.range (len points)) cache (writeValue points src dst entry.2 base)

/-- `write`, pnts_writer.rs:336-389. `order` is the iteration order of the `HashMap` of converters. -/
def write (order : Converters → Converters) {β : Type} [BorrowedBuffer β] (w : PntsWriter) (points : β) :
    Out PntsWriter := do
  if layout points ≠ w.expectedLayout then panicked
  else if layout points = layout w.cachedPoints then do
    let cache ← append w.cachedPoints points
    pure { w with cachedPoints := cache }
  else do
    let base := len w.cachedPoints
    let cache := resize w.cachedPoints (base + len points)
    let cache ← forLoop (order w.attributeConverters) cache (writeAttribute points base)
    pure { w with cachedPoints := cache }

/-- `flush`, pnts_writer.rs:391-396; it is also called when the writer is dropped (pnts_writer.rs:403-408). -/
def flush (J : JsonText) (w : PntsWriter) : Out PntsWriter :=
  if ¬ w.requiresFlush then pure w else w.writeCachedPoints J

end PntsWriter

/-! ## Reading -/

/-- `PntsMetadata`, pnts_metadata.rs:11-18. -/
structure PntsMetadata where
  pointsLength : Nat
  rtcCenter : Option (P3 F64)
  quantizedVolumeOffset : Option (P3 F32)
  quantizedVolumeScale : Option (P3 F32)
  constantRgba : Option (List Byte)
  batchLength : Option Nat

/-- `PntsReadPositionsMode`, pnts_reader.rs:31-38. -/
inductive PositionsMode where
  | relativeToCenter
  | absolute
  deriving DecidableEq, Repr

/-- `PntsReader`, pnts_reader.rs:41-48. -/
structure PntsReader where
  data : Bytes
  metadata : PntsMetadata
  layout : PointLayout
  currentPointIndex : Nat
  attributeOffsets : List (String × Nat)
  mode : PositionsMode

/-- The attributes `layout_from_feature_table_header` looks for, in this order, pnts_reader.rs:119-169. -/
def readAttributes : List (String × AttrDef) :=
  [("POSITION", { position3D with datatype := .vec3f32 }), ("RGBA", colorRgba),
    ("RGB", { colorRgb with datatype := .vec3u8 }), ("NORMAL", normal)]

/-- One of the blocks of `layout_from_feature_table_header`, pnts_reader.rs:119-129, 133-143, 145-155, 159-169.
    The entries are not removed from the table: nothing looks at them again. -/
def layoutStep (t : FeatureTable) (st : PointLayout × List (String × Nat)) (a : String × AttrDef) :
    Out (PointLayout × List (String × Nat)) :=
  match t.lookup a.1 with
  | none => pure st
  | some (.reference offset _) => do
    let l ← st.1.addAttribute a.2 (.packed 1)
    pure (l, insertEntry st.2 a.2.name offset)
  | some _ => .error .err

/-- `layout_from_feature_table_header`, pnts_reader.rs:113-176. -/
def layoutFromFeatureTable (t : FeatureTable) : Out (PointLayout × List (String × Nat)) :=
  forLoop readAttributes (PointLayout.default, []) (layoutStep t)

/-- `header.get(key).map(..).transpose()?` for an array entry, as in pnts_reader.rs:194-200. -/
def arrayEntry {α : Type} (t : FeatureTable) (key : String) (f : List Json → Out α) : Out (Option α) :=
  match t.lookup key with
  | none => pure none
  | some (.array xs) => do
    let x ← f xs
    pure (some x)
  | some _ => .error .err

/-- `header.get(key).map(..).transpose()?` for an integer entry, as in pnts_reader.rs:226-235. -/
def integerEntry (t : FeatureTable) (key : String) : Out (Option Nat) :=
  match t.lookup key with
  | none => pure none
  | some (.single v) => do
    let n ← orErr v.asU64
    pure (some n)
  | some _ => .error .err

/-- `metadata_from_feature_table_header`, pnts_reader.rs:178-245. -/
def metadataFromFeatureTable (t : FeatureTable) : Out PntsMetadata := do
  let n ← integerEntry t "POINTS_LENGTH"
  let n ← orErr n
  let rtcCenter ← arrayEntry t "RTC_CENTER" vec3OfJson
  let offset ← arrayEntry t "QUANTIZED_VOLUME_OFFSET" vec3f32OfJson
  let scale ← arrayEntry t "QUANTIZED_VOLUME_SCALE" vec3f32OfJson
  let rgba ← arrayEntry t "CONSTANT_RGBA" vec4OfJson
  let batch ← integerEntry t "BATCH_LENGTH"
  pure ⟨n, rtcCenter, offset, scale, rgba, batch⟩

namespace PntsReader

/-- `from_read`, pnts_reader.rs:51-96. The stream is read from its beginning, so the assertion in line 57 holds. -/
def fromRead (J : JsonText) (data : Bytes) : Out PntsReader := do
  let header ← PntsHeader.read data
  bailIf (header.magic ≠ magicBytes)
  let t ← readFeatureTable J data headerLength header.featureTableJson
  let (l, offsets) ← layoutFromFeatureTable t
  let metadata ← metadataFromFeatureTable t
  let binaryOffset := headerLength + header.featureTableJson
  pure ⟨data, metadata, l, 0, offsets.map fun (k, o) => (k, o + binaryOffset), .absolute⟩

/-- `set_read_positions_mode`, pnts_reader.rs:99-101. -/
def setMode (r : PntsReader) (mode : PositionsMode) : PntsReader := { r with mode := mode }

/-- `(position.x as f64 + rtc_center.x) as f32`, pnts_reader.rs:269-271. -/
def shift32 (c : F64) : Num → Num
  | .single v => .single (((v.cast .f64).add c).cast .f32)
  | n => n

/-- A component of `position + rtc_center`, pnts_reader.rs:277. -/
def shift64 (c : F64) : Num → Num
  | .double v => .double (v.add c)
  | n => n

/-- `apply_rtc_center_offset`, pnts_reader.rs:247-283. -/
def applyRtcCenter {β : Type} [BorrowedMutBuffer β] (r : PntsReader) (b : β) : Out β :=
  match r.metadata.rtcCenter, (BorrowedBuffer.layout b).getAttributeByName position3D.name with
  | some c, some m =>
    match m.datatype with
    | .vec3f32 => transformAttribute b .vec3f32 m.definition
        fun _ v => onComponents .f32 (shift32 c.x) (shift32 c.y) (shift32 c.z) v
    | .vec3f64 => transformAttribute b .vec3f64 m.definition
        fun _ v => onComponents .f64 (shift64 c.x) (shift64 c.y) (shift64 c.z) v
    | _ => .error .err
  | _, _ => pure b

/-- Bodies of the loops over the points in `read_into`, pnts_reader.rs:330-340, 344-353. The reads follow each
    other from `start` on; a converted value is computed into a fresh buffer (the code reuses one, which every
    conversion overwrites completely). -/
def readValue {β : Type} [BorrowedMutBuffer β] (data : Bytes) (start : Nat) (src dst : Member)
    (converter : Option Converter) (b : β) (i : Nat) : Out β := do
  let buf ← readAt data (start + i * src.size) src.size
  match converter with
  | some c => do
    let converted ← c.run buf (zeros dst.size)
    setAttribute b dst.definition i converted
  | none => setAttribute b dst.definition i buf

/-- Body of the loop over the attributes in `read_into`, pnts_reader.rs:309-356. -/
def readAttribute {β : Type} [BorrowedMutBuffer β] (r : PntsReader) (target : PointLayout) (n : Nat) (b : β)
    (m : Member) : Out β :=
  match target.getAttributeByName m.name with
  | none => pure b
  | some dst => do
    let first ← expectSome (r.attributeOffsets.lookup m.name)
    let start := first + r.currentPointIndex * m.size
    let converter ← getConverterForAttributes m.definition dst.definition
    forLoop (List.range n) b (readValue r.data start m dst converter)

/-- `read_into`, pnts_reader.rs:294-366. -/
def readInto {β : Type} [BorrowedMutBuffer β] (r : PntsReader) (b : β) (count : Nat) :
    Out (Nat × β × PntsReader) := do
  let remaining := r.metadata.pointsLength - r.currentPointIndex
  let n := min remaining count
  bailIf (n = 0)
  let b ← forLoop r.layout.attributes b (r.readAttribute (BorrowedBuffer.layout b) n)
  let r := { r with currentPointIndex := r.currentPointIndex + n }
  let b ← if r.mode = .absolute then r.applyRtcCenter b else pure b
  pure (n, b, r)

/-- `try_into()?` from `i64` to `u64`. -/
def toU64 (z : Int) : Out Nat := if 0 ≤ z then .ok z.toNat else .error .err

/-- `i64` addition: overflow panics (in builds with overflow checks). -/
def addI64 (a b : Int) : Out Int :=
  if -2 ^ 63 ≤ a + b ∧ a + b < 2 ^ 63 then .ok (a + b) else panicked

/-- `usize::try_into()?` to `i64`. -/
def toI64 (n : Nat) : Out Int := if n < 2 ^ 63 then .ok n else .error .err

/-- `seek_point`, pnts_reader.rs:378-393. -/
def seekPoint (r : PntsReader) (position : SeekFrom) : Out (Nat × PntsReader) := do
  let new ← match position with
    | .start k => pure k
    | .fromEnd k => do
      let n ← toI64 r.metadata.pointsLength
      let z ← addI64 n k
      toU64 z
    | .current k => do
      let i ← toI64 r.currentPointIndex
      let z ← addI64 i k
      toU64 z
  let clamped := min new r.metadata.pointsLength
  pure (clamped, { r with currentPointIndex := clamped })

end PntsReader

instance pntsReader : PointReader PntsReader where
  readInto r b count := r.readInto b count
  defaultLayout r := r.layout

instance : SeekToPoint PntsReader where
  seekPoint := PntsReader.seekPoint

end Pasture.Tiles3d
