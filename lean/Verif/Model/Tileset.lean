import Verif.Model.Boxes
import Verif.Model.Pnts

/-!
# Model of `pasture-io/src/tiles3d/{batch_table,tileset}.rs`

* `serde`'s derived code is modelled from the attributes of the types: a missing or `null` entry is the `None` of an
  `Option`; unknown entries are ignored; arrays must have the right length. Objects with an entry twice (an error in
  `serde`) are not treated separately: the first one counts.
* nalgebra writes a matrix as the array of its entries, column by column.
-/

namespace Pasture

namespace Tiles3d

/-! ## The batch table -/

/-- `BatchTableEntry`, batch_table.rs:14-32. -/
inductive BatchEntry where
  | arrayData (vs : List Json)
  | reference (byteOffset : Nat) (componentType scalarOrVectorType : String)

/-- `BatchTableHeader`, batch_table.rs:88. -/
abbrev BatchTable := List (String × BatchEntry)

/-- A `String` in `serde`. -/
def Json.asString : Json → Option String
  | .string s => some s
  | _ => none

/-- `serde_json::from_value::<BatchTableDataReference>`, with the attributes of batch_table.rs:15-23. -/
def batchReferenceOfJson (entries : List (String × Json)) : Out BatchEntry := do
  let offset ← orErr ((entries.lookup "byteOffset").bind Json.asU64)
  let componentType ← orErr ((entries.lookup "componentType").bind Json.asString)
  let type ← orErr ((entries.lookup "type").bind Json.asString)
  pure (.reference offset componentType type)

/-- `TryFrom<&Value> for BatchTableEntry`, batch_table.rs:51-66. -/
def BatchEntry.ofJson : Json → Out BatchEntry
  | .array vs => .ok (.arrayData vs)
  | .object entries => batchReferenceOfJson entries
  | _ => .error .err

/-- `From<&BatchTableEntry> for Value`, batch_table.rs:77-85. -/
def BatchEntry.toJson : BatchEntry → Json
  | .arrayData vs => .array vs
  | .reference offset componentType type =>
    .object [("byteOffset", .int offset), ("componentType", .string componentType), ("type", .string type)]

/-- `deser_batch_table_header`, batch_table.rs:93-120: the table, and the position of the reader afterwards. `data` is the
    content of the reader, `pos` its position, `start` the position in the file. -/
def readBatchTable (J : JsonText) (data : Bytes) (pos size start : Nat) : Out (BatchTable × Nat) := do
  let v ← readJsonHeader J data pos size
  let current := start + size
  let pos := pos + size + (alignTo current 8 - current)
  match v with
  | .object entries =>
    let t ← entries.mapM fun (k, v) => do
      let v ← BatchEntry.ofJson v
      pure (k, v)
    pure (t, pos)
  | _ => .error .err

/-- `ser_batch_table_header`, batch_table.rs:124-136: the bytes written. -/
def batchTableHeader (J : JsonText) (t : BatchTable) (position : Nat) : Bytes :=
  jsonHeader J (.object (t.map fun (k, v) => (k, v.toJson))) position

/-! ## Bounding volumes -/

/-- `Refinement`, tileset.rs:10-18. -/
inductive Refinement where
  | replace
  | add
  deriving DecidableEq, Repr

/-- `BoundingRegion`, tileset.rs:21-58. -/
structure BoundingRegion where
  west : F64
  south : F64
  east : F64
  north : F64
  minHeight : F64
  maxHeight : F64
  deriving DecidableEq, Repr

/-- `BoundingBox`, tileset.rs:61-85. -/
structure BoundingBox where
  center : P3 F64
  x : P3 F64
  y : P3 F64
  z : P3 F64
  deriving DecidableEq, Repr

/-- `From<&AABB<f64>> for BoundingBox`, tileset.rs:93-103. -/
def BoundingBox.ofAABB (b : AABB F64) : BoundingBox :=
  let zero := Flt.zero .f64
  let half := Flt.div (Flt.ofInt .f64 1) (Flt.ofInt .f64 2)
  let e := b.extent
  ⟨b.center, ⟨e.x.mul half, zero, zero⟩, ⟨zero, e.y.mul half, zero⟩, ⟨zero, zero, e.z.mul half⟩⟩

/-- `BoundingSphere`, tileset.rs:106-122. -/
structure BoundingSphere where
  center : P3 F64
  radius : F64
  deriving DecidableEq, Repr

/-- `BoundingVolume`, tileset.rs:125-133. -/
inductive BoundingVolume where
  | region (r : BoundingRegion)
  | box (b : BoundingBox)
  | sphere (s : BoundingSphere)
  deriving DecidableEq, Repr

/-- `Default for BoundingVolume`, tileset.rs:135-139. -/
def BoundingVolume.default : BoundingVolume :=
  let zero := Flt.zero .f64
  .region ⟨zero, zero, zero, zero, zero, zero⟩

/-! ## Tilesets -/

/-- `TilesetContent`, tileset.rs:143-148. -/
structure TilesetContent where
  boundingVolume : Option BoundingVolume
  uri : String
  deriving DecidableEq, Repr

/-- The fields of a `Tileset` without its children, tileset.rs:151-170. `transform` has 16 entries in the program. -/
structure TilesetFields where
  geometricError : F64
  refinement : Option Refinement
  boundingVolume : BoundingVolume
  viewerRequestVolume : Option BoundingVolume
  content : Option TilesetContent
  transform : Option (List F64)
  deriving DecidableEq, Repr

/-- `Tileset`, tileset.rs:151-170. -/
inductive Tileset where
  | mk (fields : TilesetFields) (children : List Tileset)

/-- `TilesetAssetInfo`, tileset.rs:253-260. -/
structure TilesetAssetInfo where
  version : String
  tilesetVersion : Option String
  deriving DecidableEq, Repr

/-- `TilesetProperty`, tileset.rs:273-277. -/
structure TilesetProperty where
  minimum : F64
  maximum : F64
  deriving DecidableEq, Repr

/-- `RootTileset`, tileset.rs:280-287. -/
structure RootTileset where
  asset : TilesetAssetInfo
  properties : Option (List (String × TilesetProperty))
  geometricError : F64
  root : Tileset

/-! ## Builder -/

/-- The methods of `TilesetBuilder`, tileset.rs:178-242. -/
inductive BuilderCall where
  | geometricError (e : F64)
  | refinement (r : Refinement)
  | boundingVolume (v : BoundingVolume)
  | viewerRequestVolume (v : BoundingVolume)
  | content (uri : String) (v : Option BoundingVolume)
  | transform (m : List F64)
  | addChild (t : Tileset)
  | addChildren (ts : List Tileset)

/-- `TilesetBuilder::default()`, tileset.rs:151, 173-176. -/
def builderStart : TilesetFields × List Tileset :=
  (⟨Flt.zero .f64, none, .default, none, none, none⟩, [])

/-- One call, tileset.rs:182-241. -/
def builderStep (b : TilesetFields × List Tileset) : BuilderCall → Out (TilesetFields × List Tileset)
  | .geometricError e =>
    if Flt.lt e (Flt.zero .f64) then panicked else .ok ({ b.1 with geometricError := e }, b.2)
  | .refinement r => .ok ({ b.1 with refinement := some r }, b.2)
  | .boundingVolume v => .ok ({ b.1 with boundingVolume := v }, b.2)
  | .viewerRequestVolume v => .ok ({ b.1 with viewerRequestVolume := some v }, b.2)
  | .content uri v => .ok ({ b.1 with content := some ⟨v, uri⟩ }, b.2)
  | .transform m => .ok ({ b.1 with transform := some m }, b.2)
  | .addChild t => .ok (b.1, b.2 ++ [t])
  | .addChildren ts => .ok (b.1, b.2 ++ ts)

/-- `TilesetBuilder::default()`, calls, and `From<TilesetBuilder> for Tileset`, tileset.rs:245-249. -/
def buildTileset (calls : List BuilderCall) : Out Tileset := do
  let b ← forLoop calls builderStart builderStep
  pure (.mk b.1 b.2)

/-! ## Serialization -/

/-- `[f64; N]`. -/
def numbersToJson (xs : List F64) : Json := .array (xs.map Json.ofF64)

/-- An entry that is skipped if it is `None`. -/
def optEntry {α : Type} (key : String) (f : α → Json) : Option α → List (String × Json)
  | none => []
  | some x => [(key, f x)]

/-- `Serialize for BoundingVolume`, from tileset.rs:21-22, 61-62, 106-107, 124-133. -/
def BoundingVolume.toJson : BoundingVolume → Json
  | .region r => .object [("region", numbersToJson [r.west, r.south, r.east, r.north, r.minHeight, r.maxHeight])]
  | .box b => .object [("box", numbersToJson [b.center.x, b.center.y, b.center.z, b.x.x, b.x.y, b.x.z,
      b.y.x, b.y.y, b.y.z, b.z.x, b.z.y, b.z.z])]
  | .sphere s => .object [("sphere", numbersToJson [s.center.x, s.center.y, s.center.z, s.radius])]

/-- `Serialize for Refinement`, tileset.rs:10-18. -/
def Refinement.toJson : Refinement → Json
  | .replace => .string "REPLACE"
  | .add => .string "ADD"

/-- `Serialize for TilesetContent`, tileset.rs:143-148. -/
def TilesetContent.toJson (c : TilesetContent) : Json :=
  .object (optEntry "boundingVolume" BoundingVolume.toJson c.boundingVolume ++ [("uri", .string c.uri)])

/-- The entries of the fields without the children, tileset.rs:151-170. -/
def TilesetFields.entries (t : TilesetFields) : List (String × Json) :=
  [("geometricError", Json.ofF64 t.geometricError)] ++ optEntry "refine" Refinement.toJson t.refinement ++
    [("boundingVolume", t.boundingVolume.toJson)] ++
    optEntry "viewerRequestVolume" BoundingVolume.toJson t.viewerRequestVolume ++
    optEntry "content" TilesetContent.toJson t.content ++ optEntry "transform" numbersToJson t.transform

mutual

/-- `Serialize for Tileset`, tileset.rs:151-170. -/
def Tileset.toJson : Tileset → Json
  | .mk fields [] => .object fields.entries
  | .mk fields (c :: cs) => .object (fields.entries ++ [("children", .array (c.toJson :: Tileset.listToJson cs))])

/-- The children. -/
def Tileset.listToJson : List Tileset → List Json
  | [] => []
  | t :: ts => t.toJson :: Tileset.listToJson ts

end

/-- `Serialize for TilesetAssetInfo`, tileset.rs:253-260. -/
def TilesetAssetInfo.toJson (a : TilesetAssetInfo) : Json :=
  .object ([("version", .string a.version)] ++ optEntry "tilesetVersion" Json.string a.tilesetVersion)

/-- `Serialize for TilesetProperty`, tileset.rs:273-277. -/
def TilesetProperty.toJson (p : TilesetProperty) : Json :=
  .object [("minimum", Json.ofF64 p.minimum), ("maximum", Json.ofF64 p.maximum)]

/-- `Serialize for RootTileset`, tileset.rs:280-287. `properties` is not skipped: `None` is `null`. -/
def RootTileset.toJson (t : RootTileset) : Json :=
  .object [("asset", t.asset.toJson),
    ("properties", match t.properties with
      | none => .null
      | some ps => .object (ps.map fun (k, p) => (k, p.toJson))),
    ("geometricError", Json.ofF64 t.geometricError), ("root", t.root.toJson)]

/-! ## Deserialization -/

/-- `[f64; N]`. -/
def numbersOfJson (n : Nat) : Json → Out (List F64)
  | .array xs => do
    bailIf (xs.length ≠ n)
    xs.mapM fun x => orErr x.asF64
  | _ => .error .err

/-- An entry of type `T`. -/
def required {α : Type} (entries : List (String × Json)) (key : String) (f : Json → Out α) : Out α := do
  let v ← orErr (entries.lookup key)
  f v

/-- An entry of type `Option<T>`. -/
def optional {α : Type} (entries : List (String × Json)) (key : String) (f : Json → Out α) : Out (Option α) :=
  match entries.lookup key with
  | none => .ok none
  | some .null => .ok none
  | some v => do
    let x ← f v
    pure (some x)

/-- The entries of a JSON object. -/
def objectEntries : Json → Out (List (String × Json))
  | .object es => .ok es
  | _ => .error .err

/-- `Deserialize for BoundingVolume`. -/
def BoundingVolume.ofJson : Json → Out BoundingVolume
  | .object [(key, v)] =>
    if key = "region" then do
      match ← numbersOfJson 6 v with
      | [a, b, c, d, e, f] => .ok (.region ⟨a, b, c, d, e, f⟩)
      | _ => .error .err
    else if key = "box" then do
      match ← numbersOfJson 12 v with
      | [a, b, c, d, e, f, g, h, i, j, k, l] => .ok (.box ⟨⟨a, b, c⟩, ⟨d, e, f⟩, ⟨g, h, i⟩, ⟨j, k, l⟩⟩)
      | _ => .error .err
    else if key = "sphere" then do
      match ← numbersOfJson 4 v with
      | [a, b, c, d] => .ok (.sphere ⟨⟨a, b, c⟩, d⟩)
      | _ => .error .err
    else .error .err
  | _ => .error .err

/-- `Deserialize for Refinement`: a unit variant is a string, or an object with the value `null`. -/
def Refinement.ofJson : Json → Out Refinement
  | .string "REPLACE" => .ok .replace
  | .string "ADD" => .ok .add
  | .object [("REPLACE", .null)] => .ok .replace
  | .object [("ADD", .null)] => .ok .add
  | _ => .error .err

/-- `Deserialize for String`. -/
def stringOfJson (v : Json) : Out String := orErr v.asString

/-- `Deserialize for f64`. -/
def f64OfJson (v : Json) : Out F64 := orErr v.asF64

/-- `Deserialize for TilesetContent`. -/
def TilesetContent.ofJson (v : Json) : Out TilesetContent := do
  let es ← objectEntries v
  let boundingVolume ← optional es "boundingVolume" BoundingVolume.ofJson
  let uri ← required es "uri" stringOfJson
  pure ⟨boundingVolume, uri⟩

/-- The fields of a `Tileset` without its children. -/
def TilesetFields.ofEntries (es : List (String × Json)) : Out TilesetFields := do
  let geometricError ← required es "geometricError" f64OfJson
  let refinement ← optional es "refine" Refinement.ofJson
  let boundingVolume ← required es "boundingVolume" BoundingVolume.ofJson
  let viewerRequestVolume ← optional es "viewerRequestVolume" BoundingVolume.ofJson
  let content ← optional es "content" TilesetContent.ofJson
  let transform ← optional es "transform" (numbersOfJson 16)
  pure ⟨geometricError, refinement, boundingVolume, viewerRequestVolume, content, transform⟩

theorem lookup_size : ∀ {es : List (String × Json)} {key : String} {v : Json}, es.lookup key = some v →
    sizeOf v < sizeOf es
  | [], _, _, h => by cases h
  | (k, w) :: es, key, v, h => by
    rw [List.lookup_cons] at h
    split at h
    · cases h
      simp only [List.cons.sizeOf_spec, Prod.mk.sizeOf_spec]
      omega
    · have := lookup_size h
      simp only [List.cons.sizeOf_spec]
      omega

/-- `Deserialize for Tileset`, tileset.rs:151-170: without `children` there are none. -/
def Tileset.ofJson (v : Json) : Out Tileset :=
  match v with
  | .object es => do
    let fields ← TilesetFields.ofEntries es
    match h : es.lookup "children" with
    | none => pure (.mk fields [])
    | some (.array xs) =>
      let children ← xs.attach.mapM fun x => Tileset.ofJson x.1
      pure (.mk fields children)
    | some _ => .error .err
  | _ => .error .err
termination_by sizeOf v
decreasing_by
  have h1 := lookup_size h
  have h2 := List.sizeOf_lt_of_mem x.2
  simp only [Json.array.sizeOf_spec, Json.object.sizeOf_spec] at h1 h2 ⊢
  omega

/-- `Deserialize for TilesetAssetInfo`. -/
def TilesetAssetInfo.ofJson (v : Json) : Out TilesetAssetInfo := do
  let es ← objectEntries v
  let version ← required es "version" stringOfJson
  let tilesetVersion ← optional es "tilesetVersion" stringOfJson
  pure ⟨version, tilesetVersion⟩

/-- `Deserialize for TilesetProperty`. -/
def TilesetProperty.ofJson (v : Json) : Out TilesetProperty := do
  let es ← objectEntries v
  let minimum ← required es "minimum" f64OfJson
  let maximum ← required es "maximum" f64OfJson
  pure ⟨minimum, maximum⟩

/-- `Deserialize for HashMap<String, TilesetProperty>`. -/
def propertiesOfJson (v : Json) : Out (List (String × TilesetProperty)) := do
  let es ← objectEntries v
  es.mapM fun (k, v) => do
    let p ← TilesetProperty.ofJson v
    pure (k, p)

/-- `Deserialize for RootTileset`. -/
def RootTileset.ofJson (v : Json) : Out RootTileset := do
  let es ← objectEntries v
  let asset ← required es "asset" TilesetAssetInfo.ofJson
  let properties ← optional es "properties" propertiesOfJson
  let geometricError ← required es "geometricError" f64OfJson
  let root ← required es "root" Tileset.ofJson
  pure ⟨asset, properties, geometricError, root⟩

/-- `serde_json::to_string`. -/
def RootTileset.write (J : JsonText) (t : RootTileset) : Bytes := J.toText t.toJson

/-- `serde_json::from_str::<RootTileset>`. -/
def RootTileset.read (J : JsonText) (text : Bytes) : Out RootTileset := do
  let v ← orErr (J.fromText text)
  RootTileset.ofJson v

end Tiles3d

end Pasture
