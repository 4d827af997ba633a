import Verif.Model.Tileset
import Verif.Spec.Float
import Verif.Spec.Pnts

/-!
# Specification: 3D Tiles tables and tilesets
-/

namespace Pasture.Spec.Tileset

open Pasture.Tiles3d Pasture.Spec.Pnts

/-! ## JSON text with a limit on its nesting -/

/-- `serde_json`: what was written is read back if it is not nested too deeply, and refused otherwise (the parser has a
    recursion limit of 128). -/
structure Serde (J : JsonText) (f : F64 → F64) : Prop where
  reads : Faithful J f
  refuses : ∀ (j : Json) (k : Nat), Valid j → 127 < depth j → J.fromText (J.toText j ++ List.replicate k 0x20#8) = none

/-! ## Tables -/

/-- The same table, up to the order of its entries. -/
def SameTable {α : Type} (same : α → α → Prop) (t t' : List (String × α)) : Prop :=
  (t'.map Prod.fst).Nodup ∧ (∀ k, (t.lookup k).isSome = (t'.lookup k).isSome) ∧
    ∀ k x y, t.lookup k = some x → t'.lookup k = some y → same x y

/-- A batch table that can be written as JSON: it is a map, and the values are not nested too deeply. -/
def GoodBatch (t : BatchTable) : Prop :=
  (t.map Prod.fst).Nodup ∧ ∀ e ∈ t, match e.2 with
    | .arrayData vs => ∀ v ∈ vs, Valid v ∧ depth v ≤ 125
    | .reference offset _ _ => offset < 2 ^ 64

/-- The same entry, up to the order in JSON objects and the text of floats. -/
inductive SameEntry (f : F64 → F64) : BatchEntry → BatchEntry → Prop
  | arrayData (vs ws : List Json) : ReadsBack f (.array vs) (.array ws) → SameEntry f (.arrayData vs) (.arrayData ws)
  | reference (o : Nat) (c t : String) : SameEntry f (.reference o c t) (.reference o c t)

/-- A feature table that can be written as JSON. -/
def GoodFeatures (t : FeatureTable) : Prop :=
  (t.map Prod.fst).Nodup ∧ ∀ e ∈ t, match e.2 with
    | .single v => Valid v ∧ depth v ≤ 126
    | .array vs => ∀ v ∈ vs, Valid v ∧ depth v ≤ 125
    | .reference offset _ => offset < 2 ^ 64

/-- A single value that does not look like one of the other kinds of entries. -/
def Unambiguous : FeatureValue → Prop
  | .single (.array _) => False
  | .single (.object es) => es.lookup "byteOffset" = none
  | _ => True

/-- The same entry, up to the order in JSON objects and the text of floats. -/
inductive SameFeature (f : F64 → F64) : FeatureValue → FeatureValue → Prop
  | single (v w : Json) : ReadsBack f v w → SameFeature f (.single v) (.single w)
  | array (vs ws : List Json) : ReadsBack f (.array vs) (.array ws) → SameFeature f (.array vs) (.array ws)
  | reference (o : Nat) (c : Option String) : SameFeature f (.reference o c) (.reference o c)

/-! ## Tilesets -/

/-- The numbers in a bounding volume. -/
def volumeNumbers : BoundingVolume → List F64
  | .region r => [r.west, r.south, r.east, r.north, r.minHeight, r.maxHeight]
  | .box b => [b.center.x, b.center.y, b.center.z, b.x.x, b.x.y, b.x.z, b.y.x, b.y.y, b.y.z, b.z.x, b.z.y, b.z.z]
  | .sphere s => [s.center.x, s.center.y, s.center.z, s.radius]

/-- The numbers in the fields of a tileset. -/
def fieldNumbers (t : TilesetFields) : List F64 :=
  [t.geometricError] ++ volumeNumbers t.boundingVolume ++
    (match t.viewerRequestVolume with | some v => volumeNumbers v | none => []) ++
    (match t.content with | some ⟨some v, _⟩ => volumeNumbers v | _ => []) ++
    (match t.transform with | some m => m | none => [])

/-- Fields as they are in the program (a matrix has 16 entries), with finite numbers. -/
def GoodFields (t : TilesetFields) : Prop :=
  (∀ x ∈ fieldNumbers t, x.isFinite = true) ∧ ∀ m, t.transform = some m → m.length = 16

/-- The same for a tileset and everything below it. -/
inductive GoodTileset : Tileset → Prop
  | mk (fields : TilesetFields) (children : List Tileset) : GoodFields fields → (∀ c ∈ children, GoodTileset c) →
    GoodTileset (.mk fields children)

mutual

/-- How many levels there are below a tileset. -/
def levels : Tileset → Nat
  | .mk _ children => levelsList children

/-- One more than the levels below the children. -/
def levelsList : List Tileset → Nat
  | [] => 0
  | t :: ts => Nat.max (levels t + 1) (levelsList ts)

end

/-- All numbers replaced. -/
def mapPoint (f : F64 → F64) (p : P3 F64) : P3 F64 := ⟨f p.x, f p.y, f p.z⟩

/-- All numbers replaced. -/
def mapVolume (f : F64 → F64) : BoundingVolume → BoundingVolume
  | .region r => .region ⟨f r.west, f r.south, f r.east, f r.north, f r.minHeight, f r.maxHeight⟩
  | .box b => .box ⟨mapPoint f b.center, mapPoint f b.x, mapPoint f b.y, mapPoint f b.z⟩
  | .sphere s => .sphere ⟨mapPoint f s.center, f s.radius⟩

/-- All numbers replaced. -/
def mapFields (f : F64 → F64) (t : TilesetFields) : TilesetFields :=
  { geometricError := f t.geometricError
    refinement := t.refinement
    boundingVolume := mapVolume f t.boundingVolume
    viewerRequestVolume := t.viewerRequestVolume.map (mapVolume f)
    content := t.content.map fun c => ⟨c.boundingVolume.map (mapVolume f), c.uri⟩
    transform := t.transform.map fun m => m.map f }

mutual

/-- All numbers replaced. -/
def mapTileset (f : F64 → F64) : Tileset → Tileset
  | .mk fields children => .mk (mapFields f fields) (mapTilesets f children)

/-- All numbers replaced. -/
def mapTilesets (f : F64 → F64) : List Tileset → List Tileset
  | [] => []
  | t :: ts => mapTileset f t :: mapTilesets f ts

end

/-- The same properties, in any order. -/
def SameProperties (f : F64 → F64) : Option (List (String × TilesetProperty)) → Option (List (String × TilesetProperty)) → Prop
  | none, none => True
  | some ps, some qs => ∀ k, qs.lookup k = (ps.lookup k).map fun p => ⟨f p.minimum, f p.maximum⟩
  | _, _ => False

/-- A tileset as it is in the program, with finite numbers. -/
structure GoodRoot (t : RootTileset) : Prop where
  error : t.geometricError.isFinite = true
  properties : ∀ ps, t.properties = some ps → (ps.map Prod.fst).Nodup ∧
    ∀ p ∈ ps, p.2.minimum.isFinite = true ∧ p.2.maximum.isFinite = true
  root : GoodTileset t.root

/-- The last value given by one of the calls. -/
def lastOf {α : Type} (f : BuilderCall → Option α) (calls : List BuilderCall) : Option α := (calls.filterMap f).getLast?

end Pasture.Spec.Tileset
