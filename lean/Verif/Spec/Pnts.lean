import Verif.Model.Pnts
import Verif.Spec.LasWriter
import Verif.Spec.Numbers

/-!
# Specification: 3D Tiles point clouds

What is in a `.pnts` file, and what a reader of one has to return.
-/

namespace Pasture.Spec.Pnts

open Pasture.Tiles3d

/-! ## JSON -/

/-- What `serde_json` can represent: numbers in the range of `i64` and `u64`, finite floats, distinct keys. -/
inductive Valid : Json → Prop
  | null : Valid .null
  | bool (b : Bool) : Valid (.bool b)
  | int (z : Int) : -2 ^ 63 ≤ z → z < 2 ^ 64 → Valid (.int z)
  | float (x : F64) : x.isFinite → Valid (.float x)
  | string (s : String) : Valid (.string s)
  | array (xs : List Json) : (∀ x ∈ xs, Valid x) → Valid (.array xs)
  | object (es : List (String × Json)) : (es.map Prod.fst).Nodup → (∀ e ∈ es, Valid e.2) → Valid (.object es)

/-- `j'` is what is read when `j` was written: the same value, up to the order of the entries of objects. A
    float `x` may come back as another one, `f x` (`serde_json` reads floats without the guarantee of an exact
    round trip). -/
inductive ReadsBack (f : F64 → F64) : Json → Json → Prop
  | null : ReadsBack f .null .null
  | bool (b : Bool) : ReadsBack f (.bool b) (.bool b)
  | int (z : Int) : ReadsBack f (.int z) (.int z)
  | float (x : F64) : ReadsBack f (.float x) (.float (f x))
  | string (s : String) : ReadsBack f (.string s) (.string s)
  | array (xs ys : List Json) : xs.length = ys.length →
    (∀ (i : Nat) x y, xs[i]? = some x → ys[i]? = some y → ReadsBack f x y) → ReadsBack f (.array xs) (.array ys)
  | object (es es' : List (String × Json)) : (es'.map Prod.fst).Nodup →
    (∀ k, (es.lookup k).isSome = (es'.lookup k).isSome) →
    (∀ k x y, es.lookup k = some x → es'.lookup k = some y → ReadsBack f x y) → ReadsBack f (.object es) (.object es')

mutual

/-- How many arrays and objects are inside each other. -/
def depth : Json → Nat
  | .array xs => depthList xs + 1
  | .object es => depthEntries es + 1
  | _ => 0

/-- The greatest depth of the values of an array. -/
def depthList : List Json → Nat
  | [] => 0
  | x :: xs => Nat.max (depth x) (depthList xs)

/-- The greatest depth of the values of an object. -/
def depthEntries : List (String × Json) → Nat
  | [] => 0
  | (_, x) :: es => Nat.max (depth x) (depthEntries es)

end

/-- Reading the text of a value, followed by any number of spaces, gives the value back. Values that are nested deeper
    than the recursion limit of the parser are excepted. -/
def Faithful (J : JsonText) (f : F64 → F64) : Prop :=
  ∀ (j : Json) (k : Nat), Valid j → depth j ≤ 127 → ∃ j', J.fromText (J.toText j ++ List.replicate k 0x20#8) = some j' ∧
    ReadsBack f j j'

/-! ## Files -/

/-- The attributes a file can have, in the order of the 3D Tiles specification: their name there, their
    name in a point layout, their type. -/
def semantics : List (String × AttrDef) :=
  [("POSITION", ⟨"Position3D", .vec3f32⟩), ("RGBA", ⟨"ColorRGBA", .vec4u8⟩), ("RGB", ⟨"ColorRGB", .vec3u8⟩),
    ("NORMAL", ⟨"Normal", .vec3f32⟩)]

/-- Header field `k`. -/
def field (file : Bytes) (k : Nat) : Nat := littleEndian (window file (4 * k) 4)

/-- The values of one attribute in the body of the file. -/
structure Part where
  semantic : String
  offset : Nat
  data : Bytes

/-- The center of the file, as JSON. -/
def centerEntry : Option (P3 F64) → List (String × Json)
  | none => []
  | some c => [("RTC_CENTER", .array [Json.ofF64 c.x, Json.ofF64 c.y, Json.ofF64 c.z])]

/-- The entries of the feature table. -/
def tableEntries (n : Nat) (center : Option (P3 F64)) (parts : List Part) : List (String × Json) :=
  ("POINTS_LENGTH", .int n) :: centerEntry center ++
    parts.map fun p => (p.semantic, .object [("byteOffset", .int p.offset)])

/-- `file` is a `.pnts` file of `n` points with these attributes. -/
structure IsPnts (J : JsonText) (file : Bytes) (n : Nat) (center : Option (P3 F64)) (parts : List Part) : Prop where
  magic : window file 0 4 = [0x70#8, 0x6e#8, 0x74#8, 0x73#8]
  version : field file 1 = 1
  /-- The lengths in the header add up to the length of the file. -/
  length : field file 2 = file.length
  lengths : file.length = 28 + field file 3 + field file 4 + field file 5 + field file 6
  /-- The body of the feature table begins and ends at multiples of 8. -/
  bodyStart : (28 + field file 3) % 8 = 0
  bodyEnd : (28 + field file 3 + field file 4) % 8 = 0
  /-- The attributes begin at multiples of 8, in the body, and do not overlap. -/
  aligned : ∀ p ∈ parts, p.offset % 8 = 0
  inside : ∀ p ∈ parts, p.offset + p.data.length ≤ field file 4
  apart : parts.Pairwise fun p q => p.offset + p.data.length ≤ q.offset
  stored : ∀ p ∈ parts, window file (28 + field file 3 + p.offset) p.data.length = p.data
  /-- The feature table says where they are. -/
  table : ∃ entries k, entries.Perm (tableEntries n center parts) ∧
    window file 28 (field file 3) = J.toText (.object entries) ++ List.replicate k 0x20#8
  /-- The batch table is empty. -/
  batch : ∃ k, window file (28 + field file 3 + field file 4) (field file 5) =
    J.toText (.object []) ++ List.replicate k 0x20#8

/-- The next multiple of 8. -/
def up8 (n : Nat) : Nat := (n + 7) / 8 * 8

/-- One attribute follows the other, from `o` on, each at the next multiple of 8. -/
def PackedFrom : Nat → List Part → Prop
  | _, [] => True
  | o, p :: ps => p.offset = o ∧ PackedFrom (o + up8 p.data.length) ps

/-- The length of a file with these entries in its feature table. -/
def fileSize (J : JsonText) (entries : List (String × Json)) (parts : List Part) : Nat :=
  up8 (up8 (28 + (J.toText (.object entries)).length) + (parts.map fun p => up8 p.data.length).sum +
    (J.toText (.object [])).length)

/-- A center whose coordinates are finite. -/
def FiniteCenter (c : P3 F64) : Prop := c.x.isFinite ∧ c.y.isFinite ∧ c.z.isFinite

instance (c : P3 F64) : Decidable (FiniteCenter c) := by unfold FiniteCenter; infer_instance

/-- The center after it went through the text. -/
def textCenter (f : F64 → F64) (c : P3 F64) : P3 F64 := ⟨f c.x, f c.y, f c.z⟩

/-! ## Points -/

instance (l : PointLayout) (n : String) : Decidable (named l n) := by unfold named; infer_instance

/-- The attributes of points of layout `l` that are stored. -/
def storedAttributes (l : PointLayout) : List (String × AttrDef) := semantics.filter fun s => named l s.2.name

/-- They can be converted to the types of the file. -/
def Storable (l : PointLayout) : Prop := ∀ s ∈ storedAttributes l, (defaultPlan l s.2).isSome

/-- What is stored of a point of layout `l`: those of its attributes the format knows, converted. -/
def storedPoint (l : PointLayout) (p : Point) : Point :=
  (defaultPlan l).apply p ((storedAttributes l).map fun s => (s.2, List.replicate s.2.size 0))

/-- All values of an attribute. -/
def columnOf (d : AttrDef) (ps : List Point) : Bytes := (ps.filterMap fun p => p.get d).flatten

/-! ## Reading -/

/-- The reader `r` is open on a file with the points `ps` and the center `center`, and stands before point `i`. -/
structure Opened (r : PntsReader) (ps : List Point) (center : Option (P3 F64)) (i : Nat) : Prop where
  index : r.currentPointIndex = i
  inside : i ≤ ps.length
  count : r.metadata.pointsLength = ps.length
  center : r.metadata.rtcCenter = center
  solid : Solid r.layout
  /-- The points have the attributes of the reader's layout. -/
  attributes : ∀ p ∈ ps, p.map Prod.fst = r.layout.attributes.map Member.definition
  sizes : ∀ p ∈ ps, ∀ kv ∈ p, kv.2.length = kv.1.size
  /-- Their values are stored at the offsets. -/
  stored : ∀ m ∈ r.layout.attributes, ∃ o, r.attributeOffsets.lookup m.name = some o ∧
    window r.data o (ps.length * m.size) = columnOf m.definition ps

/-- The same file, read in the same mode; possibly another position. -/
def SameTile (r r' : PntsReader) : Prop :=
  r'.data = r.data ∧ r'.metadata = r.metadata ∧ r'.layout = r.layout ∧ r'.attributeOffsets = r.attributeOffsets ∧
    r'.mode = r.mode

/-- A coordinate (f32), moved by `c`: the sum is computed with double precision. -/
def moved32 (c : F64) (v : Bytes) : Bytes :=
  match readNum .f32 v with
  | .single x => writeNum .f32 (.single (((x.cast .f64).add c).cast .f32))
  | _ => v

/-- A coordinate (f64), moved by `c`. -/
def moved64 (c : F64) (v : Bytes) : Bytes :=
  match readNum .f64 v with
  | .double x => writeNum .f64 (.double (x.add c))
  | _ => v

/-- A position of some type, moved by the vector `c`. -/
def movedPosition (c : P3 F64) : DataType → Bytes → Bytes
  | .vec3f32, v => moved32 c.x (window v 0 4) ++ moved32 c.y (window v 4 4) ++ moved32 c.z (window v 8 4)
  | .vec3f64, v => moved64 c.x (window v 0 8) ++ moved64 c.y (window v 8 8) ++ moved64 c.z (window v 16 8)
  | _, v => v

/-- A point, moved by the vector `c`: its position changes, nothing else. -/
def movedPoint (c : P3 F64) (p : Point) : Point :=
  p.map fun (d, v) => (d, if d.name = "Position3D" then movedPosition c d.datatype v else v)

/-- A point as it is returned: relative to the center, or absolute. -/
def placed (mode : PositionsMode) (center : Option (P3 F64)) (p : Point) : Point :=
  match mode, center with
  | .absolute, some c => movedPoint c p
  | _, _ => p

/-- Points of the layout `source` can be read into buffers of the layout `target`. -/
def Convertible (source target : PointLayout) : Prop :=
  ∀ m ∈ source.attributes, ∀ m' ∈ target.attributes, m'.name = m.name → (conversion m.datatype m'.datatype).isSome

/-- Absolute positions need a type the reader can compute with. -/
def Movable (target : PointLayout) : Prop :=
  ∀ m ∈ target.attributes, m.name = "Position3D" → m.datatype = .vec3f32 ∨ m.datatype = .vec3f64

/-- Every read is for at least one point and not at the end. -/
def readsSomething (n : Nat) : Nat → List ReaderCall → Prop
  | _, [] => True
  | i, .read k :: calls => (0 < k ∧ i < n) ∧ readsSomething n (i + min k (n - i)) calls
  | i, .seek p :: calls => readsSomething n (min (p.wanted n i).toNat n) calls

/-- What a buffer with the points `qs` holds after a correct `read_into` of the next points of the file: the points
    read are converted into the first places, and placed; the other points stay as they are. -/
def readOverPnts (source : PointLayout) (place : Point → Point) (read qs : List Point) : List Point :=
  List.zipWith (fun p q => place ((defaultPlan source).apply p q)) read qs ++ qs.drop read.length

/-! ## Calls -/

/-- A new writer for points of layout `l` on an empty stream, with the center `center`. -/
def openPnts (l : PointLayout) (center : Option (P3 F64)) : Out PntsWriter := do
  let w ← PntsWriter.fromWriteAndLayout ⟨[], 0⟩ l
  match center with
  | none => pure w
  | some c => pure (w.setRtcCenter c)

/-- The points written before the first flush. -/
def beforeFlush : List WriterCall → List Point
  | [] => []
  | .write b :: calls => b.points ++ beforeFlush calls
  | .flush :: _ => []

/-- Perform the calls on a writer. -/
def runPnts (J : JsonText) (order : Converters → Converters) : PntsWriter → List WriterCall → Out PntsWriter
  | w, [] => .ok w
  | w, .write b :: calls => do
    let w ← w.write order b.buffer
    runPnts J order w calls
  | w, .flush :: calls => do
    let w ← w.flush J
    runPnts J order w calls

end Pasture.Spec.Pnts
