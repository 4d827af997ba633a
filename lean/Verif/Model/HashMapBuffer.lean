import Verif.Model.VectorBuffer

/-!
# Model of `HashMapBuffer` (`pasture-core/src/containers/point_buffer.rs`)

`HashMap<PointAttributeDefinition, Vec<u8>>` is an association list with the layout's attributes as
keys; operations that walk over the map visit it in list order (the real order is arbitrary, but
the walks touch each entry independently).
-/

namespace Pasture

/-- Column storage. -/
abbrev Columns := List (AttrDef × Bytes)

namespace Columns
/-- `HashMap::get`. -/
def get (c : Columns) (d : AttrDef) : Option Bytes := c.lookup d
/-- Replace the value under an existing key (`*map.get_mut(d).unwrap() = v`). -/
def set (c : Columns) (d : AttrDef) (v : Bytes) : Columns :=
  c.map fun (k, x) => if k = d then (k, v) else (k, x)
end Columns

/-- `HashMapBuffer`, point_buffer.rs:974-978. -/
structure HashMapBuffer where
  columns : Columns
  layout : PointLayout
  length : Nat
  deriving DecidableEq, Repr

namespace HashMapBuffer

/-- `get_byte_range_for_attribute`, point_buffer.rs:1081-1087. -/
def byteRange (i : Nat) (d : AttrDef) : Rng := ⟨i * d.size, (i + 1) * d.size⟩

/-- `get_byte_range_for_attributes`, point_buffer.rs:1089-1095. -/
def byteRangeOf (r : Rng) (d : AttrDef) : Rng := ⟨r.start * d.size, r.stop * d.size⟩

/-- `new_from_layout`, point_buffer.rs:1099-1109 (and `with_capacity` 983-999). -/
def newFromLayout (l : PointLayout) : HashMapBuffer :=
  ⟨l.attributes.map fun m => (m.definition, []), l, 0⟩

/-- `get_point`, point_buffer.rs:1124-1135. -/
def getPoint (b : HashMapBuffer) (i : Nat) (data : Bytes) : Out Bytes :=
  forLoop b.layout.attributes data fun data m => do
    let col ← expectSome (b.columns.get m.definition)
    let r := byteRange i m.definition
    let src ← sliceGet col r.start r.stop
    slicePut data m.offset m.stop src

/-- `get_point_range`, point_buffer.rs:1137-1154. `&mut data[k..]` followed by
    `[a..b]` is the bounds check `k ≤ data.len()` and the sub-range `k+a..k+b`. -/
def getPointRange (b : HashMapBuffer) (r : Rng) (data : Bytes) : Out Bytes :=
  forLoop b.layout.attributes data fun data m => do
    let col ← expectSome (b.columns.get m.definition)
    forLoop r.toList data fun data i => do
      let br := byteRange i m.definition
      let src ← sliceGet col br.start br.stop
      let base := (i - r.start) * b.layout.size
      assertThat (base ≤ data.length)
      slicePut data (base + m.offset) (base + m.stop) src

/-- `get_attribute`, point_buffer.rs:1156-1163. -/
def getAttribute (b : HashMapBuffer) (d : AttrDef) (i : Nat) (data : Bytes) : Out Bytes := do
  let col ← expectSome (b.columns.get d)
  let r := byteRange i d
  let src ← sliceGet col r.start r.stop
  copyFromSlice data src

/-- `get_attribute_unchecked`, point_buffer.rs:1165-1178. -/
def getAttributeUnchecked (b : HashMapBuffer) (m : Member) (i : Nat) (data : Bytes) : Out Bytes := do
  let col ← expectSome (b.columns.get m.definition)
  let r := byteRange i m.definition
  let src ← sliceGet col r.start r.stop
  copyFromSlice data src

/-- `set_point`, point_buffer.rs:1189-1202. -/
def setPoint (b : HashMapBuffer) (i : Nat) (data : Bytes) : Out HashMapBuffer := do
  let cols ← forLoop b.layout.attributes b.columns fun cols m => do
    let r := byteRange i m.definition
    let col ← expectSome (cols.get m.definition)
    let src ← sliceGet data m.offset m.stop
    let col ← slicePut col r.start r.stop src
    pure (cols.set m.definition col)
  pure { b with columns := cols }

/-- `set_attribute`, point_buffer.rs:1204-1217. -/
def setAttribute (b : HashMapBuffer) (d : AttrDef) (i : Nat) (data : Bytes) : Out HashMapBuffer := do
  let r := byteRange i d
  let col ← expectSome (b.columns.get d)
  let col ← slicePut col r.start r.stop data
  pure { b with columns := b.columns.set d col }

/-- `swap`, point_buffer.rs:1219-1235. -/
def swap (b : HashMapBuffer) (i j : Nat) : Out HashMapBuffer := do
  assertThat (i < b.length)
  assertThat (j < b.length)
  if i = j then pure b
  else
    let cols ← b.columns.mapM fun (d, col) => do
      let col ← swapNonoverlapping col (byteRange i d).start (byteRange j d).start d.size
      pure (d, col)
    pure { b with columns := cols }

/-- `set_point_range`, point_buffer.rs:1237-1258. -/
def setPointRange (b : HashMapBuffer) (r : Rng) (data : Bytes) : Out HashMapBuffer := do
  let cols ← forLoop b.layout.attributes b.columns fun cols m => do
    let col ← expectSome (cols.get m.definition)
    let col ← forLoop r.toList col fun col i => do
      let k := i - r.start
      let br := byteRange i m.definition
      let rec_ ← sliceGet data (k * b.layout.size) ((k + 1) * b.layout.size)
      let src ← sliceGet rec_ m.offset m.stop
      slicePut col br.start br.stop src
    pure (cols.set m.definition col)
  pure { b with columns := cols }

/-- `get_attribute_ref`, point_buffer.rs:1339-1352. -/
def getAttributeRef (b : HashMapBuffer) (d : AttrDef) (i : Nat) : Out Bytes := do
  let col ← expectSome (b.columns.get d)
  sliceGet col (byteRange i d).start (byteRange i d).stop

/-- `get_attribute_range_ref`, point_buffer.rs:1354-1367. -/
def getAttributeRangeRef (b : HashMapBuffer) (d : AttrDef) (r : Rng) : Out Bytes := do
  let col ← expectSome (b.columns.get d)
  sliceGet col (byteRangeOf r d).start (byteRangeOf r d).stop

/-- `get_attribute_mut`, point_buffer.rs:1374-1388. -/
def getAttributeMut (b : HashMapBuffer) (d : AttrDef) (i : Nat) (f : Bytes → Out Bytes) :
    Out HashMapBuffer := do
  let col ← expectSome (b.columns.get d)
  let old ← sliceGet col (byteRange i d).start (byteRange i d).stop
  let new ← f old
  let col ← slicePut col (byteRange i d).start (byteRange i d).stop new
  pure { b with columns := b.columns.set d col }

/-- `get_attribute_range_mut`, point_buffer.rs:1390-1404. -/
def getAttributeRangeMut (b : HashMapBuffer) (d : AttrDef) (r : Rng) (f : Bytes → Out Bytes) :
    Out HashMapBuffer := do
  let col ← expectSome (b.columns.get d)
  let old ← sliceGet col (byteRangeOf r d).start (byteRangeOf r d).stop
  let new ← f old
  let col ← slicePut col (byteRangeOf r d).start (byteRangeOf r d).stop new
  pure { b with columns := b.columns.set d col }

/-- `set_attribute_range`, point_buffer.rs:1260-1268. -/
def setAttributeRange (b : HashMapBuffer) (d : AttrDef) (r : Rng) (data : Bytes) :
    Out HashMapBuffer :=
  b.getAttributeRangeMut d r fun old => copyFromSlice old data

/-- `push_points`, point_buffer.rs:1279-1295; `% 0` panics. -/
def pushPoints (b : HashMapBuffer) (bytes : Bytes) : Out HashMapBuffer := do
  let size := b.layout.size
  assertThat (size ≠ 0)
  assertThat (bytes.length % size = 0)
  let n := bytes.length / size
  let cols ← forLoop b.layout.attributes b.columns fun cols m => do
    let col ← expectSome (cols.get m.definition)
    let col ← forLoop (List.range n) col fun col i => do
      let p ← sliceGet bytes (i * size) ((i + 1) * size)
      let a ← sliceGet p m.offset m.stop
      pure (col ++ a)
    pure (cols.set m.definition col)
  pure { b with columns := cols, length := b.length + n }

/-- `resize`, point_buffer.rs:1297-1303. -/
def resize (b : HashMapBuffer) (count : Nat) : HashMapBuffer :=
  { b with columns := b.columns.map fun (d, col) => (d, vecResize col (count * d.size) 0),
           length := count }

/-- `clear`, point_buffer.rs:1305-1310. -/
def clear (b : HashMapBuffer) : HashMapBuffer :=
  { b with columns := b.columns.map fun (d, _) => (d, []), length := 0 }

end HashMapBuffer

instance : BorrowedBuffer HashMapBuffer where
  len := HashMapBuffer.length
  layout := HashMapBuffer.layout
  getPoint := HashMapBuffer.getPoint
  getPointRange := HashMapBuffer.getPointRange
  getAttributeUnchecked := HashMapBuffer.getAttributeUnchecked
  getAttribute := HashMapBuffer.getAttribute

instance : BorrowedMutBuffer HashMapBuffer where
  setPoint := HashMapBuffer.setPoint
  setPointRange := HashMapBuffer.setPointRange
  setAttribute := HashMapBuffer.setAttribute
  setAttributeRange := HashMapBuffer.setAttributeRange
  swap := HashMapBuffer.swap

instance : ColumnarBuffer HashMapBuffer where
  getAttributeRef := HashMapBuffer.getAttributeRef
  getAttributeRangeRef := HashMapBuffer.getAttributeRangeRef

instance : ColumnarBufferMut HashMapBuffer where
  getAttributeMut := HashMapBuffer.getAttributeMut
  getAttributeRangeMut := HashMapBuffer.getAttributeRangeMut

instance : OwningBuffer HashMapBuffer where
  pushPoints := HashMapBuffer.pushPoints
  resize := HashMapBuffer.resize
  clear := HashMapBuffer.clear

instance : MakeBufferFromLayout HashMapBuffer where
  newFromLayout := HashMapBuffer.newFromLayout

namespace HashMapBuffer
open BorrowedBuffer

/-- `append_interleaved`, point_buffer.rs:1312-1318. -/
def appendInterleaved {γ : Type} [InterleavedBuffer γ] (b : HashMapBuffer) (other : γ) :
    Out HashMapBuffer := do
  assertThat (b.layout = BorrowedBuffer.layout other)
  let bytes ← InterleavedBuffer.getPointRangeRef other ⟨0, len other⟩
  b.pushPoints bytes

/-- `append_columnar`, point_buffer.rs:1320-1332. -/
def appendColumnar {γ : Type} [ColumnarBuffer γ] (b : HashMapBuffer) (other : γ) :
    Out HashMapBuffer := do
  assertThat (b.layout = BorrowedBuffer.layout other)
  let cols ← forLoop b.layout.attributes b.columns fun cols m => do
    let col ← expectSome (cols.get m.definition)
    let src ← ColumnarBuffer.getAttributeRangeRef other m.definition ⟨0, len other⟩
    pure (cols.set m.definition (col ++ src))
  pure { b with columns := cols, length := b.length + len other }

/-- `FromIterator`, point_buffer.rs:1426-1438. -/
def fromIter (l : PointLayout) (points : List Bytes) : Out HashMapBuffer :=
  forLoop points (newFromLayout l) fun b p => b.pushPoints p

/-- The indices of the points a predicate selects: `(0..self.len()).filter(predicate)`. -/
def matching (b : HashMapBuffer) (p : Nat → Bool) : List Nat := (List.range b.length).filter p

/-- `filter_into` with a columnar target, point_buffer.rs:1027-1058. -/
def filterIntoColumnar {γ : Type} [ColumnarBufferMut γ] (b : HashMapBuffer) (target : γ)
    (p : Nat → Bool) (hint : Option Nat) : Out γ := do
  assertThat (BorrowedBuffer.layout target = b.layout)
  let n := hint.getD (b.matching p).length
  assertThat (n ≤ len target)
  forLoop b.layout.attributes target fun target m => do
    let src ← b.getAttributeRangeRef m.definition ⟨0, b.length⟩
    ColumnarBufferMut.getAttributeRangeMut target m.definition ⟨0, n⟩ fun dst =>
      forLoop (b.matching p).zipIdx dst fun dst (si, di) => do
        let v ← sliceGet src (si * m.size) ((si + 1) * m.size)
        slicePut dst (di * m.size) ((di + 1) * m.size) v

/-- `filter_into` with an interleaved target, point_buffer.rs:1027-1041, 1059-1079. -/
def filterIntoInterleaved {γ : Type} [InterleavedBufferMut γ] (b : HashMapBuffer) (target : γ)
    (p : Nat → Bool) (hint : Option Nat) : Out γ := do
  assertThat (BorrowedBuffer.layout target = b.layout)
  let n := hint.getD (b.matching p).length
  assertThat (n ≤ len target)
  InterleavedBufferMut.getPointRangeMut target ⟨0, n⟩ fun dst =>
    forLoop b.layout.attributes dst fun dst m => do
      let src ← b.getAttributeRangeRef m.definition ⟨0, b.length⟩
      forLoop (b.matching p).zipIdx dst fun dst (si, di) => do
        let start := m.offset + di * b.layout.size
        let v ← sliceGet src (si * m.size) ((si + 1) * m.size)
        slicePut dst start (start + m.size) v

/-- `filter::<HashMapBuffer>`, point_buffer.rs:1007-1019. -/
def filterToHashMap (b : HashMapBuffer) (p : Nat → Bool) : Out HashMapBuffer :=
  let n := (b.matching p).length
  b.filterIntoColumnar ((newFromLayout b.layout).resize n) p (some n)

/-- `filter::<VectorBuffer>`, point_buffer.rs:1007-1019. -/
def filterToVector (b : HashMapBuffer) (p : Nat → Bool) : Out VectorBuffer :=
  let n := (b.matching p).length
  b.filterIntoInterleaved ((VectorBuffer.newFromLayout b.layout).resize n) p (some n)

end HashMapBuffer

/-- `HashMapBufferAttributePusher`, point_buffer.rs:893-897. -/
structure AttributePusher where
  storage : Columns
  numNewPoints : Option Nat
  buffer : HashMapBuffer
  deriving DecidableEq, Repr

namespace AttributePusher

/-- `begin_push_attributes` / `new`, point_buffer.rs:900-911, 1002-1004. -/
def new (b : HashMapBuffer) : AttributePusher :=
  ⟨b.layout.attributes.map fun m => (m.definition, []), none, b⟩

/-- `push_attribute_range`, point_buffer.rs:923-939. The typed slice is its element type and the
    list of its values as bytes. -/
def pushAttributeRange (p : AttributePusher) (d : AttrDef) (t : DataType) (data : List Bytes) :
    Out AttributePusher := do
  assertThat (t = d.datatype)
  let col ← expectSome (p.storage.get d)
  let n ← match p.numNewPoints with
    | some n => do assertThat (n = data.length); pure n
    | none => pure data.length
  pure { p with storage := p.storage.set d (col ++ data.flatten), numNewPoints := some n }

/-- `done`, point_buffer.rs:948-968. -/
def done (p : AttributePusher) : Out HashMapBuffer := do
  let n := p.numNewPoints.getD 0
  if n = 0 then pure p.buffer
  else
    assertThat (p.storage.all fun (_, v) => !v.isEmpty)
    let cols ← forLoop p.storage p.buffer.columns fun cols (d, data) => do
      let col ← expectSome (cols.get d)
      pure (cols.set d (col ++ data))
    pure { p.buffer with columns := cols, length := p.buffer.length + n }

end AttributePusher

end Pasture
