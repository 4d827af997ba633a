import Verif.Model.Traits

/-!
# Model of `VectorBuffer` and `ExternalMemoryBuffer`
(`pasture-core/src/containers/point_buffer.rs`)

The two types implement the borrowed-buffer traits with the same bodies over the same data (byte
storage, layout, length); the shared bodies are modelled once, in `namespace Interleaved`, with the
lines of both implementations cited.
-/

namespace Pasture

/-- `std::ptr::swap_nonoverlapping(base+from, base+to, n)` on one allocation: undefined behaviour
    when a region leaves the allocation or the regions overlap. -/
def swapNonoverlapping (mem : Bytes) (src dst n : Nat) : Out Bytes :=
  if src + n ≤ mem.length ∧ dst + n ≤ mem.length ∧ (src + n ≤ dst ∨ dst + n ≤ src ∨ n = 0) then
    .ok (put (put mem src ((mem.drop dst).take n)) dst ((mem.drop src).take n))
  else .error .ub

/-- Memory of an interleaved buffer: the fields `storage`/`external_memory`, `point_layout`,
    `length` of `VectorBuffer` (584-588) and `ExternalMemoryBuffer` (1444-1448). -/
structure Interleaved where
  storage : Bytes
  layout : PointLayout
  length : Nat
  deriving DecidableEq, Repr

namespace Interleaved

/-- `get_byte_range_of_point`, point_buffer.rs:602-605 and 1470-1473. -/
def byteRangeOfPoint (b : Interleaved) (i : Nat) : Rng :=
  ⟨i * b.layout.size, (i + 1) * b.layout.size⟩

/-- `get_byte_range_of_points`, point_buffer.rs:607-610 and 1475-1478. -/
def byteRangeOfPoints (b : Interleaved) (r : Rng) : Rng :=
  ⟨r.start * b.layout.size, r.stop * b.layout.size⟩

/-- `get_byte_range_of_attribute`, point_buffer.rs:612-621 and 1480-1489. -/
def byteRangeOfAttribute (b : Interleaved) (i : Nat) (m : Member) : Rng :=
  ⟨i * b.layout.size + m.offset, i * b.layout.size + m.offset + m.size⟩

/-- Read `&storage[r]`. -/
def read (b : Interleaved) (r : Rng) : Out Bytes := sliceGet b.storage r.start r.stop

/-- `storage[r].copy_from_slice(src)`. -/
def write (b : Interleaved) (r : Rng) (src : Bytes) : Out Interleaved := do
  let s ← slicePut b.storage r.start r.stop src
  pure { b with storage := s }

/-- Update the bytes behind `&mut storage[r]`. -/
def update (b : Interleaved) (r : Rng) (f : Bytes → Out Bytes) : Out Interleaved := do
  let old ← b.read r
  let new ← f old
  b.write r new

/-- `get_point_ref`, point_buffer.rs:792-797 and 1617-1623. -/
def getPointRef (b : Interleaved) (i : Nat) : Out Bytes := b.read (b.byteRangeOfPoint i)

/-- `get_point_range_ref`, point_buffer.rs:799-804 and 1625-1631. -/
def getPointRangeRef (b : Interleaved) (r : Rng) : Out Bytes := b.read (b.byteRangeOfPoints r)

/-- `get_point`, point_buffer.rs:646-649 and 1504-1507. -/
def getPoint (b : Interleaved) (i : Nat) (data : Bytes) : Out Bytes := do
  let p ← b.getPointRef i
  copyFromSlice data p

/-- `get_point_range`, point_buffer.rs:651-654 and 1509-1513. -/
def getPointRange (b : Interleaved) (r : Rng) (data : Bytes) : Out Bytes := do
  let p ← b.getPointRangeRef r
  copyFromSlice data p

/-- `get_attribute_unchecked`, point_buffer.rs:656-664 and 1515-1524. -/
def getAttributeUnchecked (b : Interleaved) (m : Member) (i : Nat) (data : Bytes) : Out Bytes := do
  let p ← b.read (b.byteRangeOfAttribute i m)
  copyFromSlice data p

/-- `set_point`, point_buffer.rs:675-678 and 1535-1539. -/
def setPoint (b : Interleaved) (i : Nat) (data : Bytes) : Out Interleaved :=
  b.write (b.byteRangeOfPoint i) data

/-- `set_attribute`, point_buffer.rs:680-693 and 1541-1554. -/
def setAttribute (b : Interleaved) (d : AttrDef) (i : Nat) (data : Bytes) : Out Interleaved := do
  let m ← expectSome (b.layout.getAttribute d)
  b.write (b.byteRangeOfAttribute i m) data

/-- `swap`, point_buffer.rs:695-708 and 1556-1577. -/
def swap (b : Interleaved) (i j : Nat) : Out Interleaved := do
  assertThat (i < b.length)
  assertThat (j < b.length)
  if i = j then pure b
  else
    let s ← swapNonoverlapping b.storage (i * b.layout.size) (j * b.layout.size) b.layout.size
    pure { b with storage := s }

/-- `set_point_range`, point_buffer.rs:710-713 and 1579-1583. -/
def setPointRange (b : Interleaved) (r : Rng) (data : Bytes) : Out Interleaved :=
  b.write (b.byteRangeOfPoints r) data

/-- `set_attribute_range`, point_buffer.rs:715-736 and 1585-1606. -/
def setAttributeRange (b : Interleaved) (d : AttrDef) (r : Rng) (data : Bytes) :
    Out Interleaved := do
  let m ← expectSome (b.layout.getAttribute d)
  forLoop r.toList b fun b i => do
    let k := i - r.start
    let src ← sliceGet data (k * m.size) ((k + 1) * m.size)
    b.write (b.byteRangeOfAttribute i m) src

/-- `get_point_mut`, point_buffer.rs:811-817 and 1638-1645. -/
def getPointMut (b : Interleaved) (i : Nat) (f : Bytes → Out Bytes) : Out Interleaved :=
  b.update (b.byteRangeOfPoint i) f

/-- `get_point_range_mut`, point_buffer.rs:819-825 and 1647-1654. -/
def getPointRangeMut (b : Interleaved) (r : Rng) (f : Bytes → Out Bytes) : Out Interleaved :=
  b.update (b.byteRangeOfPoints r) f

end Interleaved

instance : BorrowedBuffer Interleaved where
  len := Interleaved.length
  layout := Interleaved.layout
  getPoint := Interleaved.getPoint
  getPointRange := Interleaved.getPointRange
  getAttributeUnchecked := Interleaved.getAttributeUnchecked

instance : BorrowedMutBuffer Interleaved where
  setPoint := Interleaved.setPoint
  setPointRange := Interleaved.setPointRange
  setAttribute := Interleaved.setAttribute
  setAttributeRange := Interleaved.setAttributeRange
  swap := Interleaved.swap

instance : InterleavedBuffer Interleaved where
  getPointRef := Interleaved.getPointRef
  getPointRangeRef := Interleaved.getPointRangeRef

instance : InterleavedBufferMut Interleaved where
  getPointMut := Interleaved.getPointMut
  getPointRangeMut := Interleaved.getPointRangeMut

/-- `VectorBuffer`, point_buffer.rs:584-588. -/
abbrev VectorBuffer := Interleaved

namespace VectorBuffer

/-- `VectorBuffer::new_from_layout`, point_buffer.rs:625-631 (and `with_capacity` 593-600, which
    differs only in reserved memory). -/
def newFromLayout (l : PointLayout) : VectorBuffer := ⟨[], l, 0⟩

/-- `push_points`, point_buffer.rs:747-756. -/
def pushPoints (b : VectorBuffer) (bytes : Bytes) : Out VectorBuffer :=
  if b.layout.size = 0 then do
    assertThat (bytes.length = 0)
    pure b
  else do
    assertThat (bytes.length % b.layout.size = 0)
    pure { b with storage := b.storage ++ bytes, length := b.length + bytes.length / b.layout.size }

/-- `resize`, point_buffer.rs:758-762. -/
def resize (b : VectorBuffer) (count : Nat) : VectorBuffer :=
  { b with storage := vecResize b.storage (count * b.layout.size) 0, length := count }

/-- `clear`, point_buffer.rs:764-767. -/
def clear (b : VectorBuffer) : VectorBuffer := { b with storage := [], length := 0 }

end VectorBuffer

instance : OwningBuffer VectorBuffer where
  pushPoints := VectorBuffer.pushPoints
  resize := VectorBuffer.resize
  clear := VectorBuffer.clear

instance : MakeBufferFromLayout VectorBuffer where
  newFromLayout := VectorBuffer.newFromLayout

namespace VectorBuffer
open BorrowedBuffer

/-- `append_interleaved`, point_buffer.rs:769-775. -/
def appendInterleaved {γ : Type} [InterleavedBuffer γ] (b : VectorBuffer) (other : γ) :
    Out VectorBuffer := do
  assertThat (b.layout = layout other)
  let bytes ← InterleavedBuffer.getPointRangeRef other ⟨0, len other⟩
  b.pushPoints bytes

/-- `append_columnar`, point_buffer.rs:777-785. -/
def appendColumnar {γ : Type} [ColumnarBuffer γ] (b : VectorBuffer) (other : γ) :
    Out VectorBuffer := do
  assertThat (b.layout = layout other)
  let oldLen := b.length
  let b := b.resize (oldLen + len other)
  forLoop (List.range (len other)) b fun b i =>
    b.getPointMut (oldLen + i) fun mem => getPoint other i mem

/-- `FromIterator`, point_buffer.rs:850-888. The iterator is the list of points it yields (as
    bytes) together with the upper bound its `size_hint` reports. -/
def fromIter (l : PointLayout) (points : List Bytes) (upperBound : Option Nat) : Out VectorBuffer :=
  match upperBound with
  | some n =>
    forLoop points.zipIdx (⟨zeros (n * l.size), l, n⟩ : VectorBuffer) fun b (p, i) =>
      Interleaved.setPoint b i p
  | none => forLoop points (newFromLayout l) fun b p => b.pushPoints p

end VectorBuffer

/-- `ExternalMemoryBuffer`, point_buffer.rs:1444-1448. -/
abbrev ExternalMemoryBuffer := Interleaved

/-- `ExternalMemoryBuffer::new`, point_buffer.rs:1452-1468. -/
def ExternalMemoryBuffer.new (mem : Bytes) (l : PointLayout) : Out ExternalMemoryBuffer :=
  if l.size = 0 then do
    assertThat (mem.length = 0)
    pure ⟨mem, l, 0⟩
  else do
    assertThat (mem.length % l.size = 0)
    pure ⟨mem, l, mem.length / l.size⟩

end Pasture
