import Verif.Model.Slices
import Verif.Model.Views

/-!
# Model of the typed views by reference, with addresses
(`pasture-core/src/containers/buffer_views.rs`, `point_iterators.rs`, `attribute_iterators.rs`)

`Verif.Model.Views` leaves addresses out. Here a `&[u8]` is its address and its bytes, and
`bytemuck::from_bytes` and `cast_slice` check the address as well. A reference `&T` is given in the same
way: its address and the bytes behind it. Addresses are natural numbers (no wrapping), and references to
immutable and mutable memory are treated alike: `from_bytes_mut` and `cast_slice_mut` make the same
checks as `from_bytes` and `cast_slice`.
-/

namespace Pasture

open BorrowedBuffer BorrowedMutBuffer

/-- A `&[u8]`, a `&mut [u8]` or a reference to a value. -/
structure Mem where
  addr : Nat
  bytes : Bytes
  deriving DecidableEq, Repr

/-- `&m[start..stop]`. -/
def Mem.slice (m : Mem) (start stop : Nat) : Out Mem := do
  let bytes ← sliceGet m.bytes start stop
  pure ⟨m.addr + start, bytes⟩

/-- `size_of::<T>()` and `align_of::<T>()`. -/
structure Pod where
  size : Nat
  align : Nat
  deriving DecidableEq, Repr

/-- `bytemuck::from_bytes::<T>` and `from_bytes_mut` (crate bytemuck 1.x, `internal::try_from_bytes`):
    panics on a wrong length and on an address that is not a multiple of the alignment. -/
def fromBytesAt (t : Pod) (m : Mem) : Out Mem := do
  assertThat (m.bytes.length = t.size)
  assertThat (m.addr % t.align = 0)
  pure m

/-- `bytemuck::cast_slice::<u8, T>` and `cast_slice_mut` (crate bytemuck 1.x,
    `internal::try_cast_slice`): the references to the elements. The address is checked if the alignment
    of `T` is greater than that of `u8`, also for an empty slice; then the length, unless the sizes of
    `T` and `u8` agree (when no byte is left over either way). -/
def castSliceAt (t : Pod) (m : Mem) : Out (List Mem) := do
  assertThat (t.align ≤ 1 ∨ m.addr % t.align = 0)
  let values ← castSlice t.size m.bytes
  pure (values.mapIdx fun i v => ⟨m.addr + i * t.size, v⟩)

/-! ## Interleaved buffers -/

/-- `get_point_ref`/`get_point_mut` and `get_point_range_ref`/`get_point_range_mut` with the address of
    the memory they return. -/
class PlacedPoints (β : Type) where
  pointMem : β → Nat → Out Mem
  pointRangeMem : β → Rng → Out Mem

/-- A `VectorBuffer` or `ExternalMemoryBuffer` whose memory is at an address. -/
structure PlacedInterleaved where
  buffer : Interleaved
  addr : Nat

/-- The buffer itself does not depend on the address, and none of its in-place operations moves the
    memory. -/
instance : BorrowedMutBuffer PlacedInterleaved where
  len p := len p.buffer
  layout p := layout p.buffer
  getPoint p := getPoint p.buffer
  getPointRange p := getPointRange p.buffer
  getAttributeUnchecked p := getAttributeUnchecked p.buffer
  getAttribute p := getAttribute p.buffer
  setPoint p i data := (setPoint p.buffer i data).map (⟨·, p.addr⟩)
  setPointRange p q data := (setPointRange p.buffer q data).map (⟨·, p.addr⟩)
  setAttribute p d i data := (setAttribute p.buffer d i data).map (⟨·, p.addr⟩)
  setAttributeRange p d q data := (setAttributeRange p.buffer d q data).map (⟨·, p.addr⟩)
  swap p i j := (swap p.buffer i j).map (⟨·, p.addr⟩)

/-- point_buffer.rs:792-804, 811-825, 1618-1631, 1638-1654. -/
instance : PlacedPoints PlacedInterleaved where
  pointMem p i :=
    let r := p.buffer.byteRangeOfPoint i
    (Mem.mk p.addr p.buffer.storage).slice r.start r.stop
  pointRangeMem p q :=
    let r := p.buffer.byteRangeOfPoints q
    (Mem.mk p.addr p.buffer.storage).slice r.start r.stop

/-- slice.rs:138-154. (`BufferSliceInterleaved` passes the calls on, slice.rs:502-516.) -/
instance {β : Type} [PlacedPoints β] : PlacedPoints (BufferSlice β) where
  pointMem s i := do
    let i ← globalIndex i s.range
    PlacedPoints.pointMem s.buffer i
  pointRangeMem s q := do
    let q ← globalRange q s.range
    PlacedPoints.pointRangeMem s.buffer q

/-- slice.rs:325-343, 345-363. (`BufferSliceInterleavedMut` passes the calls on, slice.rs:604-636.) -/
instance {β : Type} [PlacedPoints β] : PlacedPoints (BufferSliceMut β) where
  pointMem s i := do
    let i ← s.globalIndex i
    PlacedPoints.pointMem s.buffer i
  pointRangeMem s q := do
    let q ← s.globalRange q
    PlacedPoints.pointRangeMem s.buffer q

/-- The address of a `Vec<u8>` without capacity: the dangling pointer, whose address is the alignment of
    `u8`. -/
def danglingAddr : Nat := 1

namespace PlacedInterleaved

/-- `VectorBuffer::new_from_layout`, point_buffer.rs:625-631: `Vec::default()` does not allocate. -/
def newFromLayout (l : PointLayout) : PlacedInterleaved := ⟨VectorBuffer.newFromLayout l, danglingAddr⟩

/-- `VectorBuffer::with_capacity`, point_buffer.rs:593-600: `heap` is the address the allocator returns
    if it is asked for at least one byte. -/
def withCapacity (capacity : Nat) (l : PointLayout) (heap : Nat) : PlacedInterleaved :=
  ⟨VectorBuffer.newFromLayout l, if capacity * l.size = 0 then danglingAddr else heap⟩

/-- `push_points`, point_buffer.rs:747-756: `heap` is the address of the memory of the vector after the
    call if there is any, whether or not it has moved. Pushing no bytes leaves the vector alone. -/
def pushPoints (p : PlacedInterleaved) (bytes : Bytes) (heap : Nat) : Out PlacedInterleaved := do
  let b ← VectorBuffer.pushPoints p.buffer bytes
  pure ⟨b, if bytes = [] then p.addr else heap⟩

/-- `clear`, point_buffer.rs:764-767: `Vec::clear` keeps the memory. -/
def clear (p : PlacedInterleaved) : PlacedInterleaved := ⟨VectorBuffer.clear p.buffer, p.addr⟩

end PlacedInterleaved

namespace PointView

/-- `at_ref` and `at_mut`, buffer_views.rs:90-95, 199-204, 221-226. -/
def refAt {β : Type} [PlacedPoints β] (b : β) (t : Pod) (i : Nat) : Out Mem := do
  let m ← PlacedPoints.pointMem b i
  fromBytesAt t m

/-- The references of `iter` (`PointIteratorByRef::from`, point_iterators.rs:60-66), `iter_mut`
    (`PointIteratorByMut::from`, point_iterators.rs:100-107) and `sort_by` (buffer_views.rs:237-241):
    the memory of all points, cast. -/
def allRefs {β : Type} [BorrowedBuffer β] [PlacedPoints β] (b : β) (t : Pod) : Out (List Mem) := do
  let m ← PlacedPoints.pointRangeMem b ⟨0, len b⟩
  castSliceAt t m

end PointView

/-! ## Columnar buffers -/

/-- `get_attribute_ref`/`get_attribute_mut` and `get_attribute_range_ref`/`get_attribute_range_mut` with
    the address of the memory they return. -/
class PlacedColumns (β : Type) where
  attributeMem : β → AttrDef → Nat → Out Mem
  attributeRangeMem : β → AttrDef → Rng → Out Mem

/-- A `HashMapBuffer` and the address of each column. -/
structure PlacedHashMap where
  buffer : HashMapBuffer
  addr : AttrDef → Nat

/-- The buffer itself does not depend on the addresses. -/
instance : BorrowedMutBuffer PlacedHashMap where
  len p := len p.buffer
  layout p := layout p.buffer
  getPoint p := getPoint p.buffer
  getPointRange p := getPointRange p.buffer
  getAttributeUnchecked p := getAttributeUnchecked p.buffer
  getAttribute p := getAttribute p.buffer
  setPoint p i data := (setPoint p.buffer i data).map (⟨·, p.addr⟩)
  setPointRange p q data := (setPointRange p.buffer q data).map (⟨·, p.addr⟩)
  setAttribute p d i data := (setAttribute p.buffer d i data).map (⟨·, p.addr⟩)
  setAttributeRange p d q data := (setAttributeRange p.buffer d q data).map (⟨·, p.addr⟩)
  swap p i j := (swap p.buffer i j).map (⟨·, p.addr⟩)

/-- point_buffer.rs:1339-1367, 1374-1404. -/
instance : PlacedColumns PlacedHashMap where
  attributeMem p d i := do
    let col ← expectSome (p.buffer.columns.get d)
    let r := HashMapBuffer.byteRange i d
    (Mem.mk (p.addr d) col).slice r.start r.stop
  attributeRangeMem p d q := do
    let col ← expectSome (p.buffer.columns.get d)
    let r := HashMapBuffer.byteRangeOf q d
    (Mem.mk (p.addr d) col).slice r.start r.stop

/-- slice.rs:156-184. (`BufferSliceColumnar` passes the calls on, slice.rs:695-717.) -/
instance {β : Type} [PlacedColumns β] : PlacedColumns (BufferSlice β) where
  attributeMem s d i := do
    let i ← globalIndex i s.range
    PlacedColumns.attributeMem s.buffer d i
  attributeRangeMem s d q := do
    let q ← globalRange q s.range
    PlacedColumns.attributeRangeMem s.buffer d q

/-- slice.rs:365-391, 393-419. (`BufferSliceColumnarMut` passes the calls on, slice.rs:797-843.) -/
instance {β : Type} [PlacedColumns β] : PlacedColumns (BufferSliceMut β) where
  attributeMem s d i := do
    let i ← s.globalIndex i
    PlacedColumns.attributeMem s.buffer d i
  attributeRangeMem s d q := do
    let q ← s.globalRange q
    PlacedColumns.attributeRangeMem s.buffer d q

/-- `HashMapBuffer::new_from_layout`, point_buffer.rs:1099-1109: `vec![]` for every attribute. -/
def PlacedHashMap.newFromLayout (l : PointLayout) : PlacedHashMap :=
  ⟨HashMapBuffer.newFromLayout l, fun _ => danglingAddr⟩

namespace AttributeView

/-- `at_ref` and `at_mut`, buffer_views.rs:333-341, 455-463, 482-487. -/
def refAt {β : Type} [PlacedColumns β] (b : β) (t : Pod) (d : AttrDef) (i : Nat) : Out Mem := do
  let m ← PlacedColumns.attributeMem b d i
  fromBytesAt t m

/-- The references of `iter` (`AttributeIteratorByRef::new`, attribute_iterators.rs:71-83) and `iter_mut`
    (`AttributeIteratorByMut::new`, attribute_iterators.rs:113-125). -/
def allRefs {β : Type} [BorrowedBuffer β] [PlacedColumns β] (b : β) (t : Pod) (d : AttrDef) : Out (List Mem) := do
  let m ← PlacedColumns.attributeRangeMem b d ⟨0, len b⟩
  castSliceAt t m

end AttributeView

end Pasture
