import Verif.Model.HashMapBuffer

/-!
# Model of `pasture-core/src/containers/slice.rs`

A slice borrows its buffer. An immutable slice is the buffer and a range; the buffer cannot change
while the slice lives. A mutable slice owns the only access to the buffer while it lives, so it is
the current buffer and a range, and a write returns the slice with the new buffer.
-/

namespace Pasture

open BorrowedBuffer BorrowedMutBuffer

/-- `get_and_check_global_point_index`, slice.rs:51-54. -/
def globalIndex (i : Nat) (r : Rng) : Out Nat := do
  assertThat (i < r.len)
  pure (i + r.start)

/-- `get_and_check_global_point_range`, slice.rs:62-73. -/
def globalRange (q : Rng) (r : Rng) : Out Rng := do
  assertThat (q.stop ≤ r.len)
  if q.start ≥ q.stop then pure ⟨r.stop, r.stop⟩
  else pure ⟨q.start + r.start, q.stop + r.start⟩

/-- The range of a nested slice, as computed in slice.rs:189-200, 427-438, 447-458. -/
def nestedRange (len : Nat) (r q : Rng) : Out Rng := do
  assertThat (q.start < len)
  assertThat (q.stop < len)
  if q.start > q.stop then pure ⟨r.start + q.stop, r.start + q.stop⟩
  else pure ⟨r.start + q.start, r.start + q.stop⟩

/-- `BufferSlice`, slice.rs:78-91; `new` does not check the range. -/
structure BufferSlice (β : Type) where
  buffer : β
  range : Rng

/-- slice.rs:93-136. `len` is `end - start`; for `end < start` (which `new` accepts) the subtraction
    overflows in the code and is 0 here. -/
instance {β : Type} [BorrowedBuffer β] : BorrowedBuffer (BufferSlice β) where
  len s := s.range.stop - s.range.start
  layout s := layout s.buffer
  getPoint s i data := do
    let i ← globalIndex i s.range
    getPoint s.buffer i data
  getPointRange s q data := do
    let q ← globalRange q s.range
    getPointRange s.buffer q data
  getAttribute s d i data := do
    let i ← globalIndex i s.range
    getAttribute s.buffer d i data
  getAttributeUnchecked s m i data := do
    let i ← globalIndex i s.range
    getAttributeUnchecked s.buffer m i data

/-- slice.rs:138-154. -/
instance {β : Type} [InterleavedBuffer β] : InterleavedBuffer (BufferSlice β) where
  getPointRef s i := do
    let i ← globalIndex i s.range
    InterleavedBuffer.getPointRef s.buffer i
  getPointRangeRef s q := do
    let q ← globalRange q s.range
    InterleavedBuffer.getPointRangeRef s.buffer q

/-- slice.rs:156-184. -/
instance {β : Type} [ColumnarBuffer β] : ColumnarBuffer (BufferSlice β) where
  getAttributeRef s d i := do
    let i ← globalIndex i s.range
    ColumnarBuffer.getAttributeRef s.buffer d i
  getAttributeRangeRef s d q := do
    let q ← globalRange q s.range
    ColumnarBuffer.getAttributeRangeRef s.buffer d q

/-- `BufferSlice::slice`, slice.rs:186-202. -/
def BufferSlice.slice {β : Type} [BorrowedBuffer β] (s : BufferSlice β) (q : Rng) : Out (BufferSlice β) := do
  let r ← nestedRange (len s) s.range q
  pure ⟨s.buffer, r⟩

/-- `BufferSliceMut`, slice.rs:207-219. -/
structure BufferSliceMut (β : Type) where
  buffer : β
  range : Rng

namespace BufferSliceMut

/-- `BufferSliceMut::get_and_check_global_point_index`, slice.rs:221-224. -/
def globalIndex {β : Type} (s : BufferSliceMut β) (i : Nat) : Out Nat := do
  assertThat (i < s.range.stop)
  pure (i + s.range.start)

/-- `BufferSliceMut::get_and_check_global_point_range`, slice.rs:226-234. -/
def globalRange {β : Type} (s : BufferSliceMut β) (q : Rng) : Out Rng := do
  assertThat (q.stop ≤ s.range.stop)
  if q.start ≥ q.stop then pure ⟨s.range.stop, s.range.stop⟩
  else pure ⟨q.start + s.range.start, q.stop + s.range.start⟩

/-- The slice after its buffer was changed. -/
def update {β : Type} (s : BufferSliceMut β) (f : β → Out β) : Out (BufferSliceMut β) := do
  let b ← f s.buffer
  pure ⟨b, s.range⟩

end BufferSliceMut

/-- slice.rs:237-277. -/
instance {β : Type} [BorrowedMutBuffer β] : BorrowedBuffer (BufferSliceMut β) where
  len s := s.range.stop - s.range.start
  layout s := layout s.buffer
  getPoint s i data := do
    let i ← s.globalIndex i
    getPoint s.buffer i data
  getPointRange s q data := do
    let q ← s.globalRange q
    getPointRange s.buffer q data
  getAttribute s d i data := do
    let i ← s.globalIndex i
    getAttribute s.buffer d i data
  getAttributeUnchecked s m i data := do
    let i ← s.globalIndex i
    getAttributeUnchecked s.buffer m i data

/-- slice.rs:278-323. -/
instance {β : Type} [BorrowedMutBuffer β] : BorrowedMutBuffer (BufferSliceMut β) where
  setPoint s i data := do
    let i ← s.globalIndex i
    s.update fun b => setPoint b i data
  setAttribute s d i data := do
    let i ← s.globalIndex i
    s.update fun b => setAttribute b d i data
  swap s i j := do
    let i ← s.globalIndex i
    let j ← s.globalIndex j
    s.update fun b => swap b i j
  setPointRange s q data := do
    let q ← s.globalRange q
    s.update fun b => setPointRange b q data
  setAttributeRange s d q data := do
    let q ← s.globalRange q
    s.update fun b => setAttributeRange b d q data

/-- slice.rs:325-343, 345-363. -/
instance {β : Type} [InterleavedBufferMut β] : InterleavedBufferMut (BufferSliceMut β) where
  getPointRef s i := do
    let i ← s.globalIndex i
    InterleavedBuffer.getPointRef s.buffer i
  getPointRangeRef s q := do
    let q ← s.globalRange q
    InterleavedBuffer.getPointRangeRef s.buffer q
  getPointMut s i f := do
    let i ← s.globalIndex i
    s.update fun b => InterleavedBufferMut.getPointMut b i f
  getPointRangeMut s q f := do
    let q ← s.globalRange q
    s.update fun b => InterleavedBufferMut.getPointRangeMut b q f

/-- slice.rs:365-391, 393-419. -/
instance {β : Type} [ColumnarBufferMut β] : ColumnarBufferMut (BufferSliceMut β) where
  getAttributeRef s d i := do
    let i ← s.globalIndex i
    ColumnarBuffer.getAttributeRef s.buffer d i
  getAttributeRangeRef s d q := do
    let q ← s.globalRange q
    ColumnarBuffer.getAttributeRangeRef s.buffer d q
  getAttributeMut s d i f := do
    let i ← s.globalIndex i
    s.update fun b => ColumnarBufferMut.getAttributeMut b d i f
  getAttributeRangeMut s d q f := do
    let q ← s.globalRange q
    s.update fun b => ColumnarBufferMut.getAttributeRangeMut b d q f

/-- `BufferSliceMut::slice`, slice.rs:421-439. -/
def BufferSliceMut.slice {β : Type} [BorrowedMutBuffer β] (s : BufferSliceMut β) (q : Rng) :
    Out (BufferSlice β) := do
  let r ← nestedRange (len s) s.range q
  pure ⟨s.buffer, r⟩

/-- `BufferSliceMut::slice_mut`, slice.rs:441-459. -/
def BufferSliceMut.sliceMut {β : Type} [BorrowedMutBuffer β] (s : BufferSliceMut β) (q : Rng) :
    Out (BufferSliceMut β) := do
  let r ← nestedRange (len s) s.range q
  pure ⟨s.buffer, r⟩

/-- `BufferSliceInterleaved`, slice.rs:462-468. -/
structure BufferSliceInterleaved (β : Type) where
  inner : BufferSlice β

/-- slice.rs:470-500; `get_attribute` is the provided method. -/
instance {β : Type} [InterleavedBuffer β] : BorrowedBuffer (BufferSliceInterleaved β) where
  len s := len s.inner
  layout s := layout s.inner
  getPoint s := getPoint s.inner
  getPointRange s := getPointRange s.inner
  getAttributeUnchecked s := getAttributeUnchecked s.inner

/-- slice.rs:502-516. -/
instance {β : Type} [InterleavedBuffer β] : InterleavedBuffer (BufferSliceInterleaved β) where
  getPointRef s := InterleavedBuffer.getPointRef s.inner
  getPointRangeRef s := InterleavedBuffer.getPointRangeRef s.inner

/-- `BufferSliceInterleaved::slice`, slice.rs:518-524. -/
def BufferSliceInterleaved.slice {β : Type} [InterleavedBuffer β] (s : BufferSliceInterleaved β) (q : Rng) :
    Out (BufferSliceInterleaved β) := do
  let s ← s.inner.slice q
  pure ⟨s⟩

/-- `BufferSliceColumnar`, slice.rs:655-661. -/
structure BufferSliceColumnar (β : Type) where
  inner : BufferSlice β

/-- slice.rs:663-693; `get_attribute` is the provided method. -/
instance {β : Type} [ColumnarBuffer β] : BorrowedBuffer (BufferSliceColumnar β) where
  len s := len s.inner
  layout s := layout s.inner
  getPoint s := getPoint s.inner
  getPointRange s := getPointRange s.inner
  getAttributeUnchecked s := getAttributeUnchecked s.inner

/-- slice.rs:695-717. -/
instance {β : Type} [ColumnarBuffer β] : ColumnarBuffer (BufferSliceColumnar β) where
  getAttributeRef s := ColumnarBuffer.getAttributeRef s.inner
  getAttributeRangeRef s := ColumnarBuffer.getAttributeRangeRef s.inner

/-- `BufferSliceInterleavedMut`, slice.rs:527-533. -/
structure BufferSliceInterleavedMut (β : Type) where
  inner : BufferSliceMut β

/-- slice.rs:535-565; `get_attribute` is the provided method. -/
instance {β : Type} [InterleavedBufferMut β] : BorrowedBuffer (BufferSliceInterleavedMut β) where
  len s := len s.inner
  layout s := layout s.inner
  getPoint s := getPoint s.inner
  getPointRange s := getPointRange s.inner
  getAttributeUnchecked s := getAttributeUnchecked s.inner

/-- slice.rs:567-602, 604-618, 620-636. -/
instance {β : Type} [InterleavedBufferMut β] : InterleavedBufferMut (BufferSliceInterleavedMut β) where
  setPoint s i data := (setPoint s.inner i data).map BufferSliceInterleavedMut.mk
  setPointRange s q data := (setPointRange s.inner q data).map BufferSliceInterleavedMut.mk
  setAttribute s d i data := (setAttribute s.inner d i data).map BufferSliceInterleavedMut.mk
  setAttributeRange s d q data := (setAttributeRange s.inner d q data).map BufferSliceInterleavedMut.mk
  swap s i j := (swap s.inner i j).map BufferSliceInterleavedMut.mk
  getPointRef s := InterleavedBuffer.getPointRef s.inner
  getPointRangeRef s := InterleavedBuffer.getPointRangeRef s.inner
  getPointMut s i f := (InterleavedBufferMut.getPointMut s.inner i f).map BufferSliceInterleavedMut.mk
  getPointRangeMut s q f := (InterleavedBufferMut.getPointRangeMut s.inner q f).map BufferSliceInterleavedMut.mk

/-- `BufferSliceInterleavedMut::slice`, slice.rs:638-644. -/
def BufferSliceInterleavedMut.slice {β : Type} [InterleavedBufferMut β] (s : BufferSliceInterleavedMut β)
    (q : Rng) : Out (BufferSliceInterleaved β) := do
  let s ← s.inner.slice q
  pure ⟨s⟩

/-- `BufferSliceInterleavedMut::slice_mut`, slice.rs:646-652. -/
def BufferSliceInterleavedMut.sliceMut {β : Type} [InterleavedBufferMut β] (s : BufferSliceInterleavedMut β)
    (q : Rng) : Out (BufferSliceInterleavedMut β) := do
  let s ← s.inner.sliceMut q
  pure ⟨s⟩

/-- `BufferSliceColumnarMut`, slice.rs:720-726. -/
structure BufferSliceColumnarMut (β : Type) where
  inner : BufferSliceMut β

/-- slice.rs:728-758; `get_attribute` is the provided method. -/
instance {β : Type} [ColumnarBufferMut β] : BorrowedBuffer (BufferSliceColumnarMut β) where
  len s := len s.inner
  layout s := layout s.inner
  getPoint s := getPoint s.inner
  getPointRange s := getPointRange s.inner
  getAttributeUnchecked s := getAttributeUnchecked s.inner

/-- slice.rs:760-795, 797-819, 821-843. -/
instance {β : Type} [ColumnarBufferMut β] : ColumnarBufferMut (BufferSliceColumnarMut β) where
  setPoint s i data := (setPoint s.inner i data).map BufferSliceColumnarMut.mk
  setPointRange s q data := (setPointRange s.inner q data).map BufferSliceColumnarMut.mk
  setAttribute s d i data := (setAttribute s.inner d i data).map BufferSliceColumnarMut.mk
  setAttributeRange s d q data := (setAttributeRange s.inner d q data).map BufferSliceColumnarMut.mk
  swap s i j := (swap s.inner i j).map BufferSliceColumnarMut.mk
  getAttributeRef s := ColumnarBuffer.getAttributeRef s.inner
  getAttributeRangeRef s := ColumnarBuffer.getAttributeRangeRef s.inner
  getAttributeMut s d i f := (ColumnarBufferMut.getAttributeMut s.inner d i f).map BufferSliceColumnarMut.mk
  getAttributeRangeMut s d q f :=
    (ColumnarBufferMut.getAttributeRangeMut s.inner d q f).map BufferSliceColumnarMut.mk

/-- `VectorBuffer::slice` and `ExternalMemoryBuffer::slice`, point_buffer.rs:828-837, 1657-1666. -/
def Interleaved.slice (b : Interleaved) (r : Rng) : BufferSliceInterleaved Interleaved := ⟨⟨b, r⟩⟩

/-- `VectorBuffer::slice_mut` and `ExternalMemoryBuffer::slice_mut`, point_buffer.rs:839-848, 1668-1673. -/
def Interleaved.sliceMut (b : Interleaved) (r : Rng) : BufferSliceInterleavedMut Interleaved := ⟨⟨b, r⟩⟩

/-- `HashMapBuffer::slice`, point_buffer.rs:1407-1416. -/
def HashMapBuffer.slice (b : HashMapBuffer) (r : Rng) : BufferSliceColumnar HashMapBuffer := ⟨⟨b, r⟩⟩

/-- `HashMapBuffer::slice_mut`, point_buffer.rs:1418-1424. -/
def HashMapBuffer.sliceMut (b : HashMapBuffer) (r : Rng) : BufferSliceColumnarMut HashMapBuffer := ⟨⟨b, r⟩⟩

end Pasture
