import Verif.Model.Layout

/-!
# Model of the buffer traits of `pasture-core/src/containers/point_buffer.rs`

A Rust trait is a type class. A method that writes through `&mut self` returns the new buffer. A
method that fills an out-parameter `data: &mut [u8]` takes the old contents of `data` and returns
the new contents. A method that hands out `&mut [u8]` is modelled by the update it allows: it takes
the function the caller applies to the bytes (which keeps their number) and returns the new buffer.
-/

namespace Pasture

/-- `BorrowedBuffer`, point_buffer.rs:17-199. `is_empty`, `view*`, `as_*` are left out: views are
    modelled in `Model/Views.lean`, the `as_*` dispatch where it is used. -/
class BorrowedBuffer (β : Type) where
  len : β → Nat
  layout : β → PointLayout
  getPoint : β → Nat → Bytes → Out Bytes
  getPointRange : β → Rng → Bytes → Out Bytes
  getAttributeUnchecked : β → Member → Nat → Bytes → Out Bytes
  /-- Provided method, point_buffer.rs:81-90. -/
  getAttribute : β → AttrDef → Nat → Bytes → Out Bytes := fun b d i data => do
    let m ← expectSome ((layout b).getAttribute d)
    getAttributeUnchecked b m i data

/-- `BorrowedBuffer::get_attribute_range` (provided method), point_buffer.rs:102-123; no implementor
    overrides it. -/
def getAttributeRange {β : Type} [BorrowedBuffer β] (b : β) (d : AttrDef) (r : Rng) (data : Bytes) :
    Out Bytes := do
  let m ← expectSome ((BorrowedBuffer.layout b).getAttribute d)
  forLoop r.toList data fun data i => do
    let k := i - r.start
    let old ← sliceGet data (k * m.size) ((k + 1) * m.size)
    let new ← BorrowedBuffer.getAttributeUnchecked b m i old
    slicePut data (k * m.size) ((k + 1) * m.size) new

/-- `BorrowedMutBuffer`, point_buffer.rs:206-351. -/
class BorrowedMutBuffer (β : Type) extends BorrowedBuffer β where
  setPoint : β → Nat → Bytes → Out β
  setPointRange : β → Rng → Bytes → Out β
  setAttribute : β → AttrDef → Nat → Bytes → Out β
  setAttributeRange : β → AttrDef → Rng → Bytes → Out β
  swap : β → Nat → Nat → Out β

/-- `InterleavedBuffer`, point_buffer.rs:429-462 (the required methods). -/
class InterleavedBuffer (β : Type) extends BorrowedBuffer β where
  getPointRef : β → Nat → Out Bytes
  getPointRangeRef : β → Rng → Out Bytes

/-- `InterleavedBufferMut`, point_buffer.rs:466-494: `&mut` results as updates. -/
class InterleavedBufferMut (β : Type) extends InterleavedBuffer β, BorrowedMutBuffer β where
  getPointMut : β → Nat → (Bytes → Out Bytes) → Out β
  getPointRangeMut : β → Rng → (Bytes → Out Bytes) → Out β

/-- `ColumnarBuffer`, point_buffer.rs:498-535 (the required methods). -/
class ColumnarBuffer (β : Type) extends BorrowedBuffer β where
  getAttributeRef : β → AttrDef → Nat → Out Bytes
  getAttributeRangeRef : β → AttrDef → Rng → Out Bytes

/-- `ColumnarBufferMut`, point_buffer.rs:539-579: `&mut` results as updates. -/
class ColumnarBufferMut (β : Type) extends ColumnarBuffer β, BorrowedMutBuffer β where
  getAttributeMut : β → AttrDef → Nat → (Bytes → Out Bytes) → Out β
  getAttributeRangeMut : β → AttrDef → Rng → (Bytes → Out Bytes) → Out β

/-- `OwningBuffer`, point_buffer.rs:358-418. `append_interleaved` and `append_columnar` are
    functions of the implementing types, see there. -/
class OwningBuffer (β : Type) extends BorrowedMutBuffer β where
  pushPoints : β → Bytes → Out β
  resize : β → Nat → β
  clear : β → β

/-- `MakeBufferFromLayout`, point_buffer.rs:422-425. -/
class MakeBufferFromLayout (β : Type) where
  newFromLayout : PointLayout → β

open BorrowedBuffer BorrowedMutBuffer OwningBuffer

/-- `OwningBuffer::append` (provided method), point_buffer.rs:377-389. The reused `point_buffer`
    scratch vector is part of the loop state. -/
def append {β γ : Type} [OwningBuffer β] [BorrowedBuffer γ] (self : β) (other : γ) : Out β := do
  assertThat (layout self = layout other)
  let oldLen := len self
  let self := resize self (oldLen + len other)
  let (self, _) ← forLoop (List.range (len other)) (self, zeros (layout self).size)
    fun (self, scratch) i => do
      let scratch ← getPoint other i scratch
      let self ← setPoint self (oldLen + i) scratch
      pure (self, scratch)
  pure self

end Pasture
