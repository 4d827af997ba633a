import Verif.Model.HashMapBuffer

/-!
# Model of the typed views and iterators
(`pasture-core/src/containers/buffer_views.rs`, `point_iterators.rs`, `attribute_iterators.rs`,
`raw_attribute_view.rs`)

A value of a `PointType` or `PrimitiveType` `T` is its bytes: `bytemuck::bytes_of`, `from_bytes` and
`cast_slice` do not change bytes. `T` itself is given by `T::layout()` (for points; `size_of::<T>()`
is the size of that layout) or by `T::data_type()` (for attributes). Memory is
aligned for `T` here: `from_bytes` and `cast_slice` also panic when it is not, see
`Verif.Model.ViewAddress`. Index arithmetic does not overflow.
-/

namespace Pasture

open BorrowedBuffer BorrowedMutBuffer InterleavedBuffer InterleavedBufferMut ColumnarBuffer
  ColumnarBufferMut OwningBuffer

/-- `bytemuck::cast_slice::<u8, T>` for `size_of::<T>() = size`: the values in order; panics when
    bytes are left over. -/
def castSlice (size : Nat) (data : Bytes) : Out (List Bytes) := do
  assertThat (if size = 0 then data.length = 0 else data.length % size = 0)
  pure ((List.range (data.length / size)).map fun i => (data.drop (i * size)).take size)

/-- A use of an iterator: `next()` or `nth(n)`. -/
inductive IterCall where
  | next
  | nth (n : Nat)
  deriving DecidableEq, Repr

/-- `next` of all six iterators: `None` iff `current_index == len`, else the element at
    `current_index` (`get`), which is then incremented.
    point_iterators.rs:32-42, 72-80, 113-123; attribute_iterators.rs:38-55, 89-97, 131-141;
    buffer_views.rs:627-635 (converting iterator). -/
def iterNext {α : Type} (n : Nat) (get : Nat → Out α) (i : Nat) : Out (Option α × Nat) :=
  if i = n then .ok (none, i)
  else do
    let x ← get i
    pure (some x, i + 1)

/-- One call. `nth(n)` adds `n` to `current_index` and calls `next`.
    point_iterators.rs:44-47, 82-85, 125-128; attribute_iterators.rs:57-60, 99-102, 143-146. -/
def iterCall {α : Type} (n : Nat) (get : Nat → Out α) (i : Nat) : IterCall → Out (Option α × Nat)
  | .next => iterNext n get i
  | .nth k => iterNext n get (i + k)

/-- `Iterator::nth` as provided by the standard library (calls `next` until it has skipped `k`
    elements or `None` was returned); used by `AttributeViewConvertingIterator`, which has no `nth`
    of its own (buffer_views.rs:622-636). -/
def iterDefaultNth {α : Type} (n : Nat) (get : Nat → Out α) : Nat → Nat → Out (Option α × Nat)
  | 0, i => iterNext n get i
  | k + 1, i => do
    let (x, i) ← iterNext n get i
    match x with
    | none => pure (none, i)
    | some _ => iterDefaultNth n get k i

/-- One call on an iterator without its own `nth`. -/
def iterDefaultCall {α : Type} (n : Nat) (get : Nat → Out α) (i : Nat) :
    IterCall → Out (Option α × Nat)
  | .next => iterNext n get i
  | .nth k => iterDefaultNth n get k i

/-- The results of a sequence of calls on an iterator, given what one call does. -/
def runIter {α : Type} (call : Nat → IterCall → Out (Option α × Nat)) :
    List IterCall → Nat → Out (List (Option α))
  | [], _ => .ok []
  | c :: cs, i => do
    let (x, i) ← call i c
    let xs ← runIter call cs i
    pure (x :: xs)

/-- `slice[i]`. -/
def elemAt {α : Type} (xs : List α) (i : Nat) : Out α := expectSome xs[i]?

/-- `&mut *slice.as_mut_ptr().add(i)`: a reference to element `i`, given as its position. Making a
    reference outside the slice is undefined behaviour. -/
def elemPtr {α : Type} (xs : List α) (i : Nat) : Out Nat :=
  if i < xs.length then .ok i else .error .ub

/-! ## Point views -/

namespace PointView

/-- `PointView::new` and `PointViewMut::new`, buffer_views.rs:47-59, 152-164; `t` is `T::layout()`.
    Reached through `view` and `view_mut` (point_buffer.rs:146-152, 314-320). -/
def new {β : Type} [BorrowedBuffer β] (b : β) (t : PointLayout) : Out Unit :=
  assertThat (t = layout b)

/-- `at`, buffer_views.rs:66-71, 171-176. -/
def get {β : Type} [BorrowedBuffer β] (b : β) (t : PointLayout) (i : Nat) : Out Bytes :=
  getPoint b i (zeros t.size)

/-- `at_ref`, buffer_views.rs:90-95, 199-204; `bytemuck::from_bytes` panics on a wrong length. -/
def atRef {β : Type} [InterleavedBuffer β] (b : β) (t : PointLayout) (i : Nat) : Out Bytes := do
  let p ← getPointRef b i
  assertThat (p.length = t.size)
  pure p

/-- `set_at`, buffer_views.rs:183-188. -/
def setAt {β : Type} [BorrowedMutBuffer β] (b : β) (i : Nat) (v : Bytes) : Out β := setPoint b i v

/-- `at_mut`, buffer_views.rs:221-226, followed by the caller's assignment `f`. -/
def atMut {β : Type} [InterleavedBufferMut β] (b : β) (t : PointLayout) (i : Nat) (f : Bytes → Bytes) :
    Out β :=
  getPointMut b i fun p => do
    assertThat (p.length = t.size)
    pure (f p)

/-- `push_point`, buffer_views.rs:246-252. -/
def pushPoint {β : Type} [OwningBuffer β] (b : β) (v : Bytes) : Out β := pushPoints b v

/-- The indices for which `all` holds, lazily: `(0..n).all(|i| f(i))`. -/
def allIn (f : Nat → Out Bool) : List Nat → Out Bool
  | [] => .ok true
  | i :: is => do
    if ← f i then allIn f is else pure false

/-- `eq`, buffer_views.rs:128-134, 265-271; `teq` is `T`'s `PartialEq`. -/
def eq {β γ : Type} [BorrowedBuffer β] [BorrowedBuffer γ] (b : β) (c : γ) (t : PointLayout)
    (teq : Bytes → Bytes → Bool) : Out Bool :=
  if len b ≠ len c then .ok false
  else allIn (fun i => do
    let x ← PointView.get b t i
    let y ← PointView.get c t i
    pure (teq x y)) (List.range (len b))

/-- Calls on `into_iter()`: `PointIteratorByValue`, point_iterators.rs:17-48. -/
def iterByValue {β : Type} [BorrowedBuffer β] (b : β) (t : PointLayout) (cs : List IterCall) :
    Out (List (Option Bytes)) :=
  runIter (iterCall (len b) fun i => getPoint b i (zeros t.size)) cs 0

/-- Calls on `iter()`: `PointIteratorByRef`, point_iterators.rs:56-86. -/
def iterByRef {β : Type} [InterleavedBuffer β] (b : β) (t : PointLayout) (cs : List IterCall) :
    Out (List (Option Bytes)) := do
  let data ← getPointRangeRef b ⟨0, len b⟩
  let xs ← castSlice t.size data
  runIter (iterCall xs.length (elemAt xs)) cs 0

/-- Calls on `iter_mut()`: `PointIteratorByMut`, point_iterators.rs:95-129. The items are references
    into the points, given as positions. -/
def iterByMut {β : Type} [InterleavedBufferMut β] (b : β) (t : PointLayout) (cs : List IterCall) :
    Out (List (Option Nat)) := do
  let data ← getPointRangeRef b ⟨0, len b⟩
  let xs ← castSlice t.size data
  runIter (iterCall xs.length (elemPtr xs)) cs 0

/-- `for p in view.iter_mut() { *p = f(p) }`, point_iterators.rs:95-123: every reference the
    iterator hands out is assigned through once. -/
def forEachMut {β : Type} [InterleavedBufferMut β] (b : β) (t : PointLayout) (f : Bytes → Bytes) : Out β :=
  getPointRangeMut b ⟨0, len b⟩ fun data => do
    let xs ← castSlice t.size data
    let ys ← forLoop (List.range xs.length) xs fun xs i => do
      let x ← elemAt xs i
      pure (xs.set i (f x))
    pure ys.flatten

/-- `sort_by`, buffer_views.rs:237-241. `slice::sort_by` is the standard library's stable sort; it is
    modelled by `List.mergeSort`, also stable (for a comparator that is not a total preorder the
    order it leaves is unspecified, and it may panic). -/
def sortBy {β : Type} [InterleavedBufferMut β] (b : β) (t : PointLayout) (cmp : Bytes → Bytes → Ordering) :
    Out β :=
  getPointRangeMut b ⟨0, len b⟩ fun data => do
    let xs ← castSlice t.size data
    pure (xs.mergeSort fun x y => cmp x y != .gt).flatten

end PointView

/-! ## Attribute views -/

/-- `AttributeView` and `AttributeViewMut`, buffer_views.rs:283-290, 384-391; the buffer is passed
    separately. `datatype` is `T::data_type()`. -/
structure AttributeView where
  datatype : DataType
  member : Member

namespace AttributeView

/-- `new`, buffer_views.rs:293-303, 397-408. -/
def new {β : Type} [BorrowedBuffer β] (b : β) (dt : DataType) (d : AttrDef) : Out AttributeView := do
  assertThat (dt = d.datatype)
  let m ← expectSome ((layout b).getAttribute d)
  pure ⟨dt, m⟩

/-- `at`, buffer_views.rs:310-321, 415-426. -/
def get {β : Type} [BorrowedBuffer β] (b : β) (v : AttributeView) (i : Nat) : Out Bytes :=
  getAttributeUnchecked b v.member i (zeros v.datatype.size)

/-- `at_ref`, buffer_views.rs:333-341, 455-463. -/
def atRef {β : Type} [ColumnarBuffer β] (b : β) (v : AttributeView) (i : Nat) : Out Bytes := do
  let p ← getAttributeRef b v.member.definition i
  assertThat (p.length = v.datatype.size)
  pure p

/-- `set_at`, buffer_views.rs:433-442. -/
def setAt {β : Type} [BorrowedMutBuffer β] (b : β) (v : AttributeView) (i : Nat) (x : Bytes) : Out β :=
  setAttribute b v.member.definition i x

/-- `eq`, buffer_views.rs:373-377, 505-509. -/
def eq {β γ : Type} [BorrowedBuffer β] [BorrowedBuffer γ] (b : β) (v : AttributeView) (c : γ)
    (w : AttributeView) (teq : Bytes → Bytes → Bool) : Out Bool :=
  if len b = len c ∧ v.member.definition = w.member.definition then
    PointView.allIn (fun i => do
      let x ← AttributeView.get b v i
      let y ← AttributeView.get c w i
      pure (teq x y)) (List.range (len b))
  else .ok false

/-- Calls on `into_iter()`: `AttributeIteratorByValue`, attribute_iterators.rs:19-61 (it looks the
    attribute up again). -/
def iterByValue {β : Type} [BorrowedBuffer β] (b : β) (v : AttributeView) (cs : List IterCall) :
    Out (List (Option Bytes)) := do
  let m ← expectSome ((layout b).getAttribute v.member.definition)
  runIter (iterCall (len b) fun i => getAttributeUnchecked b m i (zeros v.datatype.size)) cs 0

/-- Calls on `iter()`: `AttributeIteratorByRef`, attribute_iterators.rs:70-103. -/
def iterByRef {β : Type} [ColumnarBuffer β] (b : β) (v : AttributeView) (cs : List IterCall) :
    Out (List (Option Bytes)) := do
  let data ← getAttributeRangeRef b v.member.definition ⟨0, len b⟩
  let xs ← castSlice v.datatype.size data
  runIter (iterCall xs.length (elemAt xs)) cs 0

/-- Calls on `iter_mut()`: `AttributeIteratorByMut`, attribute_iterators.rs:112-147. -/
def iterByMut {β : Type} [ColumnarBufferMut β] (b : β) (v : AttributeView) (cs : List IterCall) :
    Out (List (Option Nat)) := do
  let data ← getAttributeRangeRef b v.member.definition ⟨0, len b⟩
  let xs ← castSlice v.datatype.size data
  runIter (iterCall xs.length (elemPtr xs)) cs 0

end AttributeView

/-! ## Raw attribute views -/

/-- `RawAttributeView` and `RawAttributeViewMut`, raw_attribute_view.rs:10-15, 74-79. -/
structure RawAttributeView where
  data : Bytes
  offset : Nat
  stride : Nat
  size : Nat
  deriving DecidableEq, Repr

namespace RawAttributeView

/-- `from_interleaved_buffer`, raw_attribute_view.rs:19-33. -/
def fromInterleaved {β : Type} [InterleavedBuffer β] (b : β) (m : Member) : Out RawAttributeView := do
  let stride := (layout b).size
  let data ← getPointRangeRef b ⟨0, len b⟩
  pure ⟨data, m.offset, stride, m.size⟩

/-- `from_columnar_buffer`, raw_attribute_view.rs:36-49. -/
def fromColumnar {β : Type} [ColumnarBuffer β] (b : β) (d : AttrDef) : Out RawAttributeView := do
  let data ← getAttributeRangeRef b d ⟨0, len b⟩
  pure ⟨data, 0, d.size, d.size⟩

/-- `len`, raw_attribute_view.rs:52-54; division by a zero stride panics. -/
def len (v : RawAttributeView) : Out Nat := do
  assertThat (v.stride ≠ 0)
  pure (v.data.length / v.stride)

/-- `index`, raw_attribute_view.rs:66-70, 120-124. -/
def index (v : RawAttributeView) (i : Nat) : Out Bytes :=
  let start := v.offset + v.stride * i
  let stop := start + v.size
  sliceGet v.data start stop

/-- `view[i].copy_from_slice(x)` through `index_mut`, raw_attribute_view.rs:129-133. -/
def put (v : RawAttributeView) (i : Nat) (x : Bytes) : Out RawAttributeView := do
  let start := v.offset + v.stride * i
  let stop := start + v.size
  let data ← slicePut v.data start stop x
  pure { v with data := data }

/-- A use of the mutable view of an interleaved buffer, raw_attribute_view.rs:83-97: create it, run
    `f` on it, and drop it. -/
def withInterleaved {β : Type} [InterleavedBufferMut β] (b : β) (m : Member)
    (f : RawAttributeView → Out RawAttributeView) : Out β :=
  let stride := (layout b).size
  getPointRangeMut b ⟨0, BorrowedBuffer.len b⟩ fun data => do
    let v ← f ⟨data, m.offset, stride, m.size⟩
    pure v.data

/-- A use of the mutable view of a columnar buffer, raw_attribute_view.rs:100-113. -/
def withColumnar {β : Type} [ColumnarBufferMut β] (b : β) (d : AttrDef)
    (f : RawAttributeView → Out RawAttributeView) : Out β :=
  getAttributeRangeMut b d ⟨0, BorrowedBuffer.len b⟩ fun data => do
    let v ← f ⟨data, 0, d.size, d.size⟩
    pure v.data

end RawAttributeView

end Pasture
