import Verif.Model.Convert

/-!
# Model of `pasture-core/src/containers/untyped_point.rs`

`UntypedPointBuffer` (41-161) owns its bytes and `UntypedPointSlice` (163-282) borrows them; their
methods are the same line by line, so both are one structure here. A typed value `T` is given by its
datatype and its bytes. `get_cursor` hands out the whole memory and is not modelled.
-/

namespace Pasture

/-- `UntypedPointBuffer` and `UntypedPointSlice`, untyped_point.rs:41-44, 163-166. -/
structure UntypedPoint where
  layout : PointLayout
  buffer : Bytes
  deriving DecidableEq, Repr

/-- `.with_context(..)?` / `ok_or_else(..)?` on an `Option`. -/
def orErr {α : Type} : Option α → Out α
  | some a => .ok a
  | none => .error .err

/-- `if cond { bail!(..) }`. -/
def bailIf (cond : Bool) : Out Unit := if cond then .error .err else .ok ()

namespace UntypedPoint

/-- `UntypedPointBuffer::new`, untyped_point.rs:47-52. -/
def new (layout : PointLayout) : UntypedPoint := ⟨layout, zeros layout.size⟩

/-- `UntypedPointSlice::new`, untyped_point.rs:169-171: a slice of any length is accepted. -/
def newSlice (layout : PointLayout) (slice : Bytes) : UntypedPoint := ⟨layout, slice⟩

/-- `get_raw_attribute`, untyped_point.rs:55-69, 199-213. -/
def getRawAttribute (p : UntypedPoint) (d : AttrDef) : Out Bytes := do
  let m ← orErr (p.layout.getAttribute d)
  let start := m.offset
  let stop := start + m.datatype.size
  bailIf (p.buffer.length < stop)
  sliceGet p.buffer start stop

/-- `set_raw_attribute`, untyped_point.rs:70-86, 231-247. -/
def setRawAttribute (p : UntypedPoint) (d : AttrDef) (value : Bytes) : Out UntypedPoint := do
  let m ← orErr (p.layout.getAttribute d)
  let start := m.offset
  let stop := start + m.datatype.size
  bailIf (p.buffer.length < stop)
  let buffer ← slicePut p.buffer start stop value
  pure { p with buffer := buffer }

/-- `get_raw_attribute_mut`, untyped_point.rs:146-160, 215-229, and what the caller writes through the
    reference. -/
def updateRawAttribute (p : UntypedPoint) (d : AttrDef) (f : Bytes → Out Bytes) : Out UntypedPoint := do
  let m ← orErr (p.layout.getAttribute d)
  let start := m.offset
  let stop := start + m.datatype.size
  bailIf (p.buffer.length < stop)
  let old ← sliceGet p.buffer start stop
  let new ← f old
  let buffer ← slicePut p.buffer start stop new
  pure { p with buffer := buffer }

/-- `get_attribute::<T>`, untyped_point.rs:100-121, 174-197; `ty` is `T::data_type()`. -/
def getAttribute (p : UntypedPoint) (d : AttrDef) (ty : DataType) : Out Bytes := do
  let s ← p.getRawAttribute d
  let t := zeros ty.size
  if ty ≠ d.datatype then
    let c ← getConverterForAttributes d { d with datatype := ty }
    let c ← orErr c
    c.run s t
  else copyFromSlice t s

/-- `set_attribute::<T>`, untyped_point.rs:123-144, 261-282. -/
def setAttribute (p : UntypedPoint) (d : AttrDef) (ty : DataType) (value : Bytes) : Out UntypedPoint := do
  if ty ≠ d.datatype then
    let c ← getConverterForAttributes { d with datatype := ty } d
    let c ← orErr c
    p.updateRawAttribute d fun t => c.run value t
  else p.setRawAttribute d value

end UntypedPoint

end Pasture
