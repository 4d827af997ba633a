import Verif.Model.Convert
import Verif.Model.Slices
import Verif.Model.Views

/-!
# Model of `BufferLayoutConverter` (`pasture-core/src/layout/conversion/buffer_conversion.rs`)

A transformation `Fn(T) -> T` is a function on the bytes of a `T`; transformations that panic or have
state of their own are not modelled. The scratch buffers of the conversion loops are overwritten before
each use, so their old contents are not tracked. `as_columnar` and its relatives return the buffer as a
trait object, that is, an optional implementation of the trait: here an optional class instance.
-/

namespace Pasture

open BorrowedBuffer BorrowedMutBuffer ColumnarBuffer ColumnarBufferMut

/-- `as_interleaved`, `as_columnar`, point_buffer.rs:188-198 (provided methods, `None`). -/
class AsMemory (β : Type) where
  asInterleaved : Option (InterleavedBuffer β) := none
  asColumnar : Option (ColumnarBuffer β) := none

/-- `as_interleaved_mut`, `as_columnar_mut`, point_buffer.rs:340-350 (provided methods, `None`). -/
class AsMemoryMut (β : Type) where
  asInterleavedMut : Option (InterleavedBufferMut β) := none
  asColumnarMut : Option (ColumnarBufferMut β) := none

/-- `VectorBuffer` and `ExternalMemoryBuffer`, point_buffer.rs:666-668, 1526-1528. -/
instance : AsMemory Interleaved where
  asInterleaved := some inferInstance

/-- point_buffer.rs:738-740, 1608-1610. -/
instance : AsMemoryMut Interleaved where
  asInterleavedMut := some inferInstance

/-- point_buffer.rs:1180-1182. -/
instance : AsMemory HashMapBuffer where
  asColumnar := some inferInstance

/-- point_buffer.rs:1270-1272. -/
instance : AsMemoryMut HashMapBuffer where
  asColumnarMut := some inferInstance

/-- The generic slices override neither method, slice.rs:93-136. -/
instance {β : Type} : AsMemory (BufferSlice β) where

/-- The generic slices override neither method, slice.rs:237-323. -/
instance {β : Type} : AsMemoryMut (BufferSliceMut β) where

/-- slice.rs:497-499. -/
instance {β : Type} [InterleavedBuffer β] : AsMemory (BufferSliceInterleaved β) where
  asInterleaved := some inferInstance

/-- slice.rs:599-601. -/
instance {β : Type} [InterleavedBufferMut β] : AsMemoryMut (BufferSliceInterleavedMut β) where
  asInterleavedMut := some inferInstance

/-- slice.rs:690-692. -/
instance {β : Type} [ColumnarBuffer β] : AsMemory (BufferSliceColumnar β) where
  asColumnar := some inferInstance

/-- slice.rs:792-794. -/
instance {β : Type} [ColumnarBufferMut β] : AsMemoryMut (BufferSliceColumnarMut β) where
  asColumnarMut := some inferInstance

/-- `Transformation`, buffer_conversion.rs:33-36, with the function of `to_untyped_transform_fn` 17-31
    for `T` of `size` bytes. -/
structure Transformation where
  size : Nat
  func : Bytes → Bytes
  onSource : Bool

/-- The closure of `to_untyped_transform_fn`, buffer_conversion.rs:20-29: reads a `T` from the memory
    and writes a `T` back, whatever the length of the memory. -/
def Transformation.run (t : Transformation) (memory : Bytes) : Out Bytes :=
  if t.size ≤ memory.length then .ok (put memory 0 (t.func (memory.take t.size)))
  else .error .ub

/-- `AttributeMapping`, buffer_conversion.rs:41-46. -/
structure AttributeMapping where
  target : Member
  source : Member
  converter : Option Converter
  transformation : Option Transformation

namespace AttributeMapping

/-- `required_buffer_size`, buffer_conversion.rs:51-55. -/
def requiredBufferSize (m : AttributeMapping) : Nat := max m.source.size m.target.size

/-- `make_default_mapping`, buffer_conversion.rs:370-398. -/
def makeDefault (source target : Member) : Out AttributeMapping := do
  if source.datatype = target.datatype then pure ⟨target, source, none, none⟩
  else
    let c ← getGenericConverter source.datatype target.datatype
    let c ← expectSome c
    pure ⟨target, source, some c, none⟩

/-- `make_transformed_mapping`, buffer_conversion.rs:406-418. -/
def makeTransformed (source target : Member) (t : Transformation) : Out AttributeMapping := do
  let m ← makeDefault source target
  pure { m with transformation := some t }

/-- Apply the converter of a mapping to one value, going through a scratch buffer `scratch` where the
    source is transformed. buffer_conversion.rs:447-465, 513-527 (scratch of the source's size). -/
def applyConverter (m : AttributeMapping) (c : Converter) (scratch s t : Bytes) : Out Bytes :=
  match m.transformation with
  | some tr =>
    if tr.onSource then do
      let buf ← copyFromSlice scratch s
      let buf ← tr.run buf
      c.run buf t
    else do
      let t ← c.run s t
      tr.run t
  | none => c.run s t

/-- The part of the two loops over an interleaved source that handles one value,
    buffer_conversion.rs:573-603, 633-661; `scratch` is the shared buffer, of which the first `n` bytes
    are used. -/
def applyBuffered (m : AttributeMapping) (scratch : Bytes) (n : Nat) (s t : Bytes) : Out Bytes :=
  match m.converter with
  | some c =>
    match m.transformation with
    | some tr =>
      if tr.onSource then do
        let buf ← sliceGet scratch 0 n
        let buf ← copyFromSlice buf s
        let buf ← tr.run buf
        c.run buf t
      else do
        let t ← c.run s t
        tr.run t
    | none => c.run s t
  | none =>
    match m.transformation with
    | some tr => do
      let buf ← sliceGet scratch 0 n
      let buf ← copyFromSlice buf s
      let buf ← tr.run buf
      copyFromSlice t buf
    | none => copyFromSlice t s

end AttributeMapping

/-- `data.chunks_exact(n)`: panics for `n = 0`, ignores a remainder. -/
def chunksExact (n : Nat) (data : Bytes) : Out (List Bytes) := do
  assertThat (n ≠ 0)
  pure ((List.range (data.length / n)).map fun i => (data.drop (i * n)).take n)

/-- What `data` contains after its leading chunks were replaced by `chunks`. -/
def replaceChunks (data : Bytes) (chunks : List Bytes) : Bytes :=
  chunks.flatten ++ data.drop chunks.flatten.length

/-- `BufferLayoutConverter`, buffer_conversion.rs:97-101. -/
structure BufferLayoutConverter where
  fromLayout : PointLayout
  toLayout : PointLayout
  mappings : List AttributeMapping

namespace BufferLayoutConverter

/-- The closure of `for_layouts`, buffer_conversion.rs:113-116. -/
def mappingFor (fromLayout : PointLayout) (t : Member) : Out AttributeMapping := do
  let s ← expectSome (fromLayout.getAttributeByName t.name)
  AttributeMapping.makeDefault s t

/-- `for_layouts`, buffer_conversion.rs:112-122. -/
def forLayouts (fromLayout toLayout : PointLayout) : Out BufferLayoutConverter := do
  let ms ← toLayout.attributes.mapM (mappingFor fromLayout)
  pure ⟨fromLayout, toLayout, ms⟩

/-- The closure of `for_layouts_with_default`, buffer_conversion.rs:132-136. -/
def mappingForOrNone (fromLayout : PointLayout) (t : Member) : Out (Option AttributeMapping) :=
  match fromLayout.getAttributeByName t.name with
  | some s => do
    let m ← AttributeMapping.makeDefault s t
    pure (some m)
  | none => pure none

/-- `for_layouts_with_default`, buffer_conversion.rs:126-143. -/
def forLayoutsWithDefault (fromLayout toLayout : PointLayout) : Out BufferLayoutConverter := do
  let ms ← toLayout.attributes.mapM (mappingForOrNone fromLayout)
  pure ⟨fromLayout, toLayout, ms.filterMap id⟩

/-- The `find`/replace or push of buffer_conversion.rs:169-182, 213-234: replace the first mapping to
    `d`, or append the new one. -/
def replaceOrPush (d : AttrDef) (new : AttributeMapping) : List AttributeMapping → List AttributeMapping
  | [] => [new]
  | m :: ms => if m.target.definition = d then new :: ms else m :: replaceOrPush d new ms

/-- `set_custom_mapping`, buffer_conversion.rs:156-183. -/
def setCustomMapping (self : BufferLayoutConverter) (source target : AttrDef) :
    Out BufferLayoutConverter := do
  let s ← expectSome (self.fromLayout.getAttribute source)
  let t ← expectSome (self.toLayout.getAttribute target)
  let m ← AttributeMapping.makeDefault s t
  pure { self with mappings := replaceOrPush target m self.mappings }

/-- `set_custom_mapping_with_transformation::<T, F>`, buffer_conversion.rs:194-236. -/
def setCustomMappingWithTransformation (self : BufferLayoutConverter) (source target : AttrDef)
    (ty : DataType) (f : Bytes → Bytes) (onSource : Bool) : Out BufferLayoutConverter := do
  let s ← expectSome (self.fromLayout.getAttribute source)
  let t ← expectSome (self.toLayout.getAttribute target)
  assertThat (ty = if onSource then s.datatype else t.datatype)
  let m ← AttributeMapping.makeTransformed s t ⟨ty.size, f, onSource⟩
  pure { self with mappings := replaceOrPush target m self.mappings }

/-- Body of the loop of `convert_columnar_to_columnar`, buffer_conversion.rs:420-489: one mapping. -/
def columnarToColumnarStep {σ τ : Type} [ColumnarBuffer σ] [ColumnarBufferMut τ]
    (source : σ) (sr tr : Rng) (target : τ) (m : AttributeMapping) : Out τ := do
  let data ← getAttributeRangeRef source m.source.definition sr
  match m.converter with
  | some c =>
    getAttributeRangeMut target m.target.definition tr fun tdata => do
      let ss ← chunksExact m.source.size data
      let ts ← chunksExact m.target.size tdata
      let new ← (ss.zip ts).mapM fun (s, t) => m.applyConverter c (zeros m.source.size) s t
      pure (replaceChunks tdata new)
  | none => do
    let target ← BorrowedMutBuffer.setAttributeRange target m.target.definition tr data
    match m.transformation with
    | some f =>
      getAttributeRangeMut target m.target.definition tr fun tdata => do
        let ts ← chunksExact m.target.size tdata
        let new ← ts.mapM f.run
        pure (replaceChunks tdata new)
    | none => pure target

/-- `convert_columnar_to_columnar`, buffer_conversion.rs:420-489. -/
def columnarToColumnar {σ τ : Type} [ColumnarBuffer σ] [ColumnarBufferMut τ]
    (self : BufferLayoutConverter) (source : σ) (sr : Rng) (target : τ) (tr : Rng) : Out τ :=
  forLoop self.mappings target (columnarToColumnarStep source sr tr)

/-- Body of the loop of `convert_columnar_to_interleaved`, buffer_conversion.rs:491-546: one mapping. -/
def columnarToInterleavedStep {σ τ : Type} [ColumnarBuffer σ] [InterleavedBufferMut τ]
    (source : σ) (sr tr : Rng) (target : τ) (m : AttributeMapping) : Out τ := do
  let data ← getAttributeRangeRef source m.source.definition sr
  RawAttributeView.withInterleaved target m.target fun view => do
    let ss ← chunksExact m.source.size data
    forLoop ss.zipIdx view fun view (s, i) => do
      let t ← view.index (i + tr.start)
      let t ← match m.converter with
        | some c => m.applyConverter c (zeros m.source.size) s t
        | none => do
          let t ← copyFromSlice t s
          match m.transformation with
          | some f => f.run t
          | none => pure t
      view.put (i + tr.start) t

/-- `convert_columnar_to_interleaved`, buffer_conversion.rs:491-546. -/
def columnarToInterleaved {σ τ : Type} [ColumnarBuffer σ] [InterleavedBufferMut τ]
    (self : BufferLayoutConverter) (source : σ) (sr : Rng) (target : τ) (tr : Rng) : Out τ :=
  forLoop self.mappings target (columnarToInterleavedStep source sr tr)

/-- Body of the loop of `convert_interleaved_to_columnar`, buffer_conversion.rs:548-606: one mapping. -/
def interleavedToColumnarStep {σ τ : Type} [InterleavedBuffer σ] [ColumnarBufferMut τ]
    (source : σ) (sr tr : Rng) (maxSize : Nat) (target : τ) (m : AttributeMapping) : Out τ := do
  let view ← RawAttributeView.fromInterleaved source m.source
  getAttributeRangeMut target m.target.definition tr fun tdata => do
    let ts ← chunksExact m.target.size tdata
    let new ← ts.zipIdx.mapM fun (t, i) => do
      let s ← view.index (i + sr.start)
      m.applyBuffered (zeros maxSize) s.length s t
    pure (replaceChunks tdata new)

/-- `convert_interleaved_to_columnar`, buffer_conversion.rs:548-606. -/
def interleavedToColumnar {σ τ : Type} [InterleavedBuffer σ] [ColumnarBufferMut τ]
    (self : BufferLayoutConverter) (source : σ) (sr : Rng) (target : τ) (tr : Rng) (maxSize : Nat) : Out τ :=
  forLoop self.mappings target (interleavedToColumnarStep source sr tr maxSize)

/-- Body of the loop of `convert_interleaved_to_interleaved`, buffer_conversion.rs:608-664: one mapping. -/
def interleavedToInterleavedStep {σ τ : Type} [InterleavedBuffer σ] [InterleavedBufferMut τ]
    (source : σ) (sr tr : Rng) (maxSize : Nat) (target : τ) (m : AttributeMapping) : Out τ := do
  let view ← RawAttributeView.fromInterleaved source m.source
  RawAttributeView.withInterleaved target m.target fun tview =>
    forLoop (sr.toList.zip tr.toList) tview fun tview (i, j) => do
      let s ← view.index i
      let t ← tview.index j
      let t ← m.applyBuffered (zeros maxSize) m.source.size s t
      tview.put j t

/-- `convert_interleaved_to_interleaved`, buffer_conversion.rs:608-664. -/
def interleavedToInterleaved {σ τ : Type} [InterleavedBuffer σ] [InterleavedBufferMut τ]
    (self : BufferLayoutConverter) (source : σ) (sr : Rng) (target : τ) (tr : Rng) (maxSize : Nat) : Out τ :=
  forLoop self.mappings target (interleavedToInterleavedStep source sr tr maxSize)

/-- The dispatch of buffer_conversion.rs:319-360. -/
def dispatch {σ τ : Type} [AsMemory σ] [AsMemoryMut τ]
    (self : BufferLayoutConverter) (source : σ) (sr : Rng) (target : τ) (tr : Rng) (maxSize : Nat) : Out τ :=
  match AsMemory.asColumnar (β := σ), AsMemoryMut.asColumnarMut (β := τ) with
  | some _, some _ => self.columnarToColumnar source sr target tr
  | some _, none => do
    let _ti ← expectSome (AsMemoryMut.asInterleavedMut (β := τ))
    self.columnarToInterleaved source sr target tr
  | none, some _ => do
    let _si ← expectSome (AsMemory.asInterleaved (β := σ))
    self.interleavedToColumnar source sr target tr maxSize
  | none, none => do
    let _si ← expectSome (AsMemory.asInterleaved (β := σ))
    let _ti ← expectSome (AsMemoryMut.asInterleavedMut (β := τ))
    self.interleavedToInterleaved source sr target tr maxSize

/-- `convert_into_range`, buffer_conversion.rs:294-361. -/
def convertIntoRange {σ τ : Type} [BorrowedBuffer σ] [AsMemory σ] [BorrowedMutBuffer τ] [AsMemoryMut τ]
    (self : BufferLayoutConverter) (source : σ) (sr : Rng) (target : τ) (tr : Rng) : Out τ := do
  assertThat (layout source = self.fromLayout)
  assertThat (layout target = self.toLayout)
  assertThat (sr.len = tr.len)
  assertThat (sr.stop ≤ len source)
  assertThat (tr.stop ≤ len target)
  match (self.mappings.map AttributeMapping.requiredBufferSize).max? with
  | some maxSize => self.dispatch source sr target tr maxSize
  | none => pure target

/-- `convert_into`, buffer_conversion.rs:270-285. -/
def convertInto {σ τ : Type} [BorrowedBuffer σ] [AsMemory σ] [BorrowedMutBuffer τ] [AsMemoryMut τ]
    (self : BufferLayoutConverter) (source : σ) (target : τ) : Out τ :=
  self.convertIntoRange source ⟨0, len source⟩ target ⟨0, len source⟩

/-- `convert`, buffer_conversion.rs:244-261. -/
def convert {σ : Type} (τ : Type) [BorrowedBuffer σ] [AsMemory σ] [OwningBuffer τ] [AsMemoryMut τ]
    [MakeBufferFromLayout τ] (self : BufferLayoutConverter) (source : σ) : Out τ :=
  let target : τ := MakeBufferFromLayout.newFromLayout self.toLayout
  let target := OwningBuffer.resize target (len source)
  self.convertInto source target

end BufferLayoutConverter

end Pasture
