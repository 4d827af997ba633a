import Verif.Model.UntypedPoint
import Verif.Model.Views

/-!
# Model of `AttributeViewConverting` (`pasture-core/src/containers/buffer_views.rs`) and of
`transform_attribute` (`point_buffer.rs`)
-/

namespace Pasture

open BorrowedBuffer BorrowedMutBuffer

/-- `AttributeViewConverting`, buffer_views.rs:521-531; the buffer is passed separately. `datatype` is
    `T::data_type()`. The scratch memory `converter_buffer` has the size of the attribute and is
    overwritten before each use. -/
structure ConvertingView where
  datatype : DataType
  member : Member
  converter : Converter

namespace ConvertingView

/-- `new`, buffer_views.rs:534-557, reached through `view_attribute_with_conversion`
    (point_buffer.rs:177-186). -/
def new {β : Type} [BorrowedBuffer β] (b : β) (dt : DataType) (d : AttrDef) : Out ConvertingView := do
  assertThat (dt = d.datatype)
  let m ← expectSome ((layout b).getAttributeByName d.name)
  if m.datatype = dt then pure ⟨dt, m, .unit⟩
  else
    let c ← getConverterForAttributes m.definition { d with datatype := dt }
    let c ← orErr c
    pure ⟨dt, m, c⟩

/-- `at`, buffer_views.rs:560-576. -/
def get {β : Type} [BorrowedBuffer β] (b : β) (v : ConvertingView) (i : Nat) : Out Bytes := do
  let s ← getAttributeUnchecked b v.member i (zeros v.member.size)
  v.converter.run s (zeros v.datatype.size)

/-- Calls on `into_iter()`, buffer_views.rs:579-592, 617-636 (`nth` is the provided one). -/
def iter {β : Type} [BorrowedBuffer β] (b : β) (v : ConvertingView) (cs : List IterCall) :
    Out (List (Option Bytes)) :=
  runIter (iterDefaultCall (len b) (get b v)) cs 0

/-- `eq`, buffer_views.rs:603-607. -/
def eq {β γ : Type} [BorrowedBuffer β] [BorrowedBuffer γ] (b : β) (v : ConvertingView) (c : γ)
    (w : ConvertingView) (teq : Bytes → Bytes → Bool) : Out Bool :=
  if len b = len c ∧ v.member.definition = w.member.definition then
    PointView.allIn (fun i => do
      let x ← ConvertingView.get b v i
      let y ← ConvertingView.get c w i
      pure (teq x y)) (List.range (len b))
  else .ok false

end ConvertingView

/-- Body of the loop of `transform_attribute`, point_buffer.rs:303-306. -/
def transformAttributeStep {β : Type} [BorrowedMutBuffer β] (v : AttributeView) (f : Nat → Bytes → Bytes)
    (b : β) (i : Nat) : Out β := do
  let x ← AttributeView.get b v i
  AttributeView.setAt b v i (f i x)

/-- `transform_attribute`, point_buffer.rs:293-307; `dt` is `T::data_type()`. -/
def transformAttribute {β : Type} [BorrowedMutBuffer β] (b : β) (dt : DataType) (d : AttrDef)
    (f : Nat → Bytes → Bytes) : Out β := do
  let n := len b
  let v ← AttributeView.new b dt d
  forLoop (List.range n) b (transformAttributeStep v f)

end Pasture
