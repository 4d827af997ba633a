import Verif.Model.Views

/-!
# Model of the mutable references of `AttributeViewMut` (`pasture-core/src/containers/buffer_views.rs`)
-/

namespace Pasture

namespace AttributeView

open BorrowedBuffer ColumnarBufferMut

/-- `at_mut`, buffer_views.rs:482-487, followed by the caller's assignment `f`; `bytemuck::from_bytes_mut`
    panics on a wrong length. -/
def atMut {β : Type} [ColumnarBufferMut β] (b : β) (v : AttributeView) (i : Nat) (f : Bytes → Bytes) : Out β :=
  getAttributeMut b v.member.definition i fun x => do
    assertThat (x.length = v.datatype.size)
    pure (f x)

/-- `for x in view.iter_mut() { *x = f(*x) }`, buffer_views.rs:490-492 and attribute_iterators.rs:112-147: every
    reference the iterator hands out is assigned through once. -/
def forEachMut {β : Type} [ColumnarBufferMut β] (b : β) (v : AttributeView) (f : Bytes → Bytes) : Out β :=
  getAttributeRangeMut b v.member.definition ⟨0, len b⟩ fun data => do
    let xs ← castSlice v.datatype.size data
    let ys ← forLoop (List.range xs.length) xs fun xs i => do
      let x ← elemAt xs i
      pure (xs.set i (f x))
    pure ys.flatten

end AttributeView

end Pasture
