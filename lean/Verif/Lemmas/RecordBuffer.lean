import Verif.Props.Collect
import Verif.Lemmas.Buffers
import Verif.Lemmas.Append
import Verif.Props.BufferConvert

/-!
# Buffers of records, with the invariant their callers see
-/

namespace Pasture

open Spec BorrowedBuffer Props

/-- A buffer type whose consistent buffers are those that hold records. -/
class RecordBuffer (β : Type) [OwningBuffer β] extends HoldsRecords β where
  Consistent : β → Prop
  records : ∀ {b : β}, Consistent b → Solid (layout b) →
    ∃ rs, AllLen (layout b).size rs ∧ b = HoldsRecords.ofRecords (layout b) rs
  consistent : ∀ {l : PointLayout} {rs : List Bytes}, Solid l → AllLen l.size rs →
    Consistent (HoldsRecords.ofRecords l rs : β)

instance : RecordBuffer VectorBuffer where
  Consistent := VectorConsistent
  records hb _ := vector_shows _ hb
  consistent _ hall := hall.flatten_length

instance : RecordBuffer HashMapBuffer where
  Consistent := HashMapConsistent
  records hb hl := hashmap_shows _ hl hb
  consistent hl hall := HashMapBuffer.ofRecords_inv hl hall

/-- A type of such buffers that can be made from a layout. -/
class MakesRecords (β : Type) [OwningBuffer β] [MakeBufferFromLayout β] extends RecordBuffer β where
  new_eq : ∀ l : PointLayout, (MakeBufferFromLayout.newFromLayout l : β) = HoldsRecords.ofRecords l []

instance : MakesRecords VectorBuffer where
  new_eq _ := rfl

instance : MakesRecords HashMapBuffer where
  new_eq _ := rfl

theorem record_shows {β : Type} [OwningBuffer β] [RecordBuffer β] {b : β} (hb : RecordBuffer.Consistent b)
    {l : PointLayout} (hl : Solid l) {ps : List Point} (h : ShowsPoints b l ps) :
    ∃ rs, AllLen l.size rs ∧ b = HoldsRecords.ofRecords l rs ∧ ps = rs.map (pointOf l) := by
  have hbl := h.layout_eq
  obtain ⟨rs, h1, h2⟩ := RecordBuffer.records hb (hbl ▸ hl)
  rw [hbl] at h1 h2
  refine ⟨rs, h1, h2, ?_⟩
  rw [h2] at h
  exact showsPoints_unique h (HoldsRecords.shows hl h1)

theorem new_resized {β : Type} [OwningBuffer β] [MakeBufferFromLayout β] [MakesRecords β] {l : PointLayout}
    (hl : Solid l) (n : Nat) :
    OwningBuffer.resize (MakeBufferFromLayout.newFromLayout l : β) n =
      HoldsRecords.ofRecords l (List.replicate n (List.replicate l.size 0)) := by
  rw [MakesRecords.new_eq, resize_records hl AllLen.nil]
  simp [resized]

end Pasture
