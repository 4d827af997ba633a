import Verif.Spec.Observe

/-!
# Specification: reading what is there

`ShowsPoints` (Spec/Observe.lean) says what every read returns, and that reads outside the buffer panic. The latter is
not true of points, or attributes, that take no memory (`C14_zero_size_points_violated`). `ReadsPoints` is what is left
without it: every read of what the buffer holds gives what it holds, and attributes that are not in the layout cannot be
read.
-/

namespace Pasture.Spec

open BorrowedBuffer InterleavedBuffer

/-- Every read inside `b` gives the attribute values of the points `ps`. -/
structure ReadsPoints {β : Type} [BorrowedBuffer β] (b : β) (l : PointLayout) (ps : List Point) : Prop where
  len_eq : len b = ps.length
  layout_eq : layout b = l
  getPoint : ∀ i p data, ps[i]? = some p → data.length = l.size →
    ∃ r, getPoint b i data = .ok r ∧ r.length = l.size ∧ pointOf l r = p
  getPointRange : ∀ s e data, s ≤ e → e ≤ ps.length → data.length = (e - s) * l.size →
    ∃ r, getPointRange b ⟨s, e⟩ data = .ok r ∧ r.length = (e - s) * l.size ∧
      (recordsOf l.size (e - s) r).map (pointOf l) = (ps.drop s).take (e - s)
  getAttribute : ∀ d i v data, value? ps d i = some v → data.length = d.size → getAttribute b d i data = .ok v
  /-- The unchecked read is only called with members of the layout. -/
  getAttributeUnchecked : ∀ m i v data, m ∈ l.attributes → value? ps m.definition i = some v →
    data.length = m.size → getAttributeUnchecked b m i data = .ok v
  getAttributeRange : ∀ d s e v data, d ∈ l.attributes.map Member.definition → s ≤ e → values? ps d s e = some v →
    data.length = (e - s) * d.size → getAttributeRange b d ⟨s, e⟩ data = .ok v
  absent : ∀ d, d ∉ l.attributes.map Member.definition → ∀ i data, BorrowedBuffer.getAttribute b d i data = panicked

/-- Every read inside the interleaved buffer `b` gives the bytes of the records `rs`. -/
structure ReadsRecords {β : Type} [InterleavedBuffer β] (b : β) (l : PointLayout) (rs : List Bytes) : Prop where
  points : ReadsPoints b l (rs.map (pointOf l))
  getPoint : ∀ i r data, rs[i]? = some r → data.length = l.size → getPoint b i data = .ok r
  getPointRange : ∀ s e data, s ≤ e → e ≤ rs.length → data.length = (e - s) * l.size →
    getPointRange b ⟨s, e⟩ data = .ok ((rs.drop s).take (e - s)).flatten
  getPointRef : ∀ i r, rs[i]? = some r → getPointRef b i = .ok r
  getPointRangeRef : ∀ s e, s ≤ e → e ≤ rs.length →
    getPointRangeRef b ⟨s, e⟩ = .ok ((rs.drop s).take (e - s)).flatten

end Pasture.Spec
