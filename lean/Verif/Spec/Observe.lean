import Verif.Model.Traits
import Verif.Spec.Points

/-!
# Specification: what reading a buffer shows

The answer of every read of the buffer API, given the records or points the buffer stands for. A
missing answer (index out of range, attribute not in the layout) is a panic. Callers pass output
slices of the right length and ranges that are not empty.
-/

namespace Pasture.Spec

open BorrowedBuffer InterleavedBuffer ColumnarBuffer

/-- The value, or a panic. -/
def answer {α : Type} : Option α → Out α
  | some a => .ok a
  | none => .error .panic

/-- The elements `a..b`, if that range is inside the list. -/
def range? {α : Type} (xs : List α) (a b : Nat) : Option (List α) :=
  if b ≤ xs.length then some ((xs.drop a).take (b - a)) else none

/-- Value of attribute `d` of point `i`. -/
def value? (ps : List Point) (d : AttrDef) (i : Nat) : Option Bytes := do
  let p ← ps[i]?
  p.get d

/-- Values of attribute `d` of the points `a..b`, one after the other. -/
def values? (ps : List Point) (d : AttrDef) (a b : Nat) : Option Bytes := do
  let ps ← range? ps a b
  let vs ← ps.mapM fun p => p.get d
  pure vs.flatten

/-- Every read of `b` gives the attribute values of the points `ps`. -/
structure ShowsPoints {β : Type} [BorrowedBuffer β] (b : β) (l : PointLayout) (ps : List Point) :
    Prop where
  len_eq : len b = ps.length
  layout_eq : layout b = l
  /-- The bytes returned for a point describe it; bytes between attributes are unspecified. -/
  getPoint_ok : ∀ i p data, ps[i]? = some p → data.length = l.size →
    ∃ r, getPoint b i data = .ok r ∧ r.length = l.size ∧ pointOf l r = p
  getPoint_panic : ∀ i data, ps.length ≤ i → data.length = l.size → getPoint b i data = .error .panic
  getPointRange_ok : ∀ s e data, s ≤ e → e ≤ ps.length → data.length = (e - s) * l.size →
    ∃ r, getPointRange b ⟨s, e⟩ data = .ok r ∧ r.length = (e - s) * l.size ∧
      (recordsOf l.size (e - s) r).map (pointOf l) = (ps.drop s).take (e - s)
  getPointRange_panic : ∀ s e data, s < e → ps.length < e → data.length = (e - s) * l.size →
    getPointRange b ⟨s, e⟩ data = .error .panic
  getAttribute_eq : ∀ d i data, data.length = d.size →
    getAttribute b d i data = answer (value? ps d i)
  /-- The unchecked read is only called with members of the layout. -/
  getAttributeUnchecked_eq : ∀ m i data, m ∈ l.attributes → data.length = m.size →
    getAttributeUnchecked b m i data = answer (value? ps m.definition i)
  getAttributeRange_eq : ∀ d s e data, s < e → data.length = (e - s) * d.size →
    getAttributeRange b d ⟨s, e⟩ data = answer (values? ps d s e)

/-- Every read of the interleaved buffer `b` gives the bytes of the records `rs`. -/
structure ShowsRecords {β : Type} [InterleavedBuffer β] (b : β) (l : PointLayout) (rs : List Bytes) :
    Prop where
  points : ShowsPoints b l (rs.map (pointOf l))
  getPoint_eq : ∀ i data, data.length = l.size → getPoint b i data = answer rs[i]?
  getPointRange_eq : ∀ s e data, s < e → data.length = (e - s) * l.size →
    getPointRange b ⟨s, e⟩ data = answer ((range? rs s e).map List.flatten)
  getPointRef_eq : ∀ i, getPointRef b i = answer rs[i]?
  getPointRangeRef_eq : ∀ s e, s < e ∨ s = e ∧ e ≤ rs.length →
    getPointRangeRef b ⟨s, e⟩ = answer ((range? rs s e).map List.flatten)

/-- Every read of the columnar buffer `b` gives the attribute values of the points `ps`. -/
structure ShowsColumns {β : Type} [ColumnarBuffer β] (b : β) (l : PointLayout) (ps : List Point) :
    Prop where
  points : ShowsPoints b l ps
  getAttributeRef_eq : ∀ d i, getAttributeRef b d i = answer (value? ps d i)
  getAttributeRangeRef_eq : ∀ d s e,
    s < e ∨ s = e ∧ e ≤ ps.length ∧ d ∈ l.attributes.map Member.definition →
    getAttributeRangeRef b d ⟨s, e⟩ = answer (values? ps d s e)

end Pasture.Spec
