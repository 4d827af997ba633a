import Verif.Spec.RoundTrip

/-!
# Specification: conversions through a type or layout in between
-/

namespace Pasture.Spec

/-- All integers of type `p` are integers of type `q`. -/
def fitsInto (p q : Prim) : Bool := p.isInt && q.isInt && q.lo ≤ p.lo && p.hi ≤ q.hi

/-- A number of type `p` that is converted to `q` and then to `r` becomes the number it would become if it were
    converted to `r` at once: one of the steps is none, or the type in between is `f64` for an `f32`, or it is a float
    for small integers and the last type has room for them, or it is an integer type with room for them or one that is
    not smaller than the last type. -/
def straight (p q r : Prim) : Bool :=
  p = q || q = r || (p = .f32 && q = .f64) ||
    (p.isInt && match q with
      | .f32 => p.size ≤ 2 && (!r.isInt || fitsInto p r)
      | .f64 => p.size ≤ 4 && (!r.isInt || fitsInto p r)
      | q => fitsInto p q || (r.isInt && r.size ≤ q.size))

/-- The same for attributes: scalars with scalars, vectors with vectors. -/
def Straight (a b c : DataType) : Prop :=
  a = b ∨ b = c ∨
    (∃ p q r, scalarType a = some p ∧ scalarType b = some q ∧ scalarType c = some r ∧ straight p q r = true) ∨
    ∃ p q r, componentType a = some p ∧ componentType b = some q ∧ componentType c = some r ∧ straight p q r = true

/-- Every attribute that the first and the last layout share is in the layout in between, with a type that does not
    get in the way. -/
def OnTheWay (l₁ l₂ l₃ : PointLayout) : Prop :=
  ∀ m ∈ l₁.attributes, ∀ t ∈ l₃.attributes, t.name = m.name →
    ∃ n ∈ l₂.attributes, n.name = m.name ∧ Straight m.datatype n.datatype t.datatype

/-- No NaN is converted to another type and back. -/
def FreeOfDetours (l₁ l₂ l₃ : PointLayout) (p : Point) : Prop :=
  ∀ m ∈ l₁.attributes, ∀ n ∈ l₂.attributes, ∀ t ∈ l₃.attributes, n.name = m.name → t.name = m.name →
    n.datatype ≠ m.datatype → t.datatype = m.datatype → ∀ v, p.get m.definition = some v → FreeOfNaN m.datatype v

/-- A user converts a buffer to another layout, with zeros for attributes that the source does not have. -/
def atOnce {σ : Type} (τ : Type) [BorrowedBuffer σ] [AsMemory σ] [OwningBuffer τ] [AsMemoryMut τ] [MakeBufferFromLayout τ]
    (l₁ l₃ : PointLayout) (source : σ) : Out τ := do
  let converter ← BufferLayoutConverter.forLayoutsWithDefault l₁ l₃
  converter.convert τ source

/-- A user does so through a layout in between. -/
def inTwoSteps {σ : Type} (τ₁ τ₂ : Type) [BorrowedBuffer σ] [AsMemory σ] [OwningBuffer τ₁] [AsMemory τ₁] [AsMemoryMut τ₁]
    [MakeBufferFromLayout τ₁] [OwningBuffer τ₂] [AsMemoryMut τ₂] [MakeBufferFromLayout τ₂] (l₁ l₂ l₃ : PointLayout)
    (source : σ) : Out τ₂ := do
  let middle ← atOnce τ₁ l₁ l₂ source
  atOnce τ₂ l₂ l₃ middle

end Pasture.Spec
