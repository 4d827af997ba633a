import Verif.Spec.ConvertObserve
import Verif.Spec.Numbers

/-!
# Specification: conversions that can be undone
-/

namespace Pasture.Spec

/-- A number of type `p` is not changed by a conversion to `q` and back: integers fit into integers of at least the same
    size (the sign does not matter, since both conversions work on the bits), small integers into floats, and `f32` into
    `f64`. -/
def keeps (p q : Prim) : Bool :=
  p = q || match p, q with
    | .f32, .f64 => true
    | .f32, _ => false
    | .f64, _ => false
    | p, .f32 => p.size ≤ 2
    | p, .f64 => p.size ≤ 4
    | p, q => p.size ≤ q.size

/-- The same for attributes: scalars with scalars, vectors with vectors. -/
def Keeps (a b : DataType) : Prop :=
  a = b ∨ (∃ p q, scalarType a = some p ∧ scalarType b = some q ∧ keeps p q = true) ∨
    ∃ p q, componentType a = some p ∧ componentType b = some q ∧ keeps p q = true

/-- `lt` has all attributes of `ls`, possibly in other places and among others, with types that keep their values. -/
def Roomier (ls lt : PointLayout) : Prop :=
  ∀ m ∈ ls.attributes, ∃ t ∈ lt.attributes, t.name = m.name ∧ Keeps m.datatype t.datatype

/-- No `f32` in the value is a NaN. -/
def FreeOfNaN (a : DataType) (v : Bytes) : Prop :=
  (scalarType a = some .f32 → ∀ x, HoldsF32 v x → x.isNaN = false) ∧
    (componentType a = some .f32 → ∀ i < 3, ∀ x, HoldsF32 (window v (i * 4) 4) x → x.isNaN = false)

/-- No value of the point whose type is changed contains a NaN. -/
def FreeOfNaNs (ls lt : PointLayout) (p : Point) : Prop :=
  ∀ m ∈ ls.attributes, ∀ t ∈ lt.attributes, t.name = m.name → t.datatype ≠ m.datatype →
    ∀ v, p.get m.definition = some v → FreeOfNaN m.datatype v

/-- A user converts a buffer to another layout, with zeros for attributes that the source does not have, and the result
    back to the first layout. -/
def thereAndBack {σ : Type} (τ₁ τ₂ : Type) [BorrowedBuffer σ] [AsMemory σ] [OwningBuffer τ₁] [AsMemory τ₁] [AsMemoryMut τ₁]
    [MakeBufferFromLayout τ₁] [OwningBuffer τ₂] [AsMemoryMut τ₂] [MakeBufferFromLayout τ₂] (ls lt : PointLayout)
    (source : σ) : Out τ₂ := do
  let there ← BufferLayoutConverter.forLayoutsWithDefault ls lt
  let middle ← there.convert τ₁ source
  let back ← BufferLayoutConverter.forLayouts lt ls
  back.convert τ₂ middle

end Pasture.Spec
