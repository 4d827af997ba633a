import Verif.Model.Traits

/-!
# Specification: points without data

Layouts with no attributes, or with attributes of size zero only (`ByteArray(0)`). Their points take no memory, but there
can be any number of them.
-/

namespace Pasture.Spec

open BorrowedBuffer

/-- The points of the layout take no memory. -/
structure Weightless (l : PointLayout) : Prop where
  size : l.size = 0
  inside : ∀ m ∈ l.attributes, m.offset + m.size ≤ l.size

/-- The buffer has `n` points in the layout `l`, and all of them can be read. -/
structure HoldsPoints {β : Type} [BorrowedBuffer β] (b : β) (l : PointLayout) (n : Nat) : Prop where
  layout : layout b = l
  len : len b = n
  read : ∀ i < n, getPoint b i [] = .ok []

end Pasture.Spec
