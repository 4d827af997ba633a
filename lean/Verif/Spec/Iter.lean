import Verif.Model.Views

/-!
# Specification: iterators

What Rust's `Iterator` contract says about `next` and `nth`, in terms of the elements that are left.
-/

namespace Pasture.Spec

/-- The result of a call when `xs` are the elements left. -/
def Call.result {α : Type} (xs : List α) : IterCall → Option α
  | .next => xs.head?
  | .nth n => xs[n]?

/-- The elements left after the call. -/
def Call.rest {α : Type} (xs : List α) : IterCall → List α
  | .next => xs.tail
  | .nth n => xs.drop (n + 1)

/-- The results of a sequence of calls on an iterator over `xs`. -/
def results {α : Type} : List IterCall → List α → List (Option α)
  | [], _ => []
  | c :: cs, xs => Call.result xs c :: results cs (Call.rest xs c)

/-- No `nth(n)` of the sequence is called with more than the number of elements left. -/
def Within {α : Type} : List IterCall → List α → Prop
  | [], _ => True
  | c :: cs, xs => (∀ n, c = .nth n → n ≤ xs.length) ∧ Within cs (Call.rest xs c)

end Pasture.Spec
