import Verif.Model.Views

/-! # Specification: stable sorting with a comparator -/

namespace Pasture.Spec

/-- A comparator that ranks values consistently (a total preorder), as `slice::sort_by` asks for. -/
structure Ranks {α : Type} (cmp : α → α → Ordering) : Prop where
  swap : ∀ a b, cmp a b = (cmp b a).swap
  trans : ∀ a b c, cmp a b ≠ .gt → cmp b c ≠ .gt → cmp a c ≠ .gt

/-- `ys` is `xs` stably sorted: in order, the same values with the same multiplicities, and values
    of equal rank in the order they had. -/
structure StablySorted {α : Type} (cmp : α → α → Ordering) (xs ys : List α) : Prop where
  sorted : ys.Pairwise fun a b => cmp a b ≠ .gt
  same : ys.Perm xs
  stable : ∀ p, ys.filter (fun x => cmp p x = .eq) = xs.filter (fun x => cmp p x = .eq)

end Pasture.Spec
