import Verif.Spec.Bounds

/-!
# Specification: equal boxes, equal ranges and equal answers

Two boxes or ranges are equal if their corners or ends are equal numbers; as floats, `0.0` and `-0.0` are
equal and NaN is not equal to anything.
-/

namespace Pasture.Spec

/-- The points have equal coordinates, as `==` compares them. -/
def SamePlace (p q : P3 F64) : Prop :=
  Flt.feq p.x q.x = true ∧ Flt.feq p.y q.y = true ∧ Flt.feq p.z q.z = true

/-- The boxes have equal corners. -/
def SameCorners (a b : AABB F64) : Prop := SamePlace a.min b.min ∧ SamePlace a.max b.max

/-- Each number is equal to the one at the same place in the other list. -/
def SameNumbers (xs ys : List Num) : Prop :=
  List.Forall₂ (fun x y => Cmp.le x y = true ∧ Cmp.le y x = true) xs ys

/-- Both calls panic, both return `None`, or both return something and the two results are alike. -/
def SameAnswer {α : Type} (alike : α → α → Prop) : Out (Option α) → Out (Option α) → Prop
  | .error e, .error e' => e = e'
  | .ok none, .ok none => True
  | .ok (some x), .ok (some y) => alike x y
  | _, _ => False

end Pasture.Spec
