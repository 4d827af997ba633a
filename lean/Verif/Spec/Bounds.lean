import Verif.Model.Bounds
import Verif.Spec.Convert

/-!
# Specification: boxes as sets of points, least and greatest values

Everything is said in terms of `<=` on coordinates (`Cmp.le`). `Ordered` states what is required of it:
on the values in question (all integers; all floats that are not NaN) it is a total preorder. For floats
it is not an order, because `0.0 <= -0.0 <= 0.0`; boxes are therefore compared as sets of points.
-/

namespace Pasture.Spec

/-- On the values that are `good`, `<=` is reflexive, transitive and total, and `a < b` means that
    `b <= a` does not hold. -/
structure Ordered (α : Type) [Cmp α] (good : α → Prop) : Prop where
  refl : ∀ a, good a → Cmp.le a a = true
  trans : ∀ a b c, good a → good b → good c → Cmp.le a b = true → Cmp.le b c = true → Cmp.le a c = true
  total : ∀ a b, good a → good b → Cmp.le a b = true ∨ Cmp.le b a = true
  lt_iff : ∀ a b, good a → good b → (Cmp.lt a b = true ↔ ¬ Cmp.le b a = true)

section
variable {α : Type}

/-- All three coordinates satisfy the predicate. -/
def Coords (good : α → Prop) (p : P3 α) : Prop := good p.x ∧ good p.y ∧ good p.z

/-- Both corners have good coordinates. -/
def GoodBox (good : α → Prop) (b : AABB α) : Prop := Coords good b.min ∧ Coords good b.max

variable [Cmp α]

/-- `p <= q` on all axes. -/
def Below (p q : P3 α) : Prop :=
  Cmp.le p.x q.x = true ∧ Cmp.le p.y q.y = true ∧ Cmp.le p.z q.z = true

/-- The point lies in the closed box. -/
def InBox (p : P3 α) (b : AABB α) : Prop := Below b.min p ∧ Below p b.max

/-- A box that has points: minimum and maximum are not swapped on any axis. -/
def Proper (b : AABB α) : Prop := Below b.min b.max

/-- Every point of the first box lies in the second. -/
def BoxWithin (good : α → Prop) (a b : AABB α) : Prop := ∀ p, Coords good p → InBox p a → InBox p b

/-- The boxes have the same points. -/
def SameBox (good : α → Prop) (a b : AABB α) : Prop := ∀ p, Coords good p → (InBox p a ↔ InBox p b)

/-- `b` contains all the points, and lies within every box that contains them all. -/
def Tightest (good : α → Prop) (b : AABB α) (ps : List (P3 α)) : Prop :=
  (∀ p ∈ ps, InBox p b) ∧
    ∀ c, GoodBox good c → (∀ p ∈ ps, InBox p c) → BoxWithin good b c

/-- `m` is the least of the values (one of them, and `<=` all of them). -/
def Least (m : α) (xs : List α) : Prop := m ∈ xs ∧ ∀ x ∈ xs, Cmp.le m x = true

/-- `m` is the greatest of the values. -/
def Greatest (m : α) (xs : List α) : Prop := m ∈ xs ∧ ∀ x ∈ xs, Cmp.le x m = true

end

/-- A float that is not NaN. -/
def NotNaN {F : FloatFormat} (x : Flt F) : Prop := x.isNaN = false

/-- `<=` on numbers: integers with integers, floats with floats of the same type. -/
instance : Cmp Num where
  lt := Num.lt
  le
    | .int a, .int b => decide (a ≤ b)
    | .single a, .single b => Flt.le a b
    | .double a, .double b => Flt.le a b
    | _, _ => false

/-- A number of type `p` that is not NaN. -/
def Ordinary (p : Prim) : Num → Prop
  | .int _ => p.isInt = true
  | .single x => p = .f32 ∧ NotNaN x
  | .double x => p = .f64 ∧ NotNaN x

/-- The type of the components of a number or vector attribute. -/
def numberType (t : DataType) : Option Prim := (scalarType t).or (componentType t)

/-- The numbers an attribute value consists of. -/
def numbersOf (t : DataType) (v : Bytes) : List Num :=
  match scalarType t, componentType t with
  | some p, _ => [readNum p v]
  | none, some p =>
    [readNum p (window v 0 p.size), readNum p (window v p.size p.size), readNum p (window v (2 * p.size) p.size)]
  | none, none => []

/-- The position with the given bytes: three little-endian `f64`. -/
def positionOf (v : Bytes) : P3 F64 :=
  ⟨.ofBits .f64 (leNat (window v 0 8)), .ofBits .f64 (leNat (window v 8 8)),
   .ofBits .f64 (leNat (window v 16 8))⟩

end Pasture.Spec
