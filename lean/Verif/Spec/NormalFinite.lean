import Verif.Spec.Normals

/-!
# Specification: coordinates of moderate size
-/

namespace Pasture.Spec

open Normals

/-- A finite number of magnitude at most `2^k`. -/
def AtMostPow (k : Nat) (x : F64) : Prop := x.isFinite = true ∧ |value x| ≤ 2 ^ k

/-- All coordinates are finite and at most `2^40` in magnitude. -/
def Moderate (p : P3 F64) : Prop := AtMostPow 40 p.x ∧ AtMostPow 40 p.y ∧ AtMostPow 40 p.z

/-- Two points differ in a coordinate, by at least `2^-500`. -/
def Apart (p q : P3 F64) : Prop :=
  1 / 2 ^ 500 ≤ |value p.x - value q.x| ∨ 1 / 2 ^ 500 ≤ |value p.y - value q.y| ∨ 1 / 2 ^ 500 ≤ |value p.z - value q.z|

/-- What is assumed of `atan2`, `cos` and `sin`: finite arguments give finite results, up to 4 for angles and up to 1 for
    the others. -/
structure SaneTrig (trig : Trig F64) : Prop where
  atan2 : ∀ y x : F64, y.isFinite = true → x.isFinite = true → AtMostPow 2 (trig.atan2 y x)
  cos : ∀ x : F64, x.isFinite = true → AtMostPow 0 (trig.cos x)
  sin : ∀ x : F64, x.isFinite = true → AtMostPow 0 (trig.sin x)

/-- A vector of numbers between -2 and 2. -/
def ShortVector (n : P3 F64) : Prop := AtMostPow 1 n.x ∧ AtMostPow 1 n.y ∧ AtMostPow 1 n.z

/-- A normal and a curvature for a point with these neighbors: the curvature is finite and not negative, and the
    normal is finite if two of the neighbors are apart. -/
def GoodNormal (neighbors : List (P3 F64)) (r : P3 F64 × F64) : Prop :=
  r.2.isFinite = true ∧ r.2.neg = false ∧ ((∃ p ∈ neighbors, ∃ q ∈ neighbors, Apart p q) → ShortVector r.1)

end Pasture.Spec
