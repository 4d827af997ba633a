import Verif.Lemmas.FloatExact

/-!
# The arithmetic of the float model is IEEE 754 arithmetic

Each operation on finite floats gives the correctly rounded result, and comparisons compare values.
-/

namespace Pasture

open Spec

namespace Flt

variable {F : FloatFormat}

theorem finite_cases {x : Flt F} (hx : x.isFinite = true) : x.isNaN = false ∧ x.isInf = false := by
  have hx' := of_decide_eq_true hx
  exact ⟨decide_eq_false (by omega), decide_eq_false (by omega)⟩

theorem negate_finite {x : Flt F} (hx : x.isFinite = true) : (negate x).isFinite = true := hx

theorem value_negate (x : Flt F) : value (negate x) = -value x := by
  unfold value negate
  generalize (if x.mag / 2 ^ F.mantBits = 0 then _ else _ : ℚ) = v
  cases x.neg <;> simp

theorem add_rounds (hF : Usable F) (x y : Flt F) (hx : x.isFinite = true) (hy : y.isFinite = true) :
    RoundsTo (value x + value y) (add x y) := by
  obtain ⟨a1, a2⟩ := finite_cases hx
  obtain ⟨b1, b2⟩ := finite_cases hy
  have : add x y = ofUnits F (x.sunits + y.sunits) 1 (x.neg && y.neg) := by
    unfold add; rw [a1, a2, b1, b2]; rfl
  rw [this]
  have h := ofUnits_rounds hF (x.sunits + y.sunits) (den := 1) (by omega) (x.neg && y.neg)
  rw [value_eq hF, value_eq hF, ← add_div]
  push_cast at h
  rwa [one_mul] at h

theorem sub_rounds (hF : Usable F) (x y : Flt F) (hx : x.isFinite = true) (hy : y.isFinite = true) :
    RoundsTo (value x - value y) (sub x y) := by
  have := add_rounds hF x (negate y) hx (negate_finite hy)
  rwa [value_negate, ← sub_eq_add_neg] at this

theorem mul_rounds (hF : Usable F) (x y : Flt F) (hx : x.isFinite = true) (hy : y.isFinite = true) :
    RoundsTo (value x * value y) (mul x y) := by
  obtain ⟨a1, a2⟩ := finite_cases hx
  obtain ⟨b1, b2⟩ := finite_cases hy
  have : mul x y = ofUnits F (x.sunits * y.sunits) F.one (x.neg != y.neg) := by
    unfold mul; rw [a1, a2, b1, b2]; rfl
  rw [this]
  have h := ofUnits_rounds hF (x.sunits * y.sunits) (den := F.one) F.one_pos (x.neg != y.neg)
  rw [value_eq hF, value_eq hF, div_mul_div_comm]
  push_cast at h
  exact h

theorem div_rounds (hF : Usable F) (x y : Flt F) (hx : x.isFinite = true) (hy : y.isFinite = true)
    (h0 : value y ≠ 0) : RoundsTo (value x / value y) (div x y) := by
  obtain ⟨a1, a2⟩ := finite_cases hx
  obtain ⟨b1, b2⟩ := finite_cases hy
  have hm : y.mag ≠ 0 := by
    intro h
    apply h0
    rw [value_eq hF]
    unfold sunits
    rw [h, F.units_zero]
    simp
  have : div x y = ofUnits F ((if y.neg then -1 else 1) * x.sunits * F.one) (F.units y.mag) (x.neg != y.neg) := by
    unfold div; rw [a1, a2, b1, b2]; simp only [Bool.false_eq_true, or_self, if_false, if_neg hm]
  rw [this]
  have hu := F.units_pos (Nat.pos_of_ne_zero hm)
  have h := ofUnits_rounds hF ((if y.neg then -1 else 1) * x.sunits * F.one) (den := F.units y.mag) hu (x.neg != y.neg)
  have hq : value x / value y = (((if y.neg then -1 else 1) * x.sunits * F.one : Int) : ℚ) / ((F.units y.mag : ℚ) * F.one) := by
    rw [value_eq hF, value_eq hF]
    have a1 : (F.one : ℚ) ≠ 0 := by have := F.one_pos; positivity
    have a2 : (F.units y.mag : ℚ) ≠ 0 := by positivity
    unfold sunits
    cases y.neg <;> simp only [if_true, Bool.false_eq_true, if_false] <;> push_cast <;> field_simp
  rw [hq]
  exact h

/-- The order of finite floats is the order of their values. -/
theorem rank_lt (hF : Usable F) (x y : Flt F) : x.rank < y.rank ↔ value x < value y := by
  have hone : (0 : ℚ) < F.one := by exact_mod_cast F.one_pos
  rw [value_eq hF, value_eq hF, div_lt_div_iff_of_pos_right hone]
  have hmono := F.units_strictMono
  have h : x.rank < y.rank ↔ x.sunits < y.sunits := by
    unfold rank sunits
    have hxy := hmono.lt_iff_lt (a := x.mag) (b := y.mag)
    have hyx := hmono.lt_iff_lt (a := y.mag) (b := x.mag)
    have hx0 : F.units x.mag = 0 ↔ x.mag = 0 := by
      have := hmono.injective.eq_iff (a := x.mag) (b := 0)
      rwa [FloatFormat.units_zero] at this
    have hy0 : F.units y.mag = 0 ↔ y.mag = 0 := by
      have := hmono.injective.eq_iff (a := y.mag) (b := 0)
      rwa [FloatFormat.units_zero] at this
    cases x.neg <;> cases y.neg <;> simp only [if_true, Bool.false_eq_true, if_false] <;> omega
  rw [h]
  exact_mod_cast Iff.rfl

theorem lt_iff (hF : Usable F) (x y : Flt F) (hx : x.isFinite = true) (hy : y.isFinite = true) :
    lt x y = true ↔ value x < value y := by
  unfold lt
  rw [(finite_cases hx).1, (finite_cases hy).1, ← rank_lt hF]
  simp

theorem le_iff (hF : Usable F) (x y : Flt F) (hx : x.isFinite = true) (hy : y.isFinite = true) :
    le x y = true ↔ value x ≤ value y := by
  unfold le
  rw [(finite_cases hx).1, (finite_cases hy).1, ← not_lt (a := value y), ← rank_lt hF]
  simp

end Flt

end Pasture
