import Verif.Lemmas.FloatOps
import Verif.Lemmas.FloatExact

/-!
# Lemmas: how far rounding moves a number
-/

namespace Pasture

open Spec

variable {F : FloatFormat}

/-- The error of rounding is at most half a step: relative to the number, or half a unit. -/
theorem roundFree_error {num den : Nat} (hd : 0 < den) :
    2 ^ (F.mantBits + 1) * |(num : Int) - F.units (roundFree F num den) * den| ≤ num ∨
    2 * |(num : Int) - F.units (roundFree F num den) * den| ≤ den := by
  obtain ⟨e, m, he, hm, h1, h2⟩ := round_floor (F := F) (num := num) (den := den)
  unfold roundFree
  rw [he]
  have hs : 0 < den * 2 ^ e := Nat.mul_pos hd (Nat.two_pow_pos _)
  have hdm := Nat.div_add_mod num (den * 2 ^ e)
  have hlt := Nat.mod_lt num hs
  have hr := roundDiv_cases (a := num) (b := den * 2 ^ e)
  rw [hm] at hr hdm
  have hmS : e = 0 ∨ 2 ^ F.mantBits * (den * 2 ^ e) ≤ num := by
    rcases h1 with h1 | h1
    · exact .inl h1
    · right
      calc 2 ^ F.mantBits * (den * 2 ^ e) ≤ m * (den * 2 ^ e) := Nat.mul_le_mul_right _ h1
        _ ≤ num := by rw [Nat.mul_comm]; omega
  generalize num % (den * 2 ^ e) = r at *
  have hu0 : F.units (e * 2 ^ F.mantBits + m) = m * 2 ^ e := F.units_enc h1 (by omega)
  have hu1 : F.units (e * 2 ^ F.mantBits + (m + 1)) = (m + 1) * 2 ^ e := F.units_enc (by omega) (by omega)
  have key0 : ((m * 2 ^ e : Nat) : Int) * den = (num : Int) - r := by
    have : (num : Int) = (den * 2 ^ e : Nat) * m + r := by rw [← hdm]; push_cast; ring
    rw [this]; push_cast; ring
  have key1 : (((m + 1) * 2 ^ e : Nat) : Int) * den = (num : Int) - r + (den * 2 ^ e : Nat) := by
    have : (((m + 1) * 2 ^ e : Nat) : Int) * den = ((m * 2 ^ e : Nat) : Int) * den + (den * 2 ^ e : Nat) := by
      push_cast; ring
    rw [this, key0]
  have herr : 2 * |(num : Int) - F.units (e * 2 ^ F.mantBits + roundDiv num (den * 2 ^ e)) * den| ≤
      (den * 2 ^ e : Nat) := by
    rcases hr with ⟨hr, ha, hb⟩ | ⟨hr, ha, hb⟩
    · rw [hr, hu0, key0, show (num : Int) - (num - r) = r by ring, abs_of_nonneg (by omega)]
      omega
    · rw [hr, hu1, key1, show (num : Int) - (num - r + (den * 2 ^ e : Nat)) = -((den * 2 ^ e : Nat) - r : Int) by ring,
        abs_neg, abs_of_nonneg (by omega)]
      omega
  rcases hmS with h | h
  · right
    subst h
    simpa using herr
  · left
    calc 2 ^ (F.mantBits + 1) * |(num : Int) - F.units (e * 2 ^ F.mantBits + roundDiv num (den * 2 ^ e)) * den|
        = 2 ^ F.mantBits * (2 * |(num : Int) - F.units (e * 2 ^ F.mantBits + roundDiv num (den * 2 ^ e)) * den|) := by
          rw [pow_succ]; ring
      _ ≤ 2 ^ F.mantBits * (den * 2 ^ e : Nat) := mul_le_mul_of_nonneg_left herr (by positivity)
      _ ≤ num := by exact_mod_cast h

theorem ofUnits_error (hF : Usable F) (num : Int) {den : Nat} (hd : 0 < den) (z : Bool)
    (hfin : (Flt.ofUnits F num den z).isFinite = true) :
    2 ^ (F.mantBits + 1) * |(num : ℚ) / (den * F.one) - value (Flt.ofUnits F num den z)| ≤
      |(num : ℚ) / (den * F.one)| ∨
    2 * |(num : ℚ) / (den * F.one) - value (Flt.ofUnits F num den z)| ≤ 1 / F.one := by
  have hone : (0 : ℚ) < F.one := by exact_mod_cast F.one_pos
  have hden : (0 : ℚ) < den := by exact_mod_cast hd
  have hprod : (0 : ℚ) < den * F.one := by positivity
  have hmag : (Flt.ofUnits F num den z).mag = roundMag F num.natAbs den := rfl
  have hm : roundMag F num.natAbs den = roundFree F num.natAbs den := by
    unfold Flt.isFinite at hfin
    rw [decide_eq_true_eq, hmag, roundMag_eq] at hfin
    rw [roundMag_eq]
    omega
  have hdist : |(num : ℚ) / (den * F.one) - value (Flt.ofUnits F num den z)| =
      ((|(num.natAbs : Int) - F.units (roundFree F num.natAbs den) * den| : Int) : ℚ) / (den * F.one) := by
    rw [value_eq hF]
    have : (num : ℚ) / (den * F.one) - (Flt.ofUnits F num den z).sunits / F.one =
        ((num - (Flt.ofUnits F num den z).sunits * den : Int) : ℚ) / (den * F.one) := by
      push_cast; field_simp
    rw [this, abs_div, abs_of_pos hprod, ofUnits_sunits hF _ hd, hm]
    congr 1
    rw [← Int.cast_abs]
    congr 1
    by_cases hn : num < 0
    · rw [if_pos hn]
      rw [show num - -1 * (F.units (roundFree F num.natAbs den) : Int) * den =
        -((num.natAbs : Int) - F.units (roundFree F num.natAbs den) * den) by
          rw [show (num.natAbs : Int) = -num by omega]; ring, abs_neg]
    · rw [if_neg hn, show (num.natAbs : Int) = num by omega, one_mul]
  rw [hdist, abs_div, abs_of_pos hprod]
  have habs : |(num : ℚ)| = ((num.natAbs : Int) : ℚ) := by rw [Int.natCast_natAbs]; push_cast; rfl
  rw [habs]
  rcases roundFree_error (F := F) (num := num.natAbs) hd with h | h
  · left
    rw [← mul_div_assoc]
    apply div_le_div_of_nonneg_right _ hprod.le
    exact_mod_cast h
  · right
    rw [← mul_div_assoc, div_le_div_iff₀ hprod hone]
    have : ((2 * |(num.natAbs : Int) - F.units (roundFree F num.natAbs den) * den| : Int) : ℚ) ≤ den := by
      exact_mod_cast h
    push_cast at this ⊢
    nlinarith

/-- A correctly rounded result is within half a step of the exact result. -/
theorem rounds_error (hF : Usable F) {q : ℚ} {y : Flt F} (h : RoundsTo q y) (hy : y.isFinite = true) :
    |q - value y| ≤ |q| / 2 ^ (F.mantBits + 1) ∨ |q - value y| ≤ 1 / (2 * F.one) := by
  have hone : (0 : ℚ) < F.one := by exact_mod_cast F.one_pos
  obtain ⟨a, b, hb, hab⟩ : ∃ (a : Int) (b : Nat), 0 < b ∧ q = (a : ℚ) / (b * F.one) := by
    refine ⟨(q * F.one).num, (q * F.one).den, (q * F.one).den_pos, ?_⟩
    have := Rat.num_div_den (q * F.one)
    rw [div_mul_eq_div_div, this]
    field_simp
  have hz := ofUnits_rounds hF a hb false
  rw [← hab] at hz
  have hzf : (Flt.ofUnits F a b false).isFinite = true := by
    have h1 : (Flt.ofUnits F a b false).isInf = false := by
      rw [Bool.eq_false_iff, ne_eq, hz.overflow, ← h.overflow]
      simp [(Flt.finite_cases hy).2]
    have h2 := hz.not_nan
    unfold Flt.isInf at h1
    unfold Flt.isNaN at h2
    unfold Flt.isFinite
    simp only [decide_eq_false_iff_not, decide_eq_true_eq] at *
    omega
  have hn := h.nearest hy _ hzf
  have he := ofUnits_error hF a hb false hzf
  rw [← hab] at he
  rcases he with he | he
  · left
    rw [le_div_iff₀ (by positivity)]
    have : (0 : ℚ) < 2 ^ (F.mantBits + 1) := by positivity
    nlinarith
  · right
    rw [le_div_iff₀ (by positivity)]
    rw [le_div_iff₀ hone] at he
    nlinarith

/-- Rounding a number that is a float gives that number. -/
theorem rounds_exact {q : ℚ} {y z : Flt F} (h : RoundsTo q y) (hy : y.isFinite = true)
    (hz : z.isFinite = true) (hq : value z = q) : value y = q := by
  have := h.nearest hy z hz
  rw [hq, sub_self, abs_zero] at this
  have := abs_nonpos_iff.1 this
  linarith

/-- If the exact result is a whole number of units, the error is relative to it. -/
theorem rounds_error_units (hF : Usable F) {q : ℚ} {y : Flt F} (h : RoundsTo q y) (hy : y.isFinite = true)
    {k : Int} (hk : q = k / F.one) : |q - value y| ≤ |q| / 2 ^ (F.mantBits + 1) := by
  have hone : (0 : ℚ) < F.one := by exact_mod_cast F.one_pos
  rcases rounds_error hF h hy with h | h
  · exact h
  · have h0 : k - y.sunits = 0 := by
      rw [hk, value_eq hF, ← sub_div, abs_div, abs_of_pos hone, div_le_div_iff₀ hone (by positivity)] at h
      have h1 : ((|k - y.sunits| : Int) : ℚ) * 2 ≤ 1 := by
        push_cast
        nlinarith
      have h2 : |k - y.sunits| * 2 ≤ 1 := by exact_mod_cast h1
      have h3 := abs_nonneg (k - y.sunits)
      exact abs_eq_zero.1 (by omega)
    have : q - value y = 0 := by
      rw [hk, value_eq hF, ← sub_div]
      have : (k : ℚ) - y.sunits = 0 := by exact_mod_cast h0
      rw [this, zero_div]
    rw [this, abs_zero]
    positivity

end Pasture
