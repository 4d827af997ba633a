import Verif.Spec.Float
import Verif.Lemmas.Float
import Mathlib.Tactic.FieldSimp
import Mathlib.Tactic.Positivity
import Mathlib.Tactic.LinearCombination

/-! # The value of a float, and rounding as a statement about values -/

namespace Pasture

open Spec

variable {F : FloatFormat}

theorem one_eq (hF : Usable F) : (F.one : ℚ) = (2 : ℚ) ^ (bias F + F.mantBits - 1) := by
  unfold FloatFormat.one bias
  have h2 : 2 ≤ 2 ^ (F.expBits - 1) := by
    calc 2 = 2 ^ 1 := rfl
      _ ≤ 2 ^ (F.expBits - 1) := Nat.pow_le_pow_right (by omega) (by have := hF.2.1; omega)
  have e : (2 ^ (F.expBits - 1) - 1 + (F.mantBits : Int) - 1) = ((2 ^ (F.expBits - 1) - 2 + F.mantBits : Nat) : Int) := by
    push_cast [h2]; ring
  rw [e, zpow_natCast]
  push_cast
  rfl

theorem value_eq (hF : Usable F) (x : Flt F) : value x = x.sunits / F.one := by
  have h1 : (F.one : ℚ) ≠ 0 := by have := F.one_pos; positivity
  have key : (if x.mag / 2 ^ F.mantBits = 0 then
      (x.mag % 2 ^ F.mantBits : ℕ) * (2 : ℚ) ^ (1 - bias F - F.mantBits)
    else
      (2 ^ F.mantBits + (x.mag % 2 ^ F.mantBits : ℕ)) *
        (2 : ℚ) ^ ((x.mag / 2 ^ F.mantBits : ℕ) - bias F - F.mantBits)) = F.units x.mag / F.one := by
    rw [eq_div_iff h1, one_eq hF]
    unfold FloatFormat.units
    by_cases h : x.mag / 2 ^ F.mantBits = 0
    · rw [if_pos h, if_pos h, mul_assoc, ← zpow_add₀ (by norm_num),
        show (1 - bias F - F.mantBits + (bias F + F.mantBits - 1) : Int) = 0 by ring, zpow_zero, mul_one]
    · rw [if_neg h, if_neg h, mul_assoc, ← zpow_add₀ (by norm_num)]
      have : ((x.mag / 2 ^ F.mantBits : ℕ) - bias F - F.mantBits + (bias F + F.mantBits - 1) : Int) =
          ((x.mag / 2 ^ F.mantBits - 1 : ℕ) : Int) := by
        generalize x.mag / 2 ^ F.mantBits = n at *
        have : 1 ≤ n := by omega
        push_cast [this]
        ring
      rw [this, zpow_natCast]
      push_cast
      ring
  unfold value Flt.sunits
  rw [key]
  by_cases hn : x.neg
  · simp only [hn, if_true]; push_cast; ring
  · simp only [hn, if_false, Bool.false_eq_true]; push_cast; ring

/-- Values are ordered like the magnitudes. -/
theorem value_abs (hF : Usable F) (x : Flt F) : |value x| = F.units x.mag / F.one := by
  rw [value_eq hF]
  have : (0 : ℚ) < F.one := by exact_mod_cast F.one_pos
  rw [abs_div, abs_of_pos this]
  congr 1
  unfold Flt.sunits
  split <;> simp

theorem infMag_enc (hF : Usable F) : F.infMag = (2 ^ F.expBits - 2) * 2 ^ F.mantBits + 2 ^ F.mantBits := by
  unfold FloatFormat.infMag
  have h2 : 4 ≤ 2 ^ F.expBits := by
    calc 4 = 2 ^ 2 := rfl
      _ ≤ 2 ^ F.expBits := Nat.pow_le_pow_right (by omega) hF.2.1
  obtain ⟨q, hq⟩ : ∃ q, 2 ^ F.expBits = q + 2 := ⟨2 ^ F.expBits - 2, by omega⟩
  rw [hq]
  simp only [Nat.add_sub_cancel, show q + 2 - 1 = q + 1 by omega]
  ring

/-- Units of the first magnitude that is too large, and of the largest finite one. -/
theorem units_inf (hF : Usable F) : F.units F.infMag = 2 ^ F.mantBits * 2 ^ (2 ^ F.expBits - 2) ∧
    F.units (F.infMag - 1) = (2 ^ (F.mantBits + 1) - 1) * 2 ^ (2 ^ F.expBits - 3) := by
  have h2 : 4 ≤ 2 ^ F.expBits := by
    calc 4 = 2 ^ 2 := rfl
      _ ≤ 2 ^ F.expBits := Nat.pow_le_pow_right (by omega) hF.2.1
  have hp : 0 < 2 ^ F.mantBits := Nat.two_pow_pos _
  have hs : 2 ^ (F.mantBits + 1) = 2 * 2 ^ F.mantBits := by rw [Nat.pow_succ]; ring
  rw [infMag_enc hF]
  constructor
  · exact F.units_enc (by omega) (by omega)
  · have : (2 ^ F.expBits - 2) * 2 ^ F.mantBits + 2 ^ F.mantBits - 1 =
        (2 ^ F.expBits - 3) * 2 ^ F.mantBits + (2 ^ (F.mantBits + 1) - 1) := by
      obtain ⟨q, hq⟩ : ∃ q, 2 ^ F.expBits = q + 3 := ⟨2 ^ F.expBits - 3, by omega⟩
      rw [hq, hs, show q + 3 - 2 = q + 1 by omega, show q + 3 - 3 = q by omega, Nat.add_mul]
      omega
    rw [this]
    exact F.units_enc (by omega) (by omega)

theorem threshold_units (hF : Usable F) :
    2 * (overflowThreshold F * F.one) = (F.units (F.infMag - 1) : ℚ) + F.units F.infMag := by
  obtain ⟨h1, h2⟩ := units_inf hF
  have h4 : 4 ≤ 2 ^ F.expBits := by
    calc 4 = 2 ^ 2 := rfl
      _ ≤ 2 ^ F.expBits := Nat.pow_le_pow_right (by omega) hF.2.1
  have hp : 1 ≤ 2 ^ (F.mantBits + 1) := Nat.one_le_two_pow
  rw [h1, h2, one_eq hF]
  unfold overflowThreshold
  have hb : bias F + bias F = ((2 ^ F.expBits - 2 : ℕ) : Int) := by
    unfold bias
    obtain ⟨q, hq⟩ : ∃ q, F.expBits = q + 1 := ⟨F.expBits - 1, by have := hF.2.1; omega⟩
    push_cast [show 2 ≤ 2 ^ F.expBits by omega]
    rw [hq, Nat.add_sub_cancel, pow_succ]
    ring
  have e1 : (2 : ℚ) ^ bias F * (2 : ℚ) ^ (bias F + F.mantBits - 1) =
      (2 : ℚ) ^ (2 ^ F.expBits - 2 : ℕ) * 2 ^ F.mantBits / 2 := by
    rw [← zpow_add₀ (by norm_num)]
    have : bias F + (bias F + F.mantBits - 1) = ((2 ^ F.expBits - 2 : ℕ) : Int) + F.mantBits - 1 := by
      rw [← hb]; ring
    rw [this, zpow_sub₀ (by norm_num), zpow_add₀ (by norm_num), zpow_natCast, zpow_natCast, zpow_one]
  have e2 : (2 : ℚ) ^ (-(F.mantBits : Int) - 1) * 2 ^ F.mantBits = 1 / 2 := by
    rw [zpow_sub₀ (by norm_num), zpow_neg, zpow_natCast, zpow_one]
    have : (2 : ℚ) ^ F.mantBits ≠ 0 := by positivity
    field_simp
  have e3 : (2 : ℚ) ^ (2 ^ F.expBits - 2 : ℕ) = 2 * 2 ^ (2 ^ F.expBits - 3 : ℕ) := by
    rw [show 2 ^ F.expBits - 2 = (2 ^ F.expBits - 3) + 1 by omega, pow_succ]; ring
  push_cast [hp]
  rw [mul_assoc, e1, e3, pow_succ]
  generalize (2 : ℚ) ^ (2 ^ F.expBits - 3 : ℕ) = A at *
  generalize (2 : ℚ) ^ F.mantBits = B at *
  generalize (2 : ℚ) ^ (-(F.mantBits : Int) - 1) = C at *
  have : C * B * A = A / 2 := by rw [e2]; ring
  linear_combination (-2 : ℚ) * this

theorem infMag_even (hF : Usable F) : F.infMag % 2 = 0 := by
  unfold FloatFormat.infMag
  obtain ⟨q, hq⟩ : ∃ q, F.mantBits = q + 1 := ⟨F.mantBits - 1, by have := hF.1; omega⟩
  rw [hq, pow_succ, ← Nat.mul_assoc]
  omega

theorem infMag_pos (hF : Usable F) : 1 < F.infMag := by
  rw [infMag_enc hF]
  have h2 : 2 ≤ 2 ^ F.mantBits := by
    calc 2 = 2 ^ 1 := rfl
      _ ≤ 2 ^ F.mantBits := Nat.pow_le_pow_right (by omega) hF.1
  omega

theorem roundFree_ge {num den k : Nat} (hd : 0 < den) (hF : 1 ≤ F.mantBits) :
    (k + 1 ≤ roundFree F num den → ((F.units k : Int) + F.units (k + 1)) * den ≤ 2 * num) ∧
    (((F.units k : Int) + F.units (k + 1)) * den < 2 * num → k + 1 ≤ roundFree F num den) := by
  have hdd : (0 : Int) < den := by exact_mod_cast hd
  constructor
  · intro h
    have n := (roundFree_nearest (F := F) (num := num) hd hF k).1
    have hu : (F.units k : Int) < F.units (roundFree F num den) := by
      exact_mod_cast F.units_strictMono (by omega : k < roundFree F num den)
    have s := closer_right hu hdd n
    have hm : (F.units (k + 1) : Int) ≤ F.units (roundFree F num den) := by
      exact_mod_cast F.units_strictMono.monotone h
    by_cases he : k + 1 = roundFree F num den
    · rw [he]; linarith
    · -- then k + 1 is another candidate
      have n' := (roundFree_nearest (F := F) (num := num) hd hF (k + 1)).1
      have hu' : (F.units (k + 1) : Int) < F.units (roundFree F num den) := by
        exact_mod_cast F.units_strictMono (by omega : k + 1 < roundFree F num den)
      have s' := closer_right hu' hdd n'
      have hk : (F.units k : Int) ≤ F.units (k + 1) := by
        exact_mod_cast F.units_strictMono.monotone (by omega : k ≤ k + 1)
      nlinarith
  · intro h
    by_contra hc
    have hle : roundFree F num den ≤ k := by omega
    have n := (roundFree_nearest (F := F) (num := num) hd hF (k + 1)).1
    have hu : (F.units (roundFree F num den) : Int) < F.units (k + 1) := by
      exact_mod_cast F.units_strictMono (by omega : roundFree F num den < k + 1)
    have s := closer_left hu hdd n
    have hm : (F.units (roundFree F num den) : Int) ≤ F.units k := by
      exact_mod_cast F.units_strictMono.monotone hle
    nlinarith

/-- Rounding overflows from the threshold on. -/
theorem roundFree_overflow {num den : Nat} (hd : 0 < den) (hF : Usable F) :
    F.infMag ≤ roundFree F num den ↔
      ((F.units (F.infMag - 1) : Int) + F.units F.infMag) * den ≤ 2 * num := by
  have hp := infMag_pos hF
  have he := infMag_even hF
  have hk : F.infMag - 1 + 1 = F.infMag := by omega
  obtain ⟨h1, h2⟩ := roundFree_ge (F := F) (num := num) (k := F.infMag - 1) hd hF.1
  rw [hk] at h1 h2
  refine ⟨h1, fun h => ?_⟩
  rcases Int.lt_or_eq_of_le h with h | h
  · exact h2 h
  · by_contra hc
    have hdd : (0 : Int) < den := by exact_mod_cast hd
    have n := roundFree_nearest (F := F) (num := num) hd hF.1 F.infMag
    generalize hr : roundFree F num den = r at *
    have hu : (F.units r : Int) < F.units F.infMag := by
      exact_mod_cast F.units_strictMono (by omega : r < F.infMag)
    have s := closer_left hu hdd n.1
    have hm : (F.units r : Int) ≤ F.units (F.infMag - 1) := by
      exact_mod_cast F.units_strictMono.monotone (by omega : r ≤ F.infMag - 1)
    have heq : (F.units r : Int) = F.units (F.infMag - 1) := by nlinarith
    have hrr : r = F.infMag - 1 := F.units_strictMono.injective (by exact_mod_cast heq)
    rcases n.2 (by
      rw [heq, show (num : Int) - F.units (F.infMag - 1) * den = -(num - F.units F.infMag * den) by linarith,
        abs_neg]) with h | h
    · omega
    · omega

theorem roundMag_zero (hF : Usable F) {den : Nat} (hd : 0 < den) : roundMag F 0 den = 0 := by
  have := roundMag_exact (F := F) (k := 0) hd hF.1 (by omega)
  rwa [F.units_zero, Nat.zero_mul] at this

theorem ofUnits_mag (num : Int) (den : Nat) (z : Bool) :
    (Flt.ofUnits F num den z).mag = roundMag F num.natAbs den := rfl

theorem sunits_natAbs (x : Flt F) : x.sunits.natAbs = F.units x.mag := by
  unfold Flt.sunits; split <;> simp

theorem ofUnits_sunits (hF : Usable F) (num : Int) {den : Nat} (hd : 0 < den) (z : Bool) :
    (Flt.ofUnits F num den z).sunits =
      (if num < 0 then -1 else 1) * (F.units (roundMag F num.natAbs den) : Int) := by
  unfold Flt.sunits Flt.ofUnits
  by_cases h0 : num = 0
  · subst h0
    simp [roundMag_zero hF hd, F.units_zero]
  · simp only [if_neg h0, decide_eq_true_eq]
    split <;> simp

/-- `Flt.ofUnits` rounds correctly. -/
theorem ofUnits_rounds (hF : Usable F) (num : Int) {den : Nat} (hd : 0 < den) (z : Bool) :
    RoundsTo ((num : ℚ) / (den * F.one)) (Flt.ofUnits F num den z) := by
  have hone : (0 : ℚ) < F.one := by exact_mod_cast F.one_pos
  have hden : (0 : ℚ) < den := by exact_mod_cast hd
  have hprod : (0 : ℚ) < den * F.one := by positivity
  have hmag : (Flt.ofUnits F num den z).mag = roundMag F num.natAbs den := rfl
  have hinf : F.infMag ≤ roundFree F num.natAbs den ↔ (Flt.ofUnits F num den z).isInf = true := by
    unfold Flt.isInf
    rw [hmag, roundMag_eq, decide_eq_true_eq]
    omega
  have hdist : ∀ x : Flt F, |(num : ℚ) / (den * F.one) - value x| =
      ((|num - x.sunits * den| : Int) : ℚ) / (den * F.one) := by
    intro x
    rw [value_eq hF]
    have : (num : ℚ) / (den * F.one) - x.sunits / F.one = ((num - x.sunits * den : Int) : ℚ) / (den * F.one) := by
      push_cast; field_simp
    rw [this, abs_div, abs_of_pos hprod]
    push_cast
    rfl
  have hy : (Flt.ofUnits F num den z).isFinite = true →
      (Flt.ofUnits F num den z).mag = roundFree F num.natAbs den ∧
      |num - (Flt.ofUnits F num den z).sunits * den| =
        |(num.natAbs : Int) - F.units (roundFree F num.natAbs den) * den| := by
    intro hfin
    have hm : (Flt.ofUnits F num den z).mag = roundFree F num.natAbs den := by
      unfold Flt.isFinite at hfin
      rw [decide_eq_true_eq, hmag, roundMag_eq] at hfin
      rw [hmag, roundMag_eq]
      omega
    refine ⟨hm, ?_⟩
    rw [ofUnits_sunits hF _ hd, ← hmag, hm]
    by_cases hn : num < 0
    · rw [if_pos hn]
      rw [show num - -1 * (F.units (roundFree F num.natAbs den) : Int) * den =
        -((num.natAbs : Int) - F.units (roundFree F num.natAbs den) * den) by
          rw [show (num.natAbs : Int) = -num by omega]; ring, abs_neg]
    · rw [if_neg hn, show (num.natAbs : Int) = num by omega, one_mul]
  have hz : ∀ x : Flt F, |(num.natAbs : Int) - F.units x.mag * den| ≤ |num - x.sunits * den| := by
    intro x
    have h1 : (num.natAbs : Int) = |num| := Int.natCast_natAbs num
    have h2 : (F.units x.mag : Int) * den = |x.sunits * den| := by
      rw [abs_mul, ← Int.natCast_natAbs, sunits_natAbs, abs_of_nonneg (by omega : (0 : Int) ≤ den)]
    rw [h1, h2]
    exact abs_abs_sub_abs_le num _
  constructor
  · unfold Flt.isNaN
    rw [decide_eq_false_iff_not, hmag, roundMag_eq]
    omega
  · rw [← hinf, roundFree_overflow hd hF, abs_div, abs_of_pos hprod, le_div_iff₀ hprod]
    have ht := threshold_units hF
    have e1 : ((num.natAbs : Int) : ℚ) = |(num : ℚ)| := by rw [Int.natCast_natAbs]; push_cast; rfl
    constructor
    · intro h
      have h' : (((F.units (F.infMag - 1) : Int) + F.units F.infMag) * den : ℚ) ≤ 2 * (num.natAbs : Int) := by
        exact_mod_cast h
      rw [← e1]
      push_cast at h' ht ⊢
      rw [← ht] at h'
      linarith
    · intro h
      rw [← e1] at h
      have h' : (((F.units (F.infMag - 1) : Int) + F.units F.infMag) * den : ℚ) ≤ 2 * (num.natAbs : Int) := by
        push_cast at h ht ⊢
        rw [← ht]
        linarith
      exact_mod_cast h'
  · intro hfin x hx
    obtain ⟨h1, h2⟩ := hy hfin
    rw [hdist, hdist, h2]
    apply div_le_div_of_nonneg_right _ hprod.le
    have n := (roundFree_nearest (F := F) (num := num.natAbs) hd hF.1 x.mag).1
    exact_mod_cast le_trans n (hz x)
  · intro hfin x hx heq
    obtain ⟨h1, h2⟩ := hy hfin
    rw [hdist, hdist, h2] at heq
    have heq' : |(num.natAbs : Int) - F.units (roundFree F num.natAbs den) * den| = |num - x.sunits * den| := by
      have := (div_left_inj' hprod.ne').1 heq
      exact_mod_cast this
    have n := roundFree_nearest (F := F) (num := num.natAbs) hd hF.1 x.mag
    have hzx := hz x
    rcases n.2 (by have := n.1; omega) with h | h
    · -- same magnitude: the sign differs only for zero
      left
      rw [value_eq hF, value_eq hF]
      congr 2
      rw [ofUnits_sunits hF _ hd, ← hmag, h1, ← h]
      have hd' : (0 : Int) < den := by exact_mod_cast hd
      rw [← h] at heq'
      have hxs : x.sunits = F.units x.mag ∨ x.sunits = -(F.units x.mag : Int) := by
        unfold Flt.sunits; split <;> simp
      have hu : (0 : Int) ≤ F.units x.mag := by omega
      have hz0 : num = 0 → F.units x.mag = 0 := by
        rintro rfl
        have : roundFree F (0 : Int).natAbs den = 0 := by
          have h3 := roundMag_zero hF hd
          rw [roundMag_eq] at h3
          have := infMag_pos hF
          simpa using (by omega : roundFree F 0 den = 0)
        rw [h, this, F.units_zero]
      by_cases hn : num < 0
      · rw [if_pos hn]
        rcases hxs with hs | hs
        · rw [hs] at heq' ⊢
          have e1 : (num.natAbs : Int) = -num := by omega
          rw [e1] at heq'
          have h3 : 0 ≤ (F.units x.mag : Int) * den := Int.mul_nonneg hu (by omega)
          rw [abs_of_nonpos (by omega : num - (F.units x.mag : Int) * den ≤ 0)] at heq'
          have : (F.units x.mag : Int) * den = 0 := by
            rcases abs_cases (-num - (F.units x.mag : Int) * den) with ⟨h4, _⟩ | ⟨h4, _⟩ <;> omega
          rcases Int.mul_eq_zero.1 this with h5 | h5
          · rw [h5]; rfl
          · omega
        · rw [hs]; ring
      · rw [if_neg hn]
        rcases hxs with hs | hs
        · rw [hs]; ring
        · rw [hs] at heq' ⊢
          by_cases h0 : num = 0
          · rw [hz0 h0]; simp
          · have e1 : (num.natAbs : Int) = num := by omega
            rw [e1] at heq'
            have h3 : 0 ≤ (F.units x.mag : Int) * den := Int.mul_nonneg hu (by omega)
            rw [show num - -(F.units x.mag : Int) * den = num + (F.units x.mag : Int) * den by ring,
              abs_of_nonneg (by omega : 0 ≤ num + (F.units x.mag : Int) * den)] at heq'
            have : (F.units x.mag : Int) * den = 0 := by
              rcases abs_cases (num - (F.units x.mag : Int) * den) with ⟨h4, _⟩ | ⟨h4, _⟩ <;> omega
            rcases Int.mul_eq_zero.1 this with h5 | h5
            · rw [h5]; rfl
            · omega
    · right; rw [h1]; exact h
  · intro hq
    have hn0 : num ≠ 0 := by rintro rfl; simp at hq
    show (if num = 0 then z else decide (num < 0)) = true ↔ _
    rw [if_neg hn0, decide_eq_true_eq, div_lt_iff₀ hprod, zero_mul]
    exact_mod_cast Iff.rfl

end Pasture
