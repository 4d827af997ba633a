import Verif.Lemmas.Numbers

/-! # Numbers that floats represent exactly, and truncation -/

namespace Pasture

open Spec

variable {F G : FloatFormat}

theorem roundFree_exact {k den : Nat} (hd : 0 < den) (hF : 1 ≤ F.mantBits) :
    roundFree F (F.units k * den) den = k := by
  have h := (roundFree_nearest (num := F.units k * den) hd hF k).1
  have e1 : ((F.units k * den : Nat) : Int) - F.units k * den = 0 := by push_cast; ring
  rw [e1, abs_zero] at h
  have h2 := abs_nonpos_iff.1 h
  apply F.units_strictMono.injective
  apply Nat.eq_of_mul_eq_mul_right hd
  have : ((F.units k * den : Nat) : Int) = F.units (roundFree F (F.units k * den) den) * den := by omega
  exact_mod_cast this.symm

/-- Numbers with few significant bits are on the grid. -/
theorem exists_units (F : FloatFormat) : ∀ t m, m ≤ 2 ^ (F.mantBits + 1) → ∃ k, F.units k = m * 2 ^ t
  | 0, m, h => ⟨0 * 2 ^ F.mantBits + m, F.units_enc (.inl rfl) h⟩
  | t + 1, m, h => by
    by_cases hm : 2 ^ F.mantBits ≤ m
    · exact ⟨_, F.units_enc (e := t + 1) (.inr hm) h⟩
    · have hs : 2 ^ (F.mantBits + 1) = 2 * 2 ^ F.mantBits := by rw [Nat.pow_succ]; ring
      obtain ⟨k, hk⟩ := exists_units F t (2 * m) (by omega)
      exact ⟨k, by rw [hk, Nat.pow_succ]; ring⟩

/-- A number of units that is on the grid and in range becomes exactly that float. -/
theorem ofUnits_exact (hF : Usable F) {num : Int} {den : Nat} (hd : 0 < den) {k : Nat}
    (hk : num.natAbs = F.units k * den) (hfin : k < F.infMag) (z : Bool) :
    (Flt.ofUnits F num den z).mag = k ∧ (Flt.ofUnits F num den z).isFinite = true ∧
      (Flt.ofUnits F num den z).sunits * den = num := by
  have hm : (Flt.ofUnits F num den z).mag = k := by
    rw [ofUnits_mag, hk]
    exact roundMag_exact hd hF.1 (by omega)
  refine ⟨hm, by unfold Flt.isFinite; rw [hm]; exact decide_eq_true hfin, ?_⟩
  rw [ofUnits_sunits hF _ hd, ← ofUnits_mag num den z, hm]
  have hk' : (num.natAbs : Int) = F.units k * den := by rw [hk]; push_cast; rfl
  split
  · linarith [show (num.natAbs : Int) = -num by omega]
  · linarith [show (num.natAbs : Int) = num by omega]

theorem units_lt_inf {k : Nat} (h : F.units k < F.units F.infMag) : k < F.infMag :=
  F.units_strictMono.lt_iff_lt.1 h

/-- Integers up to `2 ^ (mantBits + 1)` are exact. -/
theorem ofInt_exact (hF : Usable F) {n : Int} (hn : n.natAbs ≤ 2 ^ (F.mantBits + 1)) :
    (Flt.ofInt F n).isFinite = true ∧ (Flt.ofInt F n).sunits = n * F.one := by
  obtain ⟨k, hk⟩ := exists_units F (2 ^ (F.expBits - 1) - 2 + F.mantBits) n.natAbs hn
  have hk1 : F.units k = n.natAbs * F.one := hk
  have hfin : k < F.infMag := by
    apply units_lt_inf
    rw [(units_inf hF).1, hk, ← Nat.pow_add]
    refine Nat.lt_of_le_of_lt (Nat.mul_le_mul_right _ hn) ?_
    rw [← Nat.pow_add]
    apply Nat.pow_lt_pow_right (by omega)
    obtain ⟨h1, h2, h3⟩ := hF
    have : 2 ^ F.expBits = 2 * 2 ^ (F.expBits - 1) := by
      rw [← Nat.pow_succ']; congr 1; omega
    omega
  have hone : (F.one : Int).natAbs = F.one := rfl
  obtain ⟨_, h2, h3⟩ := ofUnits_exact hF (num := n * F.one) (den := 1) (by omega) (k := k)
    (by rw [Int.natAbs_mul, hone, hk1, Nat.mul_one]) hfin false
  exact ⟨h2, by rw [← h3]; unfold Flt.ofInt; ring⟩

theorem trunc_div (a : Int) {b : Nat} (hb : 0 < b) : trunc ((a : ℚ) / b) = a.tdiv b := by
  have hb' : (0 : ℚ) < b := by exact_mod_cast hb
  unfold trunc
  by_cases h : a < 0
  · have : (a : ℚ) / b < 0 := div_neg_of_neg_of_pos (by exact_mod_cast h) hb'
    rw [if_pos this]
    obtain ⟨n, rfl⟩ : ∃ n : Nat, a = -(n : Int) := ⟨a.natAbs, by omega⟩
    rw [Int.neg_tdiv]
    push_cast
    rw [neg_div, Int.ceil_neg]
    congr 1
    have := Rat.floor_intCast_div_natCast (n : Int) b
    push_cast at this
    rw [this, Int.tdiv_eq_ediv_of_nonneg (by omega)]
  · have : ¬ (a : ℚ) / b < 0 := not_lt.2 (div_nonneg (by exact_mod_cast (by omega : 0 ≤ a)) hb'.le)
    rw [if_neg this, Rat.floor_intCast_div_natCast, Int.tdiv_eq_ediv_of_nonneg (by omega)]

/-- `x as iN`: truncation, clamped to the range. -/
theorem toIntSat_eq (hF : Usable F) (x : Flt F) (hx : x.isFinite = true) (lo hi : Int) :
    x.toIntSat lo hi = max lo (min hi (trunc (value x))) := by
  unfold Flt.toIntSat
  unfold Flt.isFinite at hx
  have hx := of_decide_eq_true hx
  have h1 : x.isNaN = false := by unfold Flt.isNaN; exact decide_eq_false (by omega)
  have h2 : x.isInf = false := by unfold Flt.isInf; exact decide_eq_false (by omega)
  rw [h1, h2, value_eq hF, trunc_div _ F.one_pos]
  rfl

/-- Casting to a format with more room is exact. -/
theorem cast_exact (hF : Usable F) (hG : Usable G) (hm : F.mantBits ≤ G.mantBits) (he : F.expBits < G.expBits)
    (x : Flt F) (hx : x.isFinite = true) :
    (x.cast G).isFinite = true ∧ value (x.cast G) = value x ∧ (x.cast G).neg = x.neg := by
  have hx' := of_decide_eq_true hx
  have h1 : x.isNaN = false := by unfold Flt.isNaN; exact decide_eq_false (by omega)
  have h2 : x.isInf = false := by unfold Flt.isInf; exact decide_eq_false (by omega)
  have hpe : 2 * 2 ^ (F.expBits - 1) ≤ 2 ^ (G.expBits - 1) := by
    rw [← Nat.pow_succ']
    exact Nat.pow_le_pow_right (by omega) (by have := hF.2.1; omega)
  have hF2 : 2 ≤ 2 ^ (F.expBits - 1) := by
    calc 2 = 2 ^ 1 := rfl
      _ ≤ 2 ^ (F.expBits - 1) := Nat.pow_le_pow_right (by omega) (by have := hF.2.1; omega)
  obtain ⟨t, ht⟩ : ∃ t, G.one = 2 ^ t * F.one := by
    refine ⟨(2 ^ (G.expBits - 1) - 2 + G.mantBits) - (2 ^ (F.expBits - 1) - 2 + F.mantBits), ?_⟩
    unfold FloatFormat.one
    rw [← Nat.pow_add]
    congr 1
    omega
  obtain ⟨e, m, hk, hc1, hc2⟩ := F.exists_enc x.mag
  have hu : F.units x.mag = m * 2 ^ e := by rw [hk]; exact F.units_enc hc1 (by omega)
  obtain ⟨k, hkk⟩ := exists_units G (e + t) m (by
    have := Nat.pow_le_pow_right (show 1 ≤ 2 by omega) (show F.mantBits + 1 ≤ G.mantBits + 1 by omega)
    omega)
  have hkk' : G.units k * F.one = F.units x.mag * G.one := by
    rw [hkk, hu, ht, Nat.pow_add]; ring
  have hG1 : (G.one : Int).natAbs = G.one := rfl
  have hEF : 2 ^ F.expBits = 2 * 2 ^ (F.expBits - 1) := by
    rw [← Nat.pow_succ']; congr 1; have := hF.2.1; omega
  have hEG : 2 ^ G.expBits = 2 * 2 ^ (G.expBits - 1) := by
    rw [← Nat.pow_succ']; congr 1; have := hG.2.1; omega
  have hfin : k < G.infMag := by
    apply units_lt_inf
    -- the value is below 2 ^ (bias F + 1), well inside the range of G
    have hlt := F.units_strictMono hx'
    rw [(units_inf hF).1] at hlt
    have hb : G.units k * F.one < 2 ^ F.mantBits * 2 ^ (2 ^ F.expBits - 2) * G.one := by
      rw [hkk']; exact Nat.mul_lt_mul_of_pos_right hlt G.one_pos
    rw [(units_inf hG).1]
    by_contra hc
    have hc : 2 ^ G.mantBits * 2 ^ (2 ^ G.expBits - 2) ≤ G.units k := by omega
    have hc2 := Nat.mul_le_mul_right F.one hc
    have : 2 ^ F.mantBits * 2 ^ (2 ^ F.expBits - 2) * G.one ≤ 2 ^ G.mantBits * 2 ^ (2 ^ G.expBits - 2) * F.one := by
      unfold FloatFormat.one
      rw [← Nat.pow_add, ← Nat.pow_add, ← Nat.pow_add, ← Nat.pow_add]
      apply Nat.pow_le_pow_right (by omega)
      omega
    omega
  have hs : x.cast G = Flt.ofUnits G (x.sunits * G.one) F.one x.neg := by
    unfold Flt.cast; rw [h1, h2]; rfl
  obtain ⟨e1, e2, e3⟩ := ofUnits_exact hG (num := x.sunits * G.one) (den := F.one) F.one_pos (k := k)
    (by rw [Int.natAbs_mul, hG1, sunits_natAbs, hkk']) hfin x.neg
  rw [hs]
  refine ⟨e2, ?_, ?_⟩
  · rw [value_eq hG, value_eq hF]
    have a1 : (F.one : ℚ) ≠ 0 := by have := F.one_pos; positivity
    have a2 : (G.one : ℚ) ≠ 0 := by have := G.one_pos; positivity
    rw [div_eq_div_iff a2 a1]
    exact_mod_cast e3
  · show (if x.sunits * (G.one : Int) = 0 then x.neg else decide (x.sunits * (G.one : Int) < 0)) = x.neg
    have hGpos : (0 : Int) < G.one := by exact_mod_cast G.one_pos
    by_cases h0 : x.sunits = 0
    · rw [h0, Int.zero_mul, if_pos rfl]
    · rw [if_neg (by intro h; rcases Int.mul_eq_zero.1 h with h | h <;> omega)]
      unfold Flt.sunits at h0 ⊢
      cases hn : x.neg with
      | true =>
        rw [hn] at h0
        simp only [if_true] at h0 ⊢
        have : 0 < (F.units x.mag : Int) := by omega
        exact decide_eq_true (by nlinarith)
      | false =>
        simp only [Bool.false_eq_true, if_false]
        exact decide_eq_false (by
          have : 0 ≤ (F.units x.mag : Int) * G.one := Int.mul_nonneg (by omega) (by omega)
          omega)

/-- Rounding a value of the format gives that float. -/
theorem value_inj (hF : Usable F) {x y : Flt F} (hn : x.neg = y.neg) (h : value x = value y) : x = y := by
  have h1 : |value x| = |value y| := by rw [h]
  rw [value_abs hF, value_abs hF] at h1
  have a1 : (F.one : ℚ) ≠ 0 := by have := F.one_pos; positivity
  have h2 : F.units x.mag = F.units y.mag := by exact_mod_cast (div_left_inj' a1).1 h1
  have h3 := F.units_strictMono.injective h2
  obtain ⟨a, b⟩ := x
  obtain ⟨c, d⟩ := y
  simp only at hn h3
  rw [hn, h3]

/-- Narrowing a value the narrow format has gives that value. -/
theorem cast_back (hF : Usable F) (hG : Usable G) (x : Flt F) (y : Flt G) (hy : y.isFinite = true)
    (hx : x.isFinite = true) (hv : value y = value x) (hn : y.neg = x.neg) : y.cast F = x := by
  have hy' := of_decide_eq_true hy
  have hx' := of_decide_eq_true hx
  have h1 : y.isNaN = false := by unfold Flt.isNaN; exact decide_eq_false (by omega)
  have h2 : y.isInf = false := by unfold Flt.isInf; exact decide_eq_false (by omega)
  have hs : y.cast F = Flt.ofUnits F (y.sunits * F.one) G.one y.neg := by
    unfold Flt.cast; rw [h1, h2]; rfl
  have a1 : (F.one : ℚ) ≠ 0 := by have := F.one_pos; positivity
  have a2 : (G.one : ℚ) ≠ 0 := by have := G.one_pos; positivity
  have hcross : y.sunits * F.one = x.sunits * G.one := by
    rw [value_eq hG, value_eq hF, div_eq_div_iff a2 a1] at hv
    exact_mod_cast hv
  have hG1 : (G.one : Int).natAbs = G.one := rfl
  obtain ⟨e1, e2, e3⟩ := ofUnits_exact hF (num := y.sunits * F.one) (den := G.one) G.one_pos (k := x.mag)
    (by rw [hcross, Int.natAbs_mul, hG1, sunits_natAbs]) hx' y.neg
  rw [hs]
  have hneg : (Flt.ofUnits F (y.sunits * F.one) G.one y.neg).neg = x.neg := by
    show (if y.sunits * (F.one : Int) = 0 then y.neg else decide (y.sunits * (F.one : Int) < 0)) = x.neg
    rw [hcross]
    have hGpos : (0 : Int) < G.one := by exact_mod_cast G.one_pos
    by_cases h0 : x.sunits = 0
    · rw [h0, Int.zero_mul, if_pos rfl, hn]
    · rw [if_neg (by intro h; rcases Int.mul_eq_zero.1 h with h | h <;> omega)]
      unfold Flt.sunits at h0 ⊢
      cases hxn : x.neg with
      | true =>
        rw [hxn] at h0
        simp only [if_true] at h0 ⊢
        have : 0 < (F.units x.mag : Int) := by omega
        exact decide_eq_true (by nlinarith)
      | false =>
        simp only [Bool.false_eq_true, if_false]
        exact decide_eq_false (by
          have : 0 ≤ (F.units x.mag : Int) * G.one := Int.mul_nonneg (by omega) (by omega)
          omega)
  generalize hw : Flt.ofUnits F (y.sunits * F.one) G.one y.neg = w at *
  obtain ⟨a, b⟩ := x
  obtain ⟨c, d⟩ := w
  simp only at hneg e1
  rw [hneg, e1]

end Pasture
