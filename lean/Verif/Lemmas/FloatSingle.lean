import Verif.Lemmas.FloatError
import Verif.Props.Convert

/-! # Integers in single precision -/

namespace Pasture

open Spec Props

variable {F : FloatFormat}

/-- Far from zero all floats are multiples of a power of two. -/
theorem units_dvd {k t : Nat} (h : 2 ^ (t + F.mantBits + 1) ≤ F.units k) : 2 ^ t ∣ F.units k := by
  obtain ⟨e, m, rfl, h1, h2⟩ := F.exists_enc k
  rw [F.units_enc h1 (by omega)] at h ⊢
  have : t ≤ e := by
    by_contra hc
    have h3 : m * 2 ^ e < 2 ^ (F.mantBits + 1) * 2 ^ t := by
      calc m * 2 ^ e < 2 ^ (F.mantBits + 1) * 2 ^ e := Nat.mul_lt_mul_of_pos_right h2 (Nat.two_pow_pos _)
        _ ≤ _ := Nat.mul_le_mul_left _ (Nat.pow_le_pow_right (by omega) (by omega))
    rw [← Nat.pow_add, show F.mantBits + 1 + t = t + F.mantBits + 1 by omega] at h3
    omega
  exact Dvd.dvd.mul_left (Nat.pow_dvd_pow 2 this) m

theorem value_neg (hF : Usable F) (x : Flt F) (hx : value x ≠ 0) : x.neg = decide (value x < 0) := by
  have h0 : 0 < |value x| := abs_pos.2 hx
  have e : value x = (if x.neg then -1 else 1) * |value x| := by
    rw [value_abs hF, value_eq hF]
    unfold Flt.sunits
    split <;> push_cast <;> ring
  cases hn : x.neg
  · rw [hn] at e
    simp only [Bool.false_eq_true, if_false, one_mul] at e
    exact (decide_eq_false (by rw [e]; exact not_lt.2 h0.le)).symm
  · rw [hn] at e
    simp only [if_true] at e
    exact (decide_eq_true (by rw [e]; linarith)).symm

theorem exact32 {n : Int} (h : n.natAbs ≤ 2 ^ 24) : (Flt.ofInt .f32 n).isFinite = true ∧ value (Flt.ofInt .f32 n) = n := by
  have := ofInt_exact usable_f32 (n := n) h
  exact ⟨this.1, value_of_units usable_f32 this.2⟩

/-- Multiples of 128 up to `2 ^ 31` are floats. -/
theorem exists_multiple (m : Int) (hm : m.natAbs ≤ 2 ^ 24) :
    ∃ x : F32, x.isFinite = true ∧ value x = ((m * 128 : Int) : ℚ) := by
  obtain ⟨k, hk⟩ := exists_units .f32 (149 + 7) m.natAbs hm
  have hone : FloatFormat.f32.one = 2 ^ 149 := by decide
  have hfin : k < FloatFormat.f32.infMag := by
    apply units_lt_inf
    rw [hk]
    refine Nat.lt_of_le_of_lt (Nat.mul_le_mul_right _ hm) ?_
    decide +kernel
  have hk' : (m * 128 * FloatFormat.f32.one).natAbs = FloatFormat.f32.units k * 1 := by
    rw [hk, hone, Int.natAbs_mul, Int.natAbs_mul]
    simp only [Nat.pow_add]
    ring_nf
  obtain ⟨_, h2, h3⟩ := ofUnits_exact usable_f32 (by omega) hk' hfin false
  refine ⟨_, h2, ?_⟩
  apply value_of_units usable_f32
  simpa using h3

theorem ofInt32_finite {z : Int} (h : -2 ^ 31 ≤ z ∧ z < 2 ^ 31) : (Flt.ofInt .f32 z).isFinite = true := by
  have hr := ofInt_rounds usable_f32 z
  have h1 : (Flt.ofInt .f32 z).isInf = false := by
    by_contra hc
    have := hr.overflow.1 (by simpa using hc)
    have h2 : |(z : ℚ)| ≤ 2 ^ 31 := by
      rw [abs_le]
      constructor
      · exact_mod_cast h.1
      · exact_mod_cast h.2.le
    have h3 : (2 : ℚ) ^ 31 < overflowThreshold .f32 := by
      unfold overflowThreshold bias
      norm_num [FloatFormat.f32]
    linarith
  have h2 := hr.not_nan
  unfold Flt.isInf at h1
  unfold Flt.isNaN at h2
  have h3 := of_decide_eq_false h1
  have h4 := of_decide_eq_false h2
  exact decide_eq_true (by omega)

/-- The nearest float of a 32 bit integer is an integer at most 64 away. -/
theorem ofInt32_near {z : Int} (h : -2 ^ 31 ≤ z ∧ z < 2 ^ 31) :
    ∃ z' : Int, value (Flt.ofInt .f32 z) = z' ∧ (z - z').natAbs ≤ 64 ∧ (z.natAbs ≤ 2 ^ 24 → z' = z) ∧
      (2 ^ 24 ≤ z.natAbs → z' ≠ 0) := by
  have hr := ofInt_rounds usable_f32 z
  have hfin := ofInt32_finite h
  by_cases hz : z.natAbs ≤ 2 ^ 24
  · have he := (exact32 (n := z) (by omega)).2
    exact ⟨z, he, by simp, fun _ => rfl, fun h h0 => by rw [h0] at h; exact absurd h (by decide)⟩
  · obtain ⟨y, hy1, hy2⟩ := exists_multiple ((z + 64) / 128) (by omega)
    have hn := hr.nearest hfin y hy1
    rw [hy2] at hn
    -- at least as near as `± 2 ^ 24`
    have hfar : 2 ^ 24 ≤ |value (Flt.ofInt .f32 z)| := by
      by_cases hp : 0 < z
      · have e := exact32 (n := 2 ^ 24) (by decide)
        have hn2 := hr.nearest hfin _ e.1
        rw [e.2] at hn2
        have hzq : (2 ^ 24 : ℚ) < z := by
          have : (2 ^ 24 : Int) < z := by omega
          exact_mod_cast this
        rw [show (((2 ^ 24 : Int) : ℚ)) = 2 ^ 24 by norm_num, abs_of_pos (show (0 : ℚ) < z - 2 ^ 24 by linarith)] at hn2
        have := (abs_le.1 hn2).2
        have h3 : (2 : ℚ) ^ 24 ≤ value (Flt.ofInt .f32 z) := by linarith
        have h4 : 0 < value (Flt.ofInt .f32 z) := lt_of_lt_of_le (by norm_num) h3
        rw [abs_of_pos h4]; exact h3
      · have e := exact32 (n := -2 ^ 24) (by decide)
        have hn2 := hr.nearest hfin _ e.1
        rw [e.2] at hn2
        have hzq : (z : ℚ) < -2 ^ 24 := by
          have : z < (-2 ^ 24 : Int) := by omega
          exact_mod_cast this
        rw [show (((-2 ^ 24 : Int) : ℚ)) = -2 ^ 24 by norm_num, abs_of_neg (show (z : ℚ) - -2 ^ 24 < 0 by linarith)] at hn2
        have := (abs_le.1 hn2).1
        have h3 : value (Flt.ofInt .f32 z) ≤ -(2 : ℚ) ^ 24 := by linarith
        have h4 : value (Flt.ofInt .f32 z) < 0 := lt_of_le_of_lt h3 (by norm_num)
        rw [abs_of_neg h4]; linarith
    -- so it is whole
    have hone : FloatFormat.f32.one = 2 ^ 149 := by decide
    have honeq : (0 : ℚ) < FloatFormat.f32.one := by exact_mod_cast FloatFormat.f32.one_pos
    have hu : 2 ^ (149 + 23 + 1) ≤ FloatFormat.f32.units (Flt.ofInt .f32 z).mag := by
      have h1 := hfar
      rw [value_abs usable_f32, le_div_iff₀ honeq, hone] at h1
      have h2 : 2 ^ 24 * 2 ^ 149 ≤ FloatFormat.f32.units (Flt.ofInt .f32 z).mag := by exact_mod_cast h1
      rw [← Nat.pow_add] at h2
      exact h2
    have hd : (FloatFormat.f32.one : Int) ∣ (Flt.ofInt .f32 z).sunits := by
      have h1 : FloatFormat.f32.one ∣ FloatFormat.f32.units (Flt.ofInt .f32 z).mag := by
        rw [hone]; exact units_dvd hu
      unfold Flt.sunits
      split
      · exact (Int.dvd_neg).2 (Int.natCast_dvd_natCast.2 h1)
      · exact Int.natCast_dvd_natCast.2 h1
    obtain ⟨z', hz'⟩ := hd
    have hv : value (Flt.ofInt .f32 z) = z' := value_of_units usable_f32 (by rw [hz', Int.mul_comm])
    refine ⟨z', hv, ?_, fun h => absurd h hz, fun _ => ?_⟩
    · rw [hv] at hn
      have : |z - z'| ≤ |z - (z + 64) / 128 * 128| := by exact_mod_cast hn
      rw [Int.abs_eq_natAbs, Int.abs_eq_natAbs] at this
      omega
    · rintro rfl
      rw [hv] at hfar
      norm_num at hfar

/-- In double precision it is the same number as that integer. -/
theorem ofInt32_double {z : Int} (h : -2 ^ 31 ≤ z ∧ z < 2 ^ 31) :
    ∃ z' : Int, (Flt.ofInt .f32 z).cast .f64 = Flt.ofInt .f64 z' ∧ (z - z').natAbs ≤ 64 ∧ (z.natAbs ≤ 2 ^ 24 → z' = z) := by
  obtain ⟨z', h1, h2, h3, h4⟩ := ofInt32_near h
  refine ⟨z', ?_, h2, h3⟩
  by_cases h0 : z = 0
  · obtain rfl : z' = 0 := by rw [h3 (by omega), h0]
    rw [h0]
    decide +kernel
  · have hne : z' ≠ 0 := by
      by_cases hz : z.natAbs ≤ 2 ^ 24
      · rw [h3 hz]; exact h0
      · exact h4 (by omega)
    obtain ⟨c1, c2, c3⟩ := cast_exact usable_f32 usable_f64 (by decide) (by decide) _ (ofInt32_finite h)
    have e := ofInt_exact usable_f64 (n := z') (by show z'.natAbs ≤ 2 ^ 53; omega)
    have e2 := value_of_units usable_f64 e.2
    have hv : value ((Flt.ofInt .f32 z).cast .f64) = value (Flt.ofInt .f64 z') := by rw [c2, h1, e2]
    have hn : value (Flt.ofInt .f64 z') ≠ 0 := by rw [e2]; exact_mod_cast hne
    apply value_inj usable_f64 _ hv
    rw [value_neg usable_f64 _ (by rw [hv]; exact hn), value_neg usable_f64 _ hn, hv]

end Pasture
