import Mathlib.Tactic.Linarith
import Mathlib.Tactic.Positivity
import Mathlib.Analysis.Real.Sqrt
import Verif.Lemmas.FloatError
import Verif.Lemmas.FloatOrder
import Verif.Lemmas.FloatSqrt

/-!
# Lemmas: computing with whole numbers, and the error of a single operation
-/

namespace Pasture

open Spec Flt

/-- Small numbers do not overflow. -/
theorem finite_of_small {q : ℚ} {y : F64} (h : RoundsTo q y) (hq : |q| ≤ 2 ^ 53) : y.isFinite = true := by
  have hF := usable_f64
  rcases finite_or_inf h.not_nan with hf | hi
  · exact hf
  · exfalso
    have h1 := h.overflow.1 hi
    have h2 := threshold_units hF
    have hone : (0 : ℚ) < FloatFormat.f64.one := by exact_mod_cast FloatFormat.one_pos (F := .f64)
    have h3 : 2 * (2 ^ 53 * FloatFormat.f64.one) < FloatFormat.f64.units FloatFormat.f64.infMag := by decide +kernel
    have h3' : (2 : ℚ) * (2 ^ 53 * FloatFormat.f64.one) < FloatFormat.f64.units FloatFormat.f64.infMag := by exact_mod_cast h3
    have h4 : (0 : ℚ) ≤ FloatFormat.f64.units (FloatFormat.f64.infMag - 1) := Nat.cast_nonneg _
    have h5 : overflowThreshold .f64 * FloatFormat.f64.one ≤ 2 ^ 53 * FloatFormat.f64.one :=
      mul_le_mul_of_nonneg_right (h1.trans hq) hone.le
    revert h2 h3' h4 h5
    clear h3 hone h1 hi h
    generalize (FloatFormat.f64.one : ℚ) = o
    generalize (FloatFormat.f64.units FloatFormat.f64.infMag : ℚ) = u
    generalize (FloatFormat.f64.units (FloatFormat.f64.infMag - 1) : ℚ) = w
    generalize overflowThreshold .f64 = t
    intro h2 h3 h4 h5
    linarith

/-- `x` is the whole number `z`. -/
structure Whole (x : F64) (z : Int) : Prop where
  finite : x.isFinite = true
  value_eq : value x = z

theorem whole_of_int {z : Int} (hz : |z| ≤ 2 ^ 53) : Whole (Flt.ofInt .f64 z) z := by
  obtain ⟨h1, h2⟩ := ofInt_exact (F := .f64) usable_f64 (n := z) (by show _ ≤ 2 ^ 53; rw [Int.abs_eq_natAbs] at hz; omega)
  refine ⟨h1, ?_⟩
  have hone : (FloatFormat.f64.one : ℚ) ≠ 0 := by exact_mod_cast (FloatFormat.one_pos (F := .f64)).ne'
  rw [Pasture.value_eq usable_f64, h2]
  push_cast
  exact mul_div_cancel_right₀ _ hone

theorem whole_rounds {q : ℚ} {y : F64} {z : Int} (h : RoundsTo q y) (hq : q = z) (hz : |z| ≤ 2 ^ 53) : Whole y z := by
  have hf : y.isFinite = true := finite_of_small h (by rw [hq]; exact_mod_cast hz)
  obtain ⟨h1, h2⟩ := whole_of_int hz
  exact ⟨hf, by rw [rounds_exact h hf h1 (h2.trans hq.symm), hq]⟩

variable {x y : F64} {a b : Int}

theorem Whole.add (hx : Whole x a) (hy : Whole y b) (h : |a + b| ≤ 2 ^ 53) : Whole (Flt.add x y) (a + b) :=
  whole_rounds (add_rounds usable_f64 x y hx.finite hy.finite) (by rw [hx.value_eq, hy.value_eq]; push_cast; rfl) h

theorem Whole.sub (hx : Whole x a) (hy : Whole y b) (h : |a - b| ≤ 2 ^ 53) : Whole (Flt.sub x y) (a - b) :=
  whole_rounds (sub_rounds usable_f64 x y hx.finite hy.finite) (by rw [hx.value_eq, hy.value_eq]; push_cast; rfl) h

theorem Whole.mul (hx : Whole x a) (hy : Whole y b) (h : |a * b| ≤ 2 ^ 53) : Whole (Flt.mul x y) (a * b) :=
  whole_rounds (mul_rounds usable_f64 x y hx.finite hy.finite) (by rw [hx.value_eq, hy.value_eq]; push_cast; rfl) h

theorem Whole.negate (hx : Whole x a) : Whole (Flt.negate x) (-a) :=
  ⟨hx.finite, by rw [value_negate, hx.value_eq]; push_cast; rfl⟩

theorem whole_zero : Whole (Flt.zero .f64) 0 := ⟨by decide, by decide +kernel⟩

theorem feq_iff {x y : F64} (hx : x.isFinite = true) (hy : y.isFinite = true) : Flt.feq x y = true ↔ value x = value y := by
  unfold Flt.feq
  rw [(finite_cases hx).1, (finite_cases hy).1]
  have h1 := rank_lt usable_f64 x y
  have h2 := rank_lt usable_f64 y x
  simp
  constructor
  · intro h
    apply le_antisymm
    · rw [← not_lt, ← h2]; omega
    · rw [← not_lt, ← h1]; omega
  · intro h
    have := h1.not.2 (by rw [h]; exact lt_irrefl _)
    have := h2.not.2 (by rw [h]; exact lt_irrefl _)
    omega

theorem value_abs' (x : F64) : value (Flt.abs x) = |value x| := by
  have h : |value (Flt.abs x)| = |value x| := by
    rw [Pasture.value_abs usable_f64, Pasture.value_abs usable_f64]
    rfl
  rw [← h, abs_of_nonneg]
  unfold value Flt.abs
  simp
  split <;> positivity

theorem abs_finite (hx : x.isFinite = true) : (Flt.abs x).isFinite = true := hx

/-- The error of one operation. -/
theorem rounds_near {q : ℚ} {y : F64} (h : RoundsTo q y) (hq : |q| ≤ 2 ^ 53) :
    y.isFinite = true ∧ |(value y : ℝ) - (q : ℝ)| ≤ |(q : ℝ)| / 2 ^ 53 + 1 / 2 ^ 100 := by
  have hf := finite_of_small h hq
  refine ⟨hf, ?_⟩
  have he := rounds_error usable_f64 h hf
  have h1 : |q - value y| ≤ |q| / 2 ^ 53 + 1 / 2 ^ 100 := by
    rcases he with he | he
    · refine he.trans ?_
      show |q| / 2 ^ 53 ≤ _
      have : (0 : ℚ) ≤ 1 / 2 ^ 100 := by positivity
      linarith
    · refine he.trans ?_
      have h2 : (2 : ℕ) ^ 100 ≤ 2 * FloatFormat.f64.one := by decide +kernel
      have h3 : (2 : ℚ) ^ 100 ≤ 2 * FloatFormat.f64.one := by exact_mod_cast h2
      have h4 : 1 / (2 * (FloatFormat.f64.one : ℚ)) ≤ 1 / 2 ^ 100 := one_div_le_one_div_of_le (by positivity) h3
      have : (0 : ℚ) ≤ |q| / 2 ^ 53 := by positivity
      exact h4.trans (le_add_of_nonneg_left this)
  rw [abs_sub_comm]
  have h2 : ((|q - value y| : ℚ) : ℝ) ≤ ((|q| / 2 ^ 53 + 1 / 2 ^ 100 : ℚ) : ℝ) := Rat.cast_le.2 h1
  push_cast at h2
  exact h2

/-- The error of a square root. -/
theorem sqrt_near {x : F64} {z : Int} (hx : Whole x z) (h0 : 1 ≤ z) (hz : z ≤ 2 ^ 53) :
    (Flt.sqrt x).isFinite = true ∧ |(value (Flt.sqrt x) : ℝ) - √(z : ℝ)| ≤ √(z : ℝ) / 2 ^ 53 + 1 / 2 ^ 99 := by
  have hneg : x.neg = false := by
    by_contra hc
    have hv := hx.value_eq
    have : value x ≤ 0 := by
      unfold value
      simp only [Bool.not_eq_false] at hc
      rw [hc, if_pos rfl, neg_one_mul, neg_nonpos]
      split <;> positivity
    rw [hv] at this
    have : z ≤ 0 := by exact_mod_cast this
    omega
  have hmag : x.mag ≠ 0 := by
    intro hc
    have hv := hx.value_eq
    have : value x = 0 := by
      unfold value
      rw [hc]
      simp
    rw [hv] at this
    have : z = 0 := by exact_mod_cast this
    omega
  obtain ⟨h1, _, h2⟩ := sqrt_nearest usable_f64 x hx.finite hneg hmag
  refine ⟨h1, ?_⟩
  rw [hx.value_eq] at h2
  push_cast at h2
  have hs1 : (1 : ℝ) ≤ √(z : ℝ) := by
    rw [Real.one_le_sqrt]
    exact_mod_cast h0
  have hs2 : √(z : ℝ) ≤ 2 ^ 52 := by
    rw [Real.sqrt_le_left (by positivity)]
    have : (z : ℝ) ≤ 2 ^ 53 := by exact_mod_cast hz
    refine this.trans ?_
    norm_num
  -- a rational close to the root
  obtain ⟨q, hq1, hq2⟩ := exists_rat_btwn (show √(z : ℝ) < √(z : ℝ) + 1 / 2 ^ 101 from lt_add_of_pos_right _ (by positivity))
  obtain ⟨y, hy⟩ : ∃ y : F64, RoundsTo q y := by
    have hone : (FloatFormat.f64.one : ℚ) ≠ 0 := by exact_mod_cast (FloatFormat.one_pos (F := .f64)).ne'
    have := ofUnits_rounds usable_f64 (q.num * FloatFormat.f64.one) q.den_pos false
    have e : ((q.num * FloatFormat.f64.one : Int) : ℚ) / (q.den * FloatFormat.f64.one) = q := by
      push_cast
      rw [mul_div_mul_right _ _ hone, Rat.num_div_den]
    rw [e] at this
    exact ⟨_, this⟩
  have hqabs : |(q : ℝ)| = q := abs_of_nonneg (by linarith)
  have hlt : (q : ℝ) ≤ 2 ^ 53 := by
    have : (1 : ℝ) / 2 ^ 101 ≤ 1 := by norm_num
    have : (2 : ℝ) ^ 52 + 1 ≤ 2 ^ 53 := by norm_num
    linarith
  obtain ⟨hf, he⟩ := rounds_near hy (by
    have : |(q : ℝ)| ≤ 2 ^ 53 := by rw [hqabs]; exact hlt
    exact_mod_cast this)
  have h3 := h2 y hf
  rw [hqabs] at he
  have a1 := abs_le.1 he
  have h4 : |√(z : ℝ) - (value y : ℝ)| ≤ √(z : ℝ) / 2 ^ 53 + 1 / 2 ^ 99 := by
    rw [abs_le]
    generalize √(z : ℝ) = s at *
    generalize (value y : ℝ) = v at *
    constructor <;> norm_num at * <;> linarith
  rw [abs_sub_comm]
  exact h3.trans h4

end Pasture
