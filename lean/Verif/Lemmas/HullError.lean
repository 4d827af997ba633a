import Mathlib.Analysis.Real.Sqrt
import Mathlib.Tactic.Linarith
import Mathlib.Tactic.FieldSimp
import Mathlib.Tactic.Positivity
import Mathlib.Tactic.NormNum

/-! # The error of the length of a projection -/

namespace Pasture.Hull

/-- The error of a component of the normalized vector. -/
theorem quotient_error {n r a p : ℝ} (hn : 1 ≤ n) (hr : |r - n| ≤ n / 2 ^ 53 + 1 / 2 ^ 99) (hp : |p - a / r| ≤ |a / r| / 2 ^ 53 + 1 / 2 ^ 99) :
    |p - a / n| ≤ 3 * |a / n| / 2 ^ 53 + 1 / 2 ^ 99 := by
  have hr2 : |r - n| ≤ 1.1 / 2 ^ 53 * n := by norm_num at hr ⊢; linarith
  obtain ⟨r1, r2⟩ := abs_le.1 hr2
  have hr0 : 0 < r := by norm_num at r1; linarith
  have hn0 : 0 < n := by linarith
  obtain ⟨ρ, hρ⟩ : ∃ ρ, ρ = n / r := ⟨_, rfl⟩
  have h1 : |ρ - 1| ≤ 1.2 / 2 ^ 53 := by
    have : ρ - 1 = -(r - n) / r := by rw [hρ]; field_simp; ring
    rw [this, abs_div, abs_neg, abs_of_pos hr0, div_le_iff₀ hr0]
    refine hr2.trans ?_
    norm_num at r1 ⊢
    linarith
  have h2 : a / r = a / n * ρ := by rw [hρ]; field_simp
  have h3 : |ρ| ≤ 1.1 := by
    obtain ⟨x1, x2⟩ := abs_le.1 h1
    norm_num at x1 x2
    exact abs_le.2 ⟨by norm_num; linarith, by norm_num; linarith⟩
  rw [h2] at hp
  generalize a / n = X at *
  have e1 : |X * ρ - X| ≤ |X| * (1.2 / 2 ^ 53) := by
    have : X * ρ - X = X * (ρ - 1) := by ring
    rw [this, abs_mul]
    exact mul_le_mul_of_nonneg_left h1 (abs_nonneg X)
  have e2 : |X * ρ| ≤ |X| * 1.1 := by
    rw [abs_mul]
    exact mul_le_mul_of_nonneg_left h3 (abs_nonneg X)
  have e3 := abs_sub_le p (X * ρ) X
  norm_num at *
  have := abs_nonneg X
  linarith

theorem product_error {c p X m : ℝ} (hc : |c| ≤ 2000) (hp : |p - X| ≤ 3 * |X| / 2 ^ 53 + 1 / 2 ^ 99)
    (hm : |m - c * p| ≤ |c * p| / 2 ^ 53 + 1 / 2 ^ 99) : |m - c * X| ≤ 5 * (|c| * |X|) / 2 ^ 53 + 3000 / 2 ^ 99 := by
  have e1 : |c * p - c * X| ≤ 3 * (|c| * |X|) / 2 ^ 53 + |c| * (1 / 2 ^ 99) := by
    rw [← mul_sub, abs_mul]
    refine (mul_le_mul_of_nonneg_left hp (abs_nonneg c)).trans (le_of_eq ?_)
    ring
  have e2 : |c * X| = |c| * |X| := abs_mul c X
  have e3 : |c * p| ≤ |c * p - c * X| + |c * X| := by
    have := abs_add_le (c * p - c * X) (c * X)
    rwa [sub_add_cancel] at this
  have e4 := abs_sub_le m (c * p) (c * X)
  have e5 : 0 ≤ |c| * |X| := by positivity
  generalize |c| * |X| = T at *
  norm_num at *
  linarith

/-- The error of a scalar product. -/
theorem dot_error {mx my mz X Y Z A B C s1 s : ℝ} (hA : |X| ≤ A) (hB : |Y| ≤ B) (hC : |Z| ≤ C)
    (hx : |mx - X| ≤ 5 * A / 2 ^ 53 + 3000 / 2 ^ 99) (hy : |my - Y| ≤ 5 * B / 2 ^ 53 + 3000 / 2 ^ 99)
    (hz : |mz - Z| ≤ 5 * C / 2 ^ 53 + 3000 / 2 ^ 99) (h1 : |s1 - (mx + my)| ≤ |mx + my| / 2 ^ 53 + 1 / 2 ^ 99)
    (h2 : |s - (s1 + mz)| ≤ |s1 + mz| / 2 ^ 53 + 1 / 2 ^ 99) : |s - (X + Y + Z)| ≤ 8 * (A + B + C) / 2 ^ 53 + 1 / 2 ^ 80 := by
  have a0 := (abs_nonneg X).trans hA
  have b0 := (abs_nonneg Y).trans hB
  have c0 := (abs_nonneg Z).trans hC
  obtain ⟨x1, x2⟩ := abs_le.1 hx
  obtain ⟨y1, y2⟩ := abs_le.1 hy
  obtain ⟨z1, z2⟩ := abs_le.1 hz
  obtain ⟨X1, X2⟩ := abs_le.1 hA
  obtain ⟨Y1, Y2⟩ := abs_le.1 hB
  obtain ⟨Z1, Z2⟩ := abs_le.1 hC
  have e1 : |mx + my| ≤ 1.1 * (A + B) + 6001 / 2 ^ 99 := by
    norm_num at *
    exact abs_le.2 ⟨by linarith, by linarith⟩
  obtain ⟨s11, s12⟩ := abs_le.1 h1
  have e2 : |s1 + mz| ≤ 1.2 * (A + B + C) + 10000 / 2 ^ 99 := by
    norm_num at *
    exact abs_le.2 ⟨by linarith, by linarith⟩
  obtain ⟨s21, s22⟩ := abs_le.1 h2
  norm_num at *
  exact abs_le.2 ⟨by linarith, by linarith⟩

/-- Cauchy-Schwarz for absolute values. -/
theorem abs_products_le {ax ay az cx cy cz n k : ℝ} (hn : 0 < n) (hk : 0 < k) (h1 : n ^ 2 = ax ^ 2 + ay ^ 2 + az ^ 2)
    (h2 : k ^ 2 = cx ^ 2 + cy ^ 2 + cz ^ 2) : |cx| * |ax / n| + |cy| * |ay / n| + |cz| * |az / n| ≤ k := by
  rw [abs_div, abs_div, abs_div, abs_of_pos hn]
  have : |cx| * (|ax| / n) + |cy| * (|ay| / n) + |cz| * (|az| / n) = (|cx| * |ax| + |cy| * |ay| + |cz| * |az|) / n := by ring
  rw [this, div_le_iff₀ hn]
  refine le_of_sq_le_sq ?_ (by positivity)
  have e : (k * n) ^ 2 = (|cx| ^ 2 + |cy| ^ 2 + |cz| ^ 2) * (|ax| ^ 2 + |ay| ^ 2 + |az| ^ 2) := by
    rw [mul_pow, h1, h2]
    simp only [sq_abs]
  rw [e]
  nlinarith [sq_nonneg (|cx| * |ay| - |cy| * |ax|), sq_nonneg (|cx| * |az| - |cz| * |ax|), sq_nonneg (|cy| * |az| - |cz| * |ay|)]

/-- The length of the projection of a vector is less than the length of the vector, by this much. -/
theorem projection_gap {ax ay az cx cy cz n k : ℝ} (hn : 0 < n) (hk : 0 < k) (h1 : n ^ 2 = ax ^ 2 + ay ^ 2 + az ^ 2)
    (h2 : k ^ 2 = cx ^ 2 + cy ^ 2 + cz ^ 2)
    (hcross : 1 ≤ (ay * cz - az * cy) ^ 2 + (az * cx - ax * cz) ^ 2 + (ax * cy - ay * cx) ^ 2) :
    |cx * (ax / n) + cy * (ay / n) + cz * (az / n)| * (2 * n ^ 2 * k) ≤ k * (2 * n ^ 2 * k) - 1 := by
  obtain ⟨P, hP⟩ : ∃ P, P = cx * (ax / n) + cy * (ay / n) + cz * (az / n) := ⟨_, rfl⟩
  rw [← hP]
  have e1 : P * n = cx * ax + cy * ay + cz * az := by rw [hP]; field_simp
  have e2 : (P * n) ^ 2 + ((ay * cz - az * cy) ^ 2 + (az * cx - ax * cz) ^ 2 + (ax * cy - ay * cx) ^ 2) = (k * n) ^ 2 := by
    rw [mul_pow k n, h1, h2, e1]
    ring
  have e3 : |P| ^ 2 * n ^ 2 ≤ k ^ 2 * n ^ 2 - 1 := by
    rw [sq_abs]
    nlinarith
  have e4 : |P| ≤ k := by
    have : |P| ^ 2 ≤ k ^ 2 := by
      have hn2 : 0 < n ^ 2 := by positivity
      by_contra hc
      have := mul_lt_mul_of_pos_right (not_le.1 hc) hn2
      linarith
    exact le_of_sq_le_sq this hk.le
  have e5 : (k - |P|) * (k + |P|) * n ^ 2 ≥ 1 := by nlinarith
  have e6 : (k - |P|) * (k + |P|) * n ^ 2 ≤ (k - |P|) * (2 * k) * n ^ 2 := by
    apply mul_le_mul_of_nonneg_right _ (by positivity)
    exact mul_le_mul_of_nonneg_left (by linarith) (by linarith)
  nlinarith

/-- The computed length differs. -/
theorem projection_differs {P k n s v : ℝ} (hn : n ^ 2 ≤ 12000000) (hk : k ^ 2 ≤ 12000000) (hn1 : 1 ≤ n) (hk1 : 1 ≤ k)
    (hgap : |P| * (2 * n ^ 2 * k) ≤ k * (2 * n ^ 2 * k) - 1) (hs : |s - P| ≤ 8 * k / 2 ^ 53 + 1 / 2 ^ 80)
    (hv : |v - k| ≤ k / 2 ^ 53 + 1 / 2 ^ 99) : |s| ≠ v := by
  intro he
  have h1 : |s| ≤ |P| + (8 * k / 2 ^ 53 + 1 / 2 ^ 80) := by
    have := abs_add_le (s - P) P
    rw [sub_add_cancel] at this
    linarith
  obtain ⟨v1, v2⟩ := abs_le.1 hv
  have h2 : k - |P| ≤ 10 * k / 2 ^ 53 := by norm_num at *; linarith
  have h3 : (k - |P|) * (2 * n ^ 2 * k) ≥ 1 := by linarith
  have h4 : (k - |P|) * (2 * n ^ 2 * k) ≤ 10 * k / 2 ^ 53 * (2 * n ^ 2 * k) := mul_le_mul_of_nonneg_right h2 (by positivity)
  have h5 : 10 * k / 2 ^ 53 * (2 * n ^ 2 * k) = 20 / 2 ^ 53 * (n ^ 2 * k ^ 2) := by ring
  have h6 : n ^ 2 * k ^ 2 ≤ 12000000 * 12000000 := mul_le_mul hn hk (by positivity) (by norm_num)
  norm_num at *
  linarith

end Pasture.Hull
