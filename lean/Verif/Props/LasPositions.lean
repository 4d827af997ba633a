import Verif.Spec.Las
import Verif.Lemmas.FloatError

/-!
# LAS positions (C37)
-/

namespace Pasture.Props

open Pasture Las Spec

theorem f64_pow : (2 : ℚ) ^ (FloatFormat.f64.mantBits + 1) = 2 ^ 53 := by
  norm_num [FloatFormat.f64]

theorem f64_threshold : (2 : ℚ) ^ 1000 < overflowThreshold .f64 := by
  unfold overflowThreshold bias
  simp only [FloatFormat.f64]
  norm_num
  rw [show (2 : ℚ) ^ 1023 = 2 ^ 1000 * 2 ^ 23 by rw [← pow_add]]
  have : (0 : ℚ) < 2 ^ 1000 := by positivity
  generalize (2 : ℚ) ^ 1000 = x at *
  norm_num
  linarith

theorem f64_half_unit : (1 : ℚ) / (2 * FloatFormat.f64.one) ≤ 2⁻¹ ^ 60 := by
  have h : (2 : ℚ) ^ 60 ≤ FloatFormat.f64.one := by
    rw [one_eq usable_f64]
    unfold bias
    simp only [FloatFormat.f64]
    norm_num
    calc (1152921504606846976 : ℚ) = 2 ^ 60 := by norm_num
      _ ≤ 2 ^ 1074 := pow_le_pow_right₀ (by norm_num) (by omega)
  rw [div_le_iff₀ (by linarith [show (0 : ℚ) < 2 ^ 60 by positivity])]
  have : (2⁻¹ : ℚ) ^ 60 * 2 ^ 60 = 1 := by norm_num
  nlinarith [show (0 : ℚ) < 2⁻¹ ^ 60 by positivity]

theorem not_overflow {q : ℚ} {y : F64} (h : RoundsTo q y) (hq : |q| ≤ 2 ^ 1000) : y.isFinite = true := by
  have h1 : y.isInf = false := by
    rw [Bool.eq_false_iff, ne_eq, h.overflow]
    exact not_le.2 (lt_of_le_of_lt hq f64_threshold)
  have h2 := h.not_nan
  unfold Flt.isInf at h1
  unfold Flt.isNaN at h2
  unfold Flt.isFinite
  simp only [decide_eq_false_iff_not, decide_eq_true_eq] at *
  omega

theorem trunc_abs (q : ℚ) : |(trunc q : ℚ) - q| < 1 ∧ |(trunc q : ℚ)| ≤ |q| := by
  unfold trunc
  split
  · rename_i h
    have h1 := Int.le_ceil q
    have h2 := Int.ceil_lt_add_one q
    have h3 : ⌈q⌉ ≤ 0 := Int.ceil_le.2 (by simpa using h.le)
    have h3' : (⌈q⌉ : ℚ) ≤ 0 := by exact_mod_cast h3
    rw [abs_lt, abs_of_nonpos h3', abs_of_neg h]
    exact ⟨⟨by linarith, by linarith⟩, by linarith⟩
  · rename_i h
    push Not at h
    have h1 := Int.floor_le q
    have h2 := Int.lt_floor_add_one q
    have h3 : 0 ≤ ⌊q⌋ := Int.floor_nonneg.2 h
    have h3' : (0 : ℚ) ≤ ⌊q⌋ := by exact_mod_cast h3
    rw [abs_lt, abs_of_nonneg h3', abs_of_nonneg h]
    exact ⟨⟨by linarith, by linarith⟩, h1⟩

/-- What is stored: if the subtraction and the division give numbers, the truncated quotient, provided
    it fits. -/
theorem quantize_eq (a : Axis) (w : F64) (hq : ((w.sub a.offset).div a.scale).isFinite = true) :
    quantize a w =
      if -2 ^ 31 ≤ trunc (value ((w.sub a.offset).div a.scale)) ∧
          trunc (value ((w.sub a.offset).div a.scale)) < 2 ^ 31 then
        .ok (trunc (value ((w.sub a.offset).div a.scale)))
      else panicked := by
  unfold quantize
  rw [toIntSat_eq usable_f64 _ hq]
  generalize trunc (value ((w.sub a.offset).div a.scale)) = t
  dsimp only
  by_cases h : -2 ^ 31 ≤ t ∧ t < 2 ^ 31
  · have e : max (-2 ^ 63) (min (2 ^ 63 - 1) t) = t := by omega
    rw [e]
  · rw [if_neg h, if_neg (by omega)]

theorem quantize_not_finite (a : Axis) (w : F64) (hn : ((w.sub a.offset).div a.scale).isNaN = false)
    (hq : ((w.sub a.offset).div a.scale).isFinite = false) : quantize a w = panicked := by
  unfold quantize Flt.toIntSat
  have hi : ((w.sub a.offset).div a.scale).isInf = true := by
    unfold Flt.isNaN at hn
    unfold Flt.isFinite at hq
    unfold Flt.isInf
    simp only [decide_eq_false_iff_not, decide_eq_true_eq] at *
    omega
  rw [hn, hi]
  dsimp only
  cases ((w.sub a.offset).div a.scale).neg
  · rw [if_neg]; simp
  · rw [if_neg]; simp

theorem div_not_nan {x y : F64} (hx : x.isNaN = false) (hy : y.isFinite = true) (h0 : value y ≠ 0) :
    (x.div y).isNaN = false ∧ (x.isFinite = false → (x.div y).isFinite = false) := by
  have hy1 := Flt.finite_cases hy
  by_cases hxf : x.isFinite = true
  · exact ⟨(Flt.div_rounds usable_f64 x y hxf hy h0).not_nan, fun h => by rw [hxf] at h; cases h⟩
  · have hxi : x.isInf = true := by
      unfold Flt.isNaN at hx
      unfold Flt.isFinite at hxf
      unfold Flt.isInf
      simp only [decide_eq_false_iff_not, decide_eq_true_eq] at *
      omega
    have : x.div y = Flt.inf .f64 (x.neg != y.neg) := by
      unfold Flt.div
      rw [hx, hy1.1, hxi, hy1.2]
      simp
    rw [this]
    exact ⟨by simp [Flt.isNaN, Flt.inf], fun _ => by simp [Flt.isFinite, Flt.inf]⟩

/-- Between the exact difference and the quotient the writer computes. -/
theorem quotient_error {a : Axis} (ha : FiniteAxis a) {w : F64} (hw : w.isFinite = true)
    (hd : (w.sub a.offset).isFinite = true) (hq : ((w.sub a.offset).div a.scale).isFinite = true) :
    ∃ D : ℚ, |D - (value w - value a.offset) / value a.scale| ≤
        |(value w - value a.offset) / value a.scale| / 2 ^ 53 ∧
      |value ((w.sub a.offset).div a.scale) - D| ≤ |D| / 2 ^ 53 + 2⁻¹ ^ 60 := by
  obtain ⟨hs, ho, h0⟩ := ha
  have hs0 : 0 < |value a.scale| := abs_pos.2 h0
  have r1 := Flt.sub_rounds usable_f64 w a.offset hw ho
  have r2 := Flt.div_rounds usable_f64 (w.sub a.offset) a.scale hd hs h0
  refine ⟨value (w.sub a.offset) / value a.scale, ?_, ?_⟩
  · have e := rounds_error_units usable_f64 r1 hd (k := w.sunits - a.offset.sunits) (by
      rw [value_eq usable_f64, value_eq usable_f64]; push_cast; ring)
    rw [f64_pow] at e
    rw [← sub_div, abs_div, abs_div, div_div, mul_comm, ← div_div]
    apply div_le_div_of_nonneg_right _ hs0.le
    rwa [abs_sub_comm] at e
  · have e := rounds_error usable_f64 r2 hq
    rw [f64_pow, abs_sub_comm] at e
    have hp : (0 : ℚ) ≤ 2⁻¹ ^ 60 := by positivity
    have hp2 : 0 ≤ |value (w.sub a.offset) / value a.scale| / 2 ^ 53 := by positivity
    rcases e with e | e
    · linarith
    · linarith [f64_half_unit]

theorem sub_not_nan {x y : F64} (hx : x.isFinite = true) (hy : y.isFinite = true) :
    (x.sub y).isNaN = false := (Flt.sub_rounds usable_f64 x y hx hy).not_nan

/-- The quotient is finite whenever something is stored. -/
theorem quantize_finite {a : Axis} (ha : FiniteAxis a) {w : F64} (hw : w.isFinite = true) {z : Int}
    (h : quantize a w = .ok z) :
    (w.sub a.offset).isFinite = true ∧ ((w.sub a.offset).div a.scale).isFinite = true := by
  have hn := sub_not_nan hw ha.2.1
  obtain ⟨h1, h2⟩ := div_not_nan hn ha.1 ha.2.2
  by_cases hq : ((w.sub a.offset).div a.scale).isFinite = true
  · refine ⟨?_, hq⟩
    by_contra hc
    rw [h2 (Bool.eq_false_iff.2 hc)] at hq
    cases hq
  · rw [quantize_not_finite a w h1 (Bool.eq_false_iff.2 hq)] at h
    cases h

/-- **C37 in part**: a stored coordinate fits i32, and the position it stands for differs from the
    written one by less than one scale step plus a millionth of it. Missing: the last millionth, which
    the rounding of the subtraction and the division can use up (`C37_error_violated`). -/
theorem C37_error_partial (a : Axis) (ha : FiniteAxis a) (w : F64) (hw : w.isFinite = true) (z : Int)
    (h : quantize a w = .ok z) :
    (-2 ^ 31 ≤ z ∧ z < 2 ^ 31) ∧
      |value w - gridPosition a z| < |value a.scale| * (1 + 1 / 10 ^ 6) := by
  obtain ⟨hd, hq⟩ := quantize_finite ha hw h
  rw [quantize_eq a w hq] at h
  split at h
  case isFalse => cases h
  rename_i hr
  injection h with h
  rw [h] at hr
  refine ⟨hr, ?_⟩
  obtain ⟨D, e1, e2⟩ := quotient_error ha hw hd hq
  generalize hQ : value ((w.sub a.offset).div a.scale) = Q at *
  obtain ⟨t1, t2⟩ := trunc_abs Q
  rw [h] at t1 t2
  have h0 := ha.2.2
  have hs0 : 0 < |value a.scale| := abs_pos.2 h0
  have key : |(value w - value a.offset) / value a.scale - z| < 1 + 1 / 10 ^ 6 := by
    generalize (value w - value a.offset) / value a.scale = X at *
    have hz : |(z : ℚ)| ≤ 2 ^ 31 := by
      rw [abs_le]
      constructor
      · exact_mod_cast hr.1
      · have : z ≤ 2 ^ 31 := by omega
        exact_mod_cast this
    have hQz : |Q| ≤ 2 ^ 31 + 1 := by
      have := abs_sub_abs_le_abs_sub Q z
      rw [abs_sub_comm] at this
      linarith
    have hD : |D| ≤ 2 ^ 31 + 2 := by
      have h1 := abs_sub_abs_le_abs_sub D Q
      rw [abs_sub_comm] at h1
      have h2 := abs_nonneg D
      norm_num at e2 hQz ⊢
      linarith
    have hX : |X| ≤ 2 ^ 31 + 3 := by
      have h1 := abs_sub_abs_le_abs_sub X D
      rw [abs_sub_comm] at h1
      have h2 := abs_nonneg X
      norm_num at e1 hD ⊢
      linarith
    have tri : |X - z| ≤ |D - X| + |Q - D| + |(z : ℚ) - Q| := by
      have h1 := abs_sub_le X D z
      have h2 := abs_sub_le D Q z
      rw [abs_sub_comm X D, ] at h1
      rw [abs_sub_comm D Q, abs_sub_comm Q z] at h2
      linarith
    norm_num at e1 e2 hD hX ⊢
    linarith
  have e : value w - gridPosition a z = ((value w - value a.offset) / value a.scale - z) * value a.scale := by
    unfold gridPosition
    field_simp
    ring
  rw [e, abs_mul, mul_comm]
  exact mul_lt_mul_of_pos_left key hs0

/-- **C37**: a position whose distance from the offset is more than 2^31 + 1 scale steps is refused. -/
theorem C37_out_of_range (a : Axis) (ha : FiniteAxis a) (w : F64) (hw : w.isFinite = true)
    (h : (2 ^ 31 + 2) * |value a.scale| ≤ |value w - value a.offset|) : quantize a w = panicked := by
  by_contra hc
  obtain ⟨z, hz⟩ : ∃ z, quantize a w = .ok z := by
    unfold quantize at hc ⊢
    dsimp only at hc ⊢
    split at hc
    · rename_i h; exact ⟨_, if_pos h⟩
    · exact absurd rfl hc
  obtain ⟨h1, h2⟩ := C37_error_partial a ha w hw z hz
  have hs0 : 0 < |value a.scale| := abs_pos.2 ha.2.2
  have hz : |(z : ℚ)| ≤ 2 ^ 31 := by
    rw [abs_le]
    constructor
    · exact_mod_cast h1.1
    · have : z ≤ 2 ^ 31 := by omega
      exact_mod_cast this
  have e : value w - value a.offset = (value w - gridPosition a z) + z * value a.scale := by
    unfold gridPosition; ring
  have h3 : |value w - value a.offset| ≤ |value w - gridPosition a z| + |(z : ℚ)| * |value a.scale| := by
    rw [e, ← abs_mul]; exact abs_add_le _ _
  nlinarith

/-- **C37**: infinite positions are refused. -/
theorem C37_infinite (a : Axis) (ha : FiniteAxis a) (w : F64) (hw : w.isInf = true) :
    quantize a w = panicked := by
  have hn : w.isNaN = false := by
    unfold Flt.isInf at hw
    unfold Flt.isNaN
    simp only [decide_eq_false_iff_not, decide_eq_true_eq] at *
    omega
  have ho := Flt.finite_cases ha.2.1
  have hs : w.sub a.offset = w := by
    unfold Flt.sub Flt.add
    have h1 : (Flt.negate a.offset).isNaN = false := ho.1
    have h2 : (Flt.negate a.offset).isInf = false := ho.2
    rw [hn, h1, hw, h2]
    simp
  have hwf : w.isFinite = false := by
    unfold Flt.isInf at hw
    unfold Flt.isFinite
    simp only [decide_eq_false_iff_not, decide_eq_true_eq] at *
    omega
  obtain ⟨h1, h2⟩ := div_not_nan hn ha.1 ha.2.2
  apply quantize_not_finite
  · rw [hs]; exact h1
  · rw [hs]; exact h2 hwf

/-- **C37 violated**: a position that is not a number is not refused but stored as 0, that is, at the
    offset. -/
theorem C37_nan_violated (a : Axis) (w : F64) (hw : w.isNaN = true) : quantize a w = .ok 0 := by
  unfold quantize
  have h1 : w.sub a.offset = Flt.nan .f64 := by
    unfold Flt.sub Flt.add; rw [if_pos (Or.inl hw)]
  have h2 : (Flt.nan .f64).div a.scale = Flt.nan .f64 := by
    unfold Flt.div; rw [if_pos (Or.inl (by decide +kernel))]
  rw [h1, h2]
  have h3 : (Flt.nan .f64).toIntSat (-2 ^ 63) (2 ^ 63 - 1) = 0 := by
    unfold Flt.toIntSat; rw [if_pos (by decide +kernel)]
  rw [h3]
  rfl

/-- 0.7 as both scale and offset. -/
def axis07 : Axis := ⟨.ofBits .f64 0x3fe6666666666666, .ofBits .f64 0x3fe6666666666666⟩

/-- **C37 violated**: the error can be a full scale step. With scale and offset 0.7 the position 2.8
    (four times the float 0.7, so exactly the position of the coordinate 3) is stored as 2. -/
theorem C37_error_violated :
    FiniteAxis axis07 ∧
    ∃ w : F64, w.isFinite = true ∧ value w = gridPosition axis07 3 ∧ quantize axis07 w = .ok 2 ∧
      |value w - gridPosition axis07 2| = |value axis07.scale| := by
  have hs : axis07.scale.sunits = 0x16666666666666 * 2 ^ 1021 := by decide +kernel
  have hw : (Flt.ofBits .f64 0x4006666666666666).sunits = 4 * axis07.scale.sunits := by decide +kernel
  have ho : axis07.offset = axis07.scale := rfl
  have hone : (0 : ℚ) < FloatFormat.f64.one := by exact_mod_cast FloatFormat.f64.one_pos
  have hs0 : value axis07.scale ≠ 0 := by
    rw [value_eq usable_f64, hs]
    push_cast
    positivity
  have hv : value (Flt.ofBits .f64 0x4006666666666666) = 4 * value axis07.scale := by
    rw [value_eq usable_f64, value_eq usable_f64, hw]; push_cast; ring
  refine ⟨⟨by decide +kernel, by decide +kernel, hs0⟩, Flt.ofBits .f64 0x4006666666666666, by decide +kernel,
    ?_, by decide +kernel, ?_⟩
  · rw [hv]; unfold gridPosition; rw [ho]
    generalize value axis07.scale = x
    push_cast; ring
  · rw [hv]
    unfold gridPosition
    rw [ho]
    have e : ∀ x : ℚ, 4 * x - (((2 : Int) : ℚ) * x + x) = x := by intro x; push_cast; ring
    rw [e]

/-- 0.01 as scale and 0 as offset. -/
def axis001 : Axis := ⟨.ofBits .f64 0x3f847ae147ae147b, .zero .f64⟩

/-- **C37 violated**: reading a position and writing it again with the same scale and offset changes the
    stored integer. With scale 0.01 and offset 0 the coordinate 29 becomes 28. -/
theorem C37_same_integers_violated : quantize axis001 (dequantize axis001 29) = .ok 28 := by
  decide +kernel

/-- The position the reader computes for the coordinate `z` is within 3/8 of a scale step of the exact one. -/
theorem C37_read (a : Axis) (ha : OrdinaryAxis a) (z : Int) (hz : -2 ^ 31 ≤ z ∧ z < 2 ^ 31) :
    (dequantize a z).isFinite = true ∧ |value (dequantize a z) - gridPosition a z| ≤ 3 / 8 * |value a.scale| := by
  obtain ⟨hfin, hsc, hof⟩ := ha
  obtain ⟨hs, ho, h0⟩ := hfin
  have hs0 : 0 < |value a.scale| := abs_pos.2 h0
  have hz1 : |(z : ℚ)| ≤ 2 ^ 31 := by
    rw [abs_le]
    constructor
    · exact_mod_cast hz.1
    · have : z ≤ 2 ^ 31 := by omega
      exact_mod_cast this
  have hone : (0 : ℚ) < FloatFormat.f64.one := by exact_mod_cast FloatFormat.f64.one_pos
  obtain ⟨i1, i2⟩ := ofInt_exact usable_f64 (n := z) (by show z.natAbs ≤ 2 ^ 53; omega)
  have i3 : value (Flt.ofInt .f64 z) = z := by
    rw [value_eq usable_f64, i2]; push_cast; field_simp
  -- the product
  have r1 := Flt.mul_rounds usable_f64 (Flt.ofInt .f64 z) a.scale i1 hs
  rw [i3] at r1
  have big : ∀ (x : ℚ) (k : ℕ), k ≤ 60 → |x| ≤ 2 ^ k * |value a.scale| → |x| ≤ 2 ^ 1000 := by
    intro x k hk hx
    calc |x| ≤ 2 ^ k * |value a.scale| := hx
      _ ≤ 2 ^ 60 * 2 ^ 900 := mul_le_mul (pow_le_pow_right₀ (by norm_num) hk) hsc (abs_nonneg _) (by positivity)
      _ = 2 ^ 960 := by rw [← pow_add]
      _ ≤ 2 ^ 1000 := pow_le_pow_right₀ (by norm_num) (by omega)
  have f1 := not_overflow r1 (big _ 31 (by omega) (by
    rw [abs_mul]; exact mul_le_mul_of_nonneg_right hz1 hs0.le))
  have e1 := rounds_error_units usable_f64 r1 f1 (k := z * a.scale.sunits) (by
    rw [value_eq usable_f64]; push_cast; ring)
  -- all quantities in scale steps
  obtain ⟨M, hM⟩ : ∃ M, value ((Flt.ofInt .f64 z).mul a.scale) = M * value a.scale :=
    ⟨_, (div_mul_cancel₀ _ h0).symm⟩
  obtain ⟨O, hO⟩ : ∃ O, value a.offset = O * value a.scale := ⟨_, (div_mul_cancel₀ _ h0).symm⟩
  have bO : |O| ≤ 2 ^ 50 := by
    rw [hO, abs_mul] at hof
    exact le_of_mul_le_mul_right hof hs0
  rw [hM, f64_pow, ← sub_mul, abs_mul, abs_mul, mul_div_right_comm] at e1
  have e1 := le_of_mul_le_mul_right e1 hs0
  have bM : |M| ≤ 2 ^ 31 + 1 := by
    have h1 := abs_sub_abs_le_abs_sub M z
    rw [abs_sub_comm] at h1
    norm_num at *
    linarith
  -- the sum
  have r2 := Flt.add_rounds usable_f64 _ a.offset f1 ho
  have bMO : |M + O| ≤ 2 ^ 51 := by
    have := abs_add_le M O
    norm_num at *
    linarith
  have s2 : value ((Flt.ofInt .f64 z).mul a.scale) + value a.offset = (M + O) * value a.scale := by
    rw [hM, hO]; ring
  have f2 := not_overflow r2 (big _ 51 (by omega) (by
    rw [s2, abs_mul]; exact mul_le_mul_of_nonneg_right bMO hs0.le))
  have e2 := rounds_error_units usable_f64 r2 f2
    (k := ((Flt.ofInt .f64 z).mul a.scale).sunits + a.offset.sunits) (by
      rw [value_eq usable_f64, value_eq usable_f64]; push_cast; ring)
  rw [s2] at e2
  change |(M + O) * value a.scale - value (dequantize a z)| ≤ _ at e2
  change (dequantize a z).isFinite = true at f2
  generalize dequantize a z = w at *
  obtain ⟨P, hP⟩ : ∃ P, value w = P * value a.scale := ⟨_, (div_mul_cancel₀ _ h0).symm⟩
  rw [hP, f64_pow, ← sub_mul, abs_mul, abs_mul, mul_div_right_comm] at e2
  have e2 := le_of_mul_le_mul_right e2 hs0
  have bP : |P - O - z| ≤ 3 / 8 := by
    have h1 : P - O - z = -(M + O - P) + -(z - M) := by ring
    have h2 := abs_add_le (-(M + O - P)) (-(z - M))
    rw [abs_neg, abs_neg, ← h1] at h2
    norm_num at *
    linarith
  refine ⟨f2, ?_⟩
  have : value w - gridPosition a z = (P - O - z) * value a.scale := by
    unfold gridPosition
    rw [hP, hO]
    ring
  rw [this, abs_mul]
  exact mul_le_mul_of_nonneg_right bP hs0.le

/-- **C37 in part**: reading a position and writing it again moves the stored integer by at most one.
    Missing: that it stays the same (`C37_same_integers_violated`). -/
theorem C37_drift_partial (a : Axis) (ha : OrdinaryAxis a) (z : Int) (hz : -2 ^ 31 ≤ z ∧ z < 2 ^ 31) :
    ∃ z', quantize a (dequantize a z) = .ok z' ∧ |z' - z| ≤ 1 := by
  obtain ⟨hfin, hsc, hof⟩ := ha
  obtain ⟨hs, ho, h0⟩ := hfin
  have hs0 : 0 < |value a.scale| := abs_pos.2 h0
  have hz1 : |(z : ℚ)| ≤ 2 ^ 31 := by
    rw [abs_le]
    constructor
    · exact_mod_cast hz.1
    · have : z ≤ 2 ^ 31 := by omega
      exact_mod_cast this
  have hone : (0 : ℚ) < FloatFormat.f64.one := by exact_mod_cast FloatFormat.f64.one_pos
  obtain ⟨i1, i2⟩ := ofInt_exact usable_f64 (n := z) (by show z.natAbs ≤ 2 ^ 53; omega)
  have i3 : value (Flt.ofInt .f64 z) = z := by
    rw [value_eq usable_f64, i2]; push_cast; field_simp
  -- the product
  have r1 := Flt.mul_rounds usable_f64 (Flt.ofInt .f64 z) a.scale i1 hs
  rw [i3] at r1
  have big : ∀ (x : ℚ) (k : ℕ), k ≤ 60 → |x| ≤ 2 ^ k * |value a.scale| → |x| ≤ 2 ^ 1000 := by
    intro x k hk hx
    calc |x| ≤ 2 ^ k * |value a.scale| := hx
      _ ≤ 2 ^ 60 * 2 ^ 900 := mul_le_mul (pow_le_pow_right₀ (by norm_num) hk) hsc (abs_nonneg _) (by positivity)
      _ = 2 ^ 960 := by rw [← pow_add]
      _ ≤ 2 ^ 1000 := pow_le_pow_right₀ (by norm_num) (by omega)
  have f1 := not_overflow r1 (big _ 31 (by omega) (by
    rw [abs_mul]; exact mul_le_mul_of_nonneg_right hz1 hs0.le))
  have e1 := rounds_error_units usable_f64 r1 f1 (k := z * a.scale.sunits) (by
    rw [value_eq usable_f64]; push_cast; ring)
  -- all quantities in scale steps
  obtain ⟨M, hM⟩ : ∃ M, value ((Flt.ofInt .f64 z).mul a.scale) = M * value a.scale :=
    ⟨_, (div_mul_cancel₀ _ h0).symm⟩
  obtain ⟨O, hO⟩ : ∃ O, value a.offset = O * value a.scale := ⟨_, (div_mul_cancel₀ _ h0).symm⟩
  have bO : |O| ≤ 2 ^ 50 := by
    rw [hO, abs_mul] at hof
    exact le_of_mul_le_mul_right hof hs0
  rw [hM, f64_pow, ← sub_mul, abs_mul, abs_mul, mul_div_right_comm] at e1
  have e1 := le_of_mul_le_mul_right e1 hs0
  have bM : |M| ≤ 2 ^ 31 + 1 := by
    have h1 := abs_sub_abs_le_abs_sub M z
    rw [abs_sub_comm] at h1
    norm_num at *
    linarith
  -- the sum
  have r2 := Flt.add_rounds usable_f64 _ a.offset f1 ho
  have bMO : |M + O| ≤ 2 ^ 51 := by
    have := abs_add_le M O
    norm_num at *
    linarith
  have s2 : value ((Flt.ofInt .f64 z).mul a.scale) + value a.offset = (M + O) * value a.scale := by
    rw [hM, hO]; ring
  have f2 := not_overflow r2 (big _ 51 (by omega) (by
    rw [s2, abs_mul]; exact mul_le_mul_of_nonneg_right bMO hs0.le))
  have e2 := rounds_error_units usable_f64 r2 f2
    (k := ((Flt.ofInt .f64 z).mul a.scale).sunits + a.offset.sunits) (by
      rw [value_eq usable_f64, value_eq usable_f64]; push_cast; ring)
  rw [s2] at e2
  change |(M + O) * value a.scale - value (dequantize a z)| ≤ _ at e2
  change (dequantize a z).isFinite = true at f2
  generalize dequantize a z = w at *
  obtain ⟨P, hP⟩ : ∃ P, value w = P * value a.scale := ⟨_, (div_mul_cancel₀ _ h0).symm⟩
  rw [hP, f64_pow, ← sub_mul, abs_mul, abs_mul, mul_div_right_comm] at e2
  have e2 := le_of_mul_le_mul_right e2 hs0
  have bP : |P - O - z| ≤ 3 / 8 := by
    have h1 : P - O - z = -(M + O - P) + -(z - M) := by ring
    have h2 := abs_add_le (-(M + O - P)) (-(z - M))
    rw [abs_neg, abs_neg, ← h1] at h2
    norm_num at *
    linarith
  have bPO : |P - O| ≤ 2 ^ 31 + 1 := by
    have h1 := abs_sub_abs_le_abs_sub (P - O) z
    norm_num at *
    linarith
  -- back
  have r3 := Flt.sub_rounds usable_f64 w a.offset f2 ho
  have f3 := not_overflow r3 (big _ 32 (by omega) (by
    rw [hP, hO, ← sub_mul, abs_mul]
    refine mul_le_mul_of_nonneg_right ?_ hs0.le
    norm_num at *
    linarith))
  have r4 := Flt.div_rounds usable_f64 (w.sub a.offset) a.scale f3 hs h0
  have X : (value w - value a.offset) / value a.scale = P - O := by
    rw [hP, hO, ← sub_mul, mul_div_assoc, div_self h0, mul_one]
  have bD : |value (w.sub a.offset) / value a.scale| ≤ 2 ^ 32 := by
    have e3 := rounds_error_units usable_f64 r3 f3 (k := w.sunits - a.offset.sunits) (by
      rw [value_eq usable_f64, value_eq usable_f64]; push_cast; ring)
    have e3' : |P - O - value (w.sub a.offset) / value a.scale| ≤ |P - O| / 2 ^ 53 := by
      rw [f64_pow] at e3
      have := div_le_div_of_nonneg_right e3 hs0.le
      rw [← abs_div, sub_div, X, div_div, mul_comm, ← div_div, ← abs_div, X] at this
      exact this
    have h1 := abs_sub_abs_le_abs_sub (value (w.sub a.offset) / value a.scale) (P - O)
    rw [abs_sub_comm _ (P - O)] at h1
    norm_num only at e3' bPO ⊢
    linarith
  have f4 := not_overflow r4 (le_trans bD (pow_le_pow_right₀ (by norm_num) (by omega)))
  obtain ⟨D, d1, d2⟩ := quotient_error ⟨hs, ho, h0⟩ f2 f3 f4
  rw [X] at d1
  rw [quantize_eq a w f4]
  generalize value ((w.sub a.offset).div a.scale) = Q at *
  have bQ : |Q - z| ≤ 1 / 2 := by
    have hD : |D| ≤ 2 ^ 31 + 2 := by
      have h1 := abs_sub_abs_le_abs_sub D (P - O)
      norm_num at *
      linarith
    have h1 := abs_add_le (Q - D) (D - (P - O))
    have h2 := abs_add_le (Q - D + (D - (P - O))) (P - O - z)
    rw [show Q - D + (D - (P - O)) + (P - O - z) = Q - z by ring] at h2
    norm_num at *
    linarith
  obtain ⟨t1, t2⟩ := trunc_abs Q
  generalize trunc Q = t at *
  have hdiff : |t - z| ≤ 1 := by
    have h1 := abs_add_le ((t : ℚ) - Q) (Q - z)
    rw [sub_add_sub_cancel] at h1
    have h2 : ((|t - z| : Int) : ℚ) < 2 := by
      push_cast
      linarith
    have : |t - z| < 2 := by exact_mod_cast h2
    omega
  have hrange : -2 ^ 31 ≤ t ∧ t < 2 ^ 31 := by
    rw [abs_le] at bQ
    have hzl : (-2 ^ 31 : ℚ) ≤ z := by exact_mod_cast hz.1
    have hzu : (z : ℚ) ≤ 2 ^ 31 - 1 := by
      have : z ≤ 2 ^ 31 - 1 := by omega
      exact_mod_cast this
    have hQ : |Q| ≤ 2 ^ 31 + 1 / 2 := by
      rw [abs_le]; constructor <;> linarith [bQ.1, bQ.2]
    have ht : |(t : ℚ)| < 2 ^ 31 + 1 := by linarith
    rw [abs_lt] at ht
    have h1 : -(2 ^ 31 + 1) < t := by exact_mod_cast ht.1
    refine ⟨by omega, ?_⟩
    by_contra hc
    have h2 : (2 ^ 31 : Int) ≤ t := by omega
    have h3 : (2 ^ 31 : ℚ) ≤ t := by exact_mod_cast h2
    have h4 : (t : ℚ) ≤ Q := by
      rcases le_total 0 Q with hq | hq
      · rw [abs_of_nonneg hq] at t2
        exact le_trans (le_abs_self _) t2
      · have := bQ.2
        rw [abs_of_nonpos hq, abs_of_nonneg (by linarith)] at t2
        rw [abs_lt] at t1
        linarith [t1.1, t1.2]
    linarith [bQ.2]
  exact ⟨t, if_pos hrange, hdiff⟩

/-- **C37 in part**: reading and writing again keeps the integer if the arithmetic of the grid is exact,
    that is if `z` steps and the position of `z` are floats, as with offset 0 and a power of two as
    scale. -/
theorem C37_same_integers_partial (a : Axis) (ha : OrdinaryAxis a) (z : Int) (hz : -2 ^ 31 ≤ z ∧ z < 2 ^ 31)
    (steps pos : F64) (h1 : steps.isFinite = true) (h2 : pos.isFinite = true)
    (hsteps : value steps = z * value a.scale) (hpos : value pos = gridPosition a z) :
    quantize a (dequantize a z) = .ok z := by
  obtain ⟨⟨hs, ho, h0⟩, hsc, hof⟩ := ha
  have hs0 : 0 < |value a.scale| := abs_pos.2 h0
  have hz1 : |(z : ℚ)| ≤ 2 ^ 31 := by
    rw [abs_le]
    constructor
    · exact_mod_cast hz.1
    · have : z ≤ 2 ^ 31 := by omega
      exact_mod_cast this
  have big : ∀ (x : ℚ), |x| ≤ 2 ^ 51 * |value a.scale| → |x| ≤ 2 ^ 1000 := by
    intro x hx
    calc |x| ≤ 2 ^ 51 * |value a.scale| := hx
      _ ≤ 2 ^ 51 * 2 ^ 900 := mul_le_mul_of_nonneg_left hsc (by positivity)
      _ = 2 ^ 951 := by rw [← pow_add]
      _ ≤ 2 ^ 1000 := pow_le_pow_right₀ (by norm_num) (by omega)
  have bs : |z * value a.scale| ≤ 2 ^ 31 * |value a.scale| := by
    rw [abs_mul]; exact mul_le_mul_of_nonneg_right hz1 hs0.le
  have bsum : |z * value a.scale + value a.offset| ≤ 2 ^ 51 * |value a.scale| := by
    have := abs_add_le (z * value a.scale) (value a.offset)
    norm_num only at bs hof ⊢
    linarith
  have bs' : |z * value a.scale| ≤ 2 ^ 51 * |value a.scale| := by
    norm_num only at bs ⊢
    linarith
  have hone : (0 : ℚ) < FloatFormat.f64.one := by exact_mod_cast FloatFormat.f64.one_pos
  obtain ⟨i1, i2⟩ := ofInt_exact usable_f64 (n := z) (by show z.natAbs ≤ 2 ^ 53; omega)
  have i3 : value (Flt.ofInt .f64 z) = z := by
    rw [value_eq usable_f64, i2]; push_cast; field_simp
  have r1 := Flt.mul_rounds usable_f64 (Flt.ofInt .f64 z) a.scale i1 hs
  rw [i3] at r1
  have hfin := not_overflow r1 (big _ bs')
  have v1 := rounds_exact r1 hfin h1 hsteps
  have r2 := Flt.add_rounds usable_f64 _ a.offset hfin ho
  rw [v1] at r2
  have hfin2 : (dequantize a z).isFinite = true := not_overflow r2 (big _ bsum)
  have v2 : value (dequantize a z) = _ := rounds_exact r2 hfin2 h2 hpos
  have r3 := Flt.sub_rounds usable_f64 (dequantize a z) a.offset hfin2 ho
  rw [v2, add_sub_cancel_right] at r3
  have hfin3 := not_overflow r3 (big _ bs')
  have v3 := rounds_exact r3 hfin3 h1 hsteps
  have r4 := Flt.div_rounds usable_f64 _ a.scale hfin3 hs h0
  rw [v3, mul_div_assoc, div_self h0, mul_one] at r4
  have f4 := not_overflow r4 (le_trans hz1 (pow_le_pow_right₀ (by norm_num) (by omega)))
  have v4 := rounds_exact r4 f4 i1 i3
  rw [quantize_eq a _ f4, v4]
  have ht : trunc (z : ℚ) = z := by unfold trunc; simp
  rw [ht, if_pos hz]

/-- Non-vacuity: an axis with scale 0.01 and offset 0 is ordinary, and 29 is a coordinate. -/
example : OrdinaryAxis axis001 := by
  have hs : axis001.scale.sunits = 0x147ae147ae147b * 2 ^ 1015 := by decide +kernel
  have ho : axis001.offset.sunits = 0 := by decide +kernel
  have hone : (0 : ℚ) < FloatFormat.f64.one := by exact_mod_cast FloatFormat.f64.one_pos
  have hv : value axis001.scale ≠ 0 := by
    rw [value_eq usable_f64, hs]; push_cast; positivity
  refine ⟨⟨by decide +kernel, by decide +kernel, hv⟩, ?_, ?_⟩
  · have hlt : (axis001.scale.sunits : ℚ) ≤ FloatFormat.f64.one := by
      have : axis001.scale.sunits ≤ (FloatFormat.f64.one : Int) := by decide +kernel
      exact_mod_cast this
    rw [value_eq usable_f64, abs_of_nonneg (div_nonneg (by rw [hs]; positivity) hone.le)]
    calc (axis001.scale.sunits : ℚ) / FloatFormat.f64.one ≤ 1 := by rw [div_le_one hone]; exact hlt
      _ ≤ 2 ^ 900 := one_le_pow₀ (by norm_num)
  · rw [value_eq usable_f64 axis001.offset, ho]
    simp

/-- Non-vacuity: with scale 0.25 and offset 100 the coordinate 7 comes back. -/
example : quantize ⟨.ofBits .f64 0x3fd0000000000000, .ofBits .f64 0x4059000000000000⟩
    (dequantize ⟨.ofBits .f64 0x3fd0000000000000, .ofBits .f64 0x4059000000000000⟩ 7) = .ok 7 := by
  decide +kernel

end Pasture.Props
