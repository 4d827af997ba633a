import Verif.Lemmas.CentroidError
import Verif.Lemmas.FloatOrder
import Verif.Spec.Boxes

/-!
# Lemmas on the arithmetic of bounding boxes
-/

namespace Pasture.Boxes

open Spec Spec.Boxes Flt FloatFormat

/-! ## Halves -/

/-- Half of an integer is a float. -/
theorem half_exact {q : ℚ} {y : F64} {n : Int} (h : RoundsTo q y) (hq : q = n / 2) (hn : |n| ≤ 2 ^ 53) :
    y.isFinite = true ∧ value y = n / 2 := by
  have hF := usable_f64
  have hb : n.natAbs ≤ 2 ^ 53 := by rw [Int.abs_eq_natAbs] at hn; omega
  have hsmall : |q| ≤ 2 ^ 53 := by
    have : |(n : ℚ)| ≤ 2 ^ 53 := by exact_mod_cast hn
    rw [hq, abs_div, abs_of_pos (by norm_num : (0 : ℚ) < 2)]
    have := abs_nonneg (n : ℚ)
    linarith
  have hf := finite_of_small h hsmall
  refine ⟨hf, ?_⟩
  obtain ⟨k, hk⟩ := exists_units .f64 1073 n.natAbs hb
  have hfin : k < FloatFormat.f64.infMag := by
    apply units_lt_inf
    rw [hk]
    calc n.natAbs * 2 ^ 1073 ≤ 2 ^ 53 * 2 ^ 1073 := Nat.mul_le_mul_right _ hb
      _ < FloatFormat.f64.units FloatFormat.f64.infMag := by decide +kernel
  have hz : (⟨decide (n < 0), k⟩ : F64).isFinite = true := decide_eq_true hfin
  have hv : value (⟨decide (n < 0), k⟩ : F64) = q := by
    rw [Pasture.value_eq hF, hq]
    have h1 : (⟨decide (n < 0), k⟩ : F64).sunits = n * 2 ^ 1073 := by
      unfold Flt.sunits
      dsimp only
      rw [hk]
      split
      · rename_i hc
        have hc := of_decide_eq_true hc
        push_cast
        rw [abs_of_neg hc]
        ring
      · rename_i hc
        have hc : ¬ n < 0 := fun h => hc (decide_eq_true h)
        push_cast
        rw [abs_of_nonneg (by omega)]
    rw [h1]
    have h2 : (FloatFormat.f64.one : ℚ) = 2 ^ 1073 * 2 := by
      have : FloatFormat.f64.one = 2 ^ 1073 * 2 := by decide +kernel
      rw [this]
      push_cast
      rfl
    rw [h2]
    push_cast
    have h3 : (2 : ℚ) ^ 1073 ≠ 0 := by positivity
    generalize (2 : ℚ) ^ 1073 = t at h3 ⊢
    field_simp
  rw [rounds_exact h hf hz hv, hq]

theorem value_two : value (Flt.ofInt .f64 2) = 2 := by
  have := (whole_of_int (z := 2) (by decide)).value_eq
  exact_mod_cast this

theorem two_finite : (Flt.ofInt .f64 2).isFinite = true := (whole_of_int (z := 2) (by decide)).finite

theorem value_half : value (Flt.div (Flt.ofInt .f64 1) (Flt.ofInt .f64 2)) = 1 / 2 := by
  have h := div_rounds usable_f64 (Flt.ofInt .f64 1) (Flt.ofInt .f64 2)
    (whole_of_int (z := 1) (by decide)).finite two_finite (by rw [value_two]; norm_num)
  have e : value (Flt.ofInt .f64 1) = 1 := by
    have := (whole_of_int (z := 1) (by decide)).value_eq
    exact_mod_cast this
  rw [value_two, e] at h
  have := (half_exact h (n := 1) (by norm_num) (by decide)).2
  rw [this]
  norm_num

theorem half_finite : (Flt.div (Flt.ofInt .f64 1) (Flt.ofInt .f64 2)).isFinite = true := by decide +kernel

theorem div_two {x : F64} (hx : x.isFinite = true) : RoundsTo (value x / 2) (x.div (Flt.ofInt .f64 2)) := by
  have := div_rounds usable_f64 x (Flt.ofInt .f64 2) hx two_finite (by rw [value_two]; norm_num)
  rwa [value_two] at this

theorem mul_half {x : F64} (hx : x.isFinite = true) :
    RoundsTo (value x / 2) (x.mul (Flt.div (Flt.ofInt .f64 1) (Flt.ofInt .f64 2))) := by
  have := mul_rounds usable_f64 x _ hx half_finite
  rwa [value_half, mul_one_div] at this

/-! ## Errors -/

theorem rounds_close {q : ℚ} {y : F64} (h : RoundsTo q y) (hq : |q| ≤ 2 ^ 1000) :
    y.isFinite = true ∧ |value y - q| ≤ |q| / 2 ^ 53 + 1 / 2 ^ 1075 := by
  have hf := finite_of_bounded h hq
  refine ⟨hf, ?_⟩
  rw [abs_sub_comm]
  have h0 : 0 ≤ |q| / 2 ^ 53 := by positivity
  rcases rounds_error usable_f64 h hf with h | h
  · exact h.trans (le_add_of_nonneg_right (by positivity))
  · refine h.trans ?_
    have : (2 * FloatFormat.f64.one : ℚ) = 2 ^ 1075 := by
      have : 2 * FloatFormat.f64.one = 2 ^ 1075 := by decide +kernel
      exact_mod_cast this
    rw [this]
    exact le_add_of_nonneg_left h0

/-- Half of a rounded sum or difference. -/
theorem halved_error {M q : ℚ} {s y : F64} (hM : 0 ≤ M) (hM' : M ≤ 2 ^ 998) (hq : |q| ≤ 2 * M)
    (hs : |value s - q| ≤ |q| / 2 ^ 53) (hy : RoundsTo (value s / 2) y) :
    y.isFinite = true ∧ |value y - q / 2| ≤ M / 2 ^ 51 + 1 / 2 ^ 1075 := by
  have h2 : (4 : ℚ) * 2 ^ 998 = 2 ^ 1000 := by rw [show (1000 : Nat) = 998 + 2 from rfl, pow_add]; ring
  have hs1 : |value s| ≤ 2 * M + 2 * M / 2 ^ 53 := by
    have : |value s| ≤ |q| + |value s - q| := by
      have := abs_add_le q (value s - q)
      rwa [add_sub_cancel] at this
    have : |q| / 2 ^ 53 ≤ 2 * M / 2 ^ 53 := by gcongr
    linarith
  have hs2 : |value s / 2| ≤ M + M / 2 ^ 53 := by
    rw [abs_div, abs_of_pos (by norm_num : (0 : ℚ) < 2)]
    linarith
  obtain ⟨y1, y2⟩ := rounds_close hy (by
    generalize (2 : ℚ) ^ 998 = a at hM' h2
    generalize (2 : ℚ) ^ 1000 = b at h2 ⊢
    have : M / 2 ^ 53 ≤ M := div_le_self hM (by norm_num)
    linarith)
  refine ⟨y1, ?_⟩
  generalize (1 : ℚ) / 2 ^ 1075 = t at y2 ⊢
  have h3 : |value y - q / 2| ≤ |value y - value s / 2| + |value s - q| / 2 := by
    have := abs_add_le (value y - value s / 2) ((value s - q) / 2)
    rw [abs_div (value s - q), abs_of_pos (by norm_num : (0 : ℚ) < 2)] at this
    have e : value y - value s / 2 + (value s - q) / 2 = value y - q / 2 := by ring
    rwa [e] at this
  have h4 : |value s / 2| / 2 ^ 53 ≤ (M + M / 2 ^ 53) / 2 ^ 53 := by gcongr
  have h5 : |q| / 2 ^ 53 ≤ 2 * M / 2 ^ 53 := by gcongr
  have h6 : M / 2 ^ 51 = 4 * (M / 2 ^ 53) := by ring
  have h7 : (M + M / 2 ^ 53) / 2 ^ 53 ≤ 2 * (M / 2 ^ 53) := by
    have : M / 2 ^ 53 ≤ M := div_le_self hM (by norm_num)
    have e : 2 * (M / 2 ^ 53) = (M + M) / 2 ^ 53 := by ring
    rw [e]
    gcongr
  have h8 : 0 ≤ M / 2 ^ 53 := by positivity
  have h9 : 2 * M / 2 ^ 53 = 2 * (M / 2 ^ 53) := by ring
  linarith

theorem sub_error {x y : F64} (hx : x.isFinite = true) (hy : y.isFinite = true)
    (h : |value x - value y| ≤ 2 ^ 1000) :
    (Flt.sub x y).isFinite = true ∧ |value (Flt.sub x y) - (value x - value y)| ≤ |value x - value y| / 2 ^ 53 := by
  have := add_error hx (negate_finite hy) (by rwa [value_negate, ← sub_eq_add_neg])
  rwa [value_negate, ← sub_eq_add_neg] at this

variable {lo hi p : F64} {M : ℚ}

theorem doubled {M : ℚ} (hM' : M ≤ 2 ^ 998) : 2 * M ≤ 2 ^ 1000 := by
  have h2 : (4 : ℚ) * 2 ^ 998 = 2 ^ 1000 := by rw [show (1000 : Nat) = 998 + 2 from rfl, pow_add]; ring
  have h3 : (0 : ℚ) ≤ 2 ^ 998 := by positivity
  generalize (2 : ℚ) ^ 998 = a at *
  generalize (2 : ℚ) ^ 1000 = b at *
  linarith

theorem center_error (hl : lo.isFinite = true) (hh : hi.isFinite = true) (hl' : |value lo| ≤ M) (hh' : |value hi| ≤ M)
    (hM : M ≤ 2 ^ 998) : ((lo.add hi).div (Flt.ofInt .f64 2)).isFinite = true ∧
      |value ((lo.add hi).div (Flt.ofInt .f64 2)) - (value lo + value hi) / 2| ≤ M / 2 ^ 51 + 1 / 2 ^ 1075 := by
  have h0 : 0 ≤ M := (abs_nonneg _).trans hl'
  have hq : |value lo + value hi| ≤ 2 * M := (abs_add_le _ _).trans (by linarith)
  obtain ⟨s1, s2⟩ := add_error hl hh (hq.trans (doubled hM))
  exact halved_error h0 hM hq s2 (div_two s1)

theorem side_bound (hl' : |value lo| ≤ M) (hh' : |value hi| ≤ M) : |value hi - value lo| ≤ 2 * M := by
  have := abs_sub (value hi) (value lo)
  exact this.trans (by linarith)

theorem extent_error (hl : lo.isFinite = true) (hh : hi.isFinite = true) (hl' : |value lo| ≤ M) (hh' : |value hi| ≤ M)
    (hM : M ≤ 2 ^ 998) : (hi.sub lo).isFinite = true ∧
      |value (hi.sub lo) - (value hi - value lo)| ≤ |value hi - value lo| / 2 ^ 53 :=
  sub_error hh hl ((side_bound hl' hh').trans (doubled hM))

theorem halfExtent_error (hl : lo.isFinite = true) (hh : hi.isFinite = true) (hl' : |value lo| ≤ M) (hh' : |value hi| ≤ M)
    (hM : M ≤ 2 ^ 998) {y : F64} (hy : RoundsTo (value (hi.sub lo) / 2) y) : y.isFinite = true ∧
      |value y - (value hi - value lo) / 2| ≤ M / 2 ^ 51 + 1 / 2 ^ 1075 :=
  halved_error ((abs_nonneg _).trans hl') hM (side_bound hl' hh') (extent_error hl hh hl' hh' hM).2 hy

theorem tiny_double : (1 : ℚ) / 2 ^ 1074 = 2 * (1 / 2 ^ 1075) := by
  have h : (2 : ℚ) ^ 1075 = 2 ^ 1074 * 2 := pow_succ 2 1074
  rw [h]
  have h0 : (2 : ℚ) ^ 1074 ≠ 0 := by positivity
  generalize (2 : ℚ) ^ 1074 = t at h0 ⊢
  field_simp

/-- One coordinate of the box made from bounds. -/
theorem within_error (hl : lo.isFinite = true) (hh : hi.isFinite = true) (hl' : |value lo| ≤ M) (hh' : |value hi| ≤ M)
    (hM : M ≤ 2 ^ 998) (hp : Between lo hi p) : Within (M / 2 ^ 50 + 1 / 2 ^ 1074)
      ((lo.add hi).div (Flt.ofInt .f64 2)) ((hi.sub lo).mul (Flt.div (Flt.ofInt .f64 1) (Flt.ofInt .f64 2))) p := by
  obtain ⟨_, c⟩ := center_error hl hh hl' hh' hM
  obtain ⟨_, h⟩ := halfExtent_error hl hh hl' hh' hM (mul_half (extent_error hl hh hl' hh' hM).1)
  obtain ⟨p1, p2⟩ := hp
  rw [tiny_double]
  generalize (1 : ℚ) / 2 ^ 1075 = t at *
  have e : M / 2 ^ 50 = 2 * (M / 2 ^ 51) := by ring
  rw [abs_le] at c h
  unfold Within
  constructor <;> linarith [c.1, c.2, h.1, h.2]

theorem sum_half {a b : Int} (hl : Whole lo a) (hh : Whole hi b) (ha : |a| ≤ 2 ^ 52) (hb : |b| ≤ 2 ^ 52) :
    ((lo.add hi).div (Flt.ofInt .f64 2)).isFinite = true ∧
      value ((lo.add hi).div (Flt.ofInt .f64 2)) = ((a + b : Int) : ℚ) / 2 := by
  have hs : |a + b| ≤ 2 ^ 53 := (abs_add_le a b).trans (by omega)
  have w := hl.add hh hs
  have := div_two w.finite
  rw [w.value_eq] at this
  exact half_exact this rfl hs

theorem sub_half {a b : Int} (hl : Whole lo a) (hh : Whole hi b) (ha : |a| ≤ 2 ^ 52) (hb : |b| ≤ 2 ^ 52) {y : F64}
    (hy : RoundsTo (value (hi.sub lo) / 2) y) : y.isFinite = true ∧ value y = ((b - a : Int) : ℚ) / 2 := by
  have hs : |b - a| ≤ 2 ^ 53 := (abs_sub b a).trans (by omega)
  have w := hh.sub hl hs
  rw [w.value_eq] at hy
  exact half_exact hy rfl hs

/-- One coordinate, with whole numbers. -/
theorem within_whole {a b : Int} (hl : Whole lo a) (hh : Whole hi b) (ha : |a| ≤ 2 ^ 52) (hb : |b| ≤ 2 ^ 52) :
    ∀ p, Within 0 ((lo.add hi).div (Flt.ofInt .f64 2)) ((hi.sub lo).mul (Flt.div (Flt.ofInt .f64 1) (Flt.ofInt .f64 2))) p ↔
      Between lo hi p := by
  intro p
  have hs : |b - a| ≤ 2 ^ 53 := (abs_sub b a).trans (by omega)
  unfold Within Between
  rw [(sum_half hl hh ha hb).2, (sub_half hl hh ha hb (mul_half (hh.sub hl hs).finite)).2, hl.value_eq, hh.value_eq]
  push_cast
  constructor
  · rintro ⟨h1, h2⟩; constructor <;> linarith
  · rintro ⟨h1, h2⟩; constructor <;> linarith

/-! ## Cubes -/

theorem ordKey_value {x y : F64} (h : AABB.ordKey x ≤ AABB.ordKey y) : value x ≤ value y := by
  rw [← not_lt, ← rank_lt usable_f64]
  unfold AABB.ordKey at h
  unfold Flt.rank
  split at h <;> split at h <;> simp_all
  all_goals omega

theorem ordMax_spec (x y : F64) : (AABB.ordMax x y = x ∨ AABB.ordMax x y = y) ∧ value x ≤ value (AABB.ordMax x y) ∧
    value y ≤ value (AABB.ordMax x y) := by
  unfold AABB.ordMax
  split
  · exact ⟨.inl rfl, le_refl _, ordKey_value (by omega)⟩
  · exact ⟨.inr rfl, ordKey_value (by omega), le_refl _⟩

/-- The longest side. -/
theorem longest (x y z : F64) : let m := AABB.ordMax x (AABB.ordMax y z)
    (m = x ∨ m = y ∨ m = z) ∧ value x ≤ value m ∧ value y ≤ value m ∧ value z ≤ value m := by
  obtain ⟨a1, a2, a3⟩ := ordMax_spec y z
  obtain ⟨b1, b2, b3⟩ := ordMax_spec x (AABB.ordMax y z)
  refine ⟨?_, b2, a2.trans b3, a3.trans b3⟩
  rcases b1 with b1 | b1
  · exact .inl b1
  · rcases a1 with a1 | a1
    · exact .inr (.inl (b1.trans a1))
    · exact .inr (.inr (b1.trans a1))

/-! ## Approximate comparison -/

theorem lt_false {x y : F64} (h : ¬ value x < value y) : Flt.lt x y = false := by
  rw [← rank_lt usable_f64] at h
  unfold Flt.lt
  simp [h]

/-- Finite numbers are below the threshold. -/
theorem finite_below {e : F64} (he : e.isFinite = true) : |value e| < overflowThreshold .f64 := by
  have hF := usable_f64
  have hone : (0 : ℚ) < FloatFormat.f64.one := by exact_mod_cast FloatFormat.one_pos (F := .f64)
  have hm : e.mag < FloatFormat.f64.infMag := of_decide_eq_true he
  have h1 : FloatFormat.f64.units e.mag ≤ FloatFormat.f64.units (FloatFormat.f64.infMag - 1) :=
    FloatFormat.f64.units_strictMono.monotone (by omega)
  have h2 : FloatFormat.f64.units e.mag < FloatFormat.f64.units FloatFormat.f64.infMag :=
    FloatFormat.f64.units_strictMono hm
  have h1' : (FloatFormat.f64.units e.mag : ℚ) ≤ FloatFormat.f64.units (FloatFormat.f64.infMag - 1) := by exact_mod_cast h1
  have h2' : (FloatFormat.f64.units e.mag : ℚ) < FloatFormat.f64.units FloatFormat.f64.infMag := by exact_mod_cast h2
  have ht := threshold_units hF
  rw [Pasture.value_abs hF, div_lt_iff₀ hone]
  generalize overflowThreshold .f64 * (FloatFormat.f64.one : ℚ) = t at ht ⊢
  generalize (FloatFormat.f64.units FloatFormat.f64.infMag : ℚ) = u at *
  generalize (FloatFormat.f64.units (FloatFormat.f64.infMag - 1) : ℚ) = w at *
  generalize (FloatFormat.f64.units e.mag : ℚ) = v at *
  linarith

/-- A rounded number is not below a float the exact number is not below. -/
theorem rounds_ge {q : ℚ} {y e : F64} (h : RoundsTo q y) (he : e.isFinite = true) (hq : value e ≤ q) : Flt.lt y e = false := by
  rcases finite_or_inf h.not_nan with hf | hi
  · apply lt_false
    intro hlt
    have := h.nearest hf e he
    rw [abs_of_nonneg (by linarith), abs_of_nonneg (by linarith)] at this
    linarith
  · have h1 := h.overflow.1 hi
    by_cases h0 : 0 ≤ q
    · have hs : y.neg = false := by
        have hq0 : q ≠ 0 := by
          rintro rfl
          rw [abs_zero] at h1
          have := finite_below he
          have := abs_nonneg (value e)
          linarith
        by_contra hc
        rw [Bool.not_eq_false] at hc
        have := (h.sign hq0).1 hc
        linarith
      have : e.rank < y.rank := by
        have h1 : e.mag < FloatFormat.f64.infMag := of_decide_eq_true he
        have h2 : y.mag = FloatFormat.f64.infMag := of_decide_eq_true hi
        unfold Flt.rank
        rw [hs]
        cases e.neg <;> simp <;> omega
      unfold Flt.lt
      simp only [Bool.and_eq_false_iff]
      right
      exact decide_eq_false (by omega)
    · exfalso
      have := finite_below he
      rw [abs_of_neg (by linarith)] at h1
      have := neg_abs_le (value e)
      linarith

theorem rounds_le {q : ℚ} {y e : F64} (h : RoundsTo q y) (he : e.isFinite = true) (hq : q ≤ value e) : Flt.lt e y = false := by
  rcases finite_or_inf h.not_nan with hf | hi
  · apply lt_false
    intro hlt
    have := h.nearest hf e he
    rw [abs_of_nonpos (by linarith), abs_of_nonpos (by linarith)] at this
    linarith
  · have h1 := h.overflow.1 hi
    by_cases h0 : q < 0
    · have hs : y.neg = true := (h.sign h0.ne).2 h0
      have : y.rank < e.rank := by
        have h1 : e.mag < FloatFormat.f64.infMag := of_decide_eq_true he
        have h2 : y.mag = FloatFormat.f64.infMag := of_decide_eq_true hi
        unfold Flt.rank
        rw [hs]
        cases e.neg <;> simp <;> omega
      unfold Flt.lt
      simp only [Bool.and_eq_false_iff]
      right
      exact decide_eq_false (by omega)
    · exfalso
      have := finite_below he
      rw [abs_of_nonneg (by linarith)] at h1
      have := le_abs_self (value e)
      linarith

/-- If a rounded difference is not below a number, neither is the exact one, up to its rounding error. -/
theorem difference_ge {x y e : F64} (hx : x.isFinite = true) (hy : y.isFinite = true) (he : e.isFinite = true)
    (h0 : 0 ≤ value e) (h : Flt.lt (x.sub y) e.negate = false) : -(value e * (1 + 1 / 2 ^ 52)) ≤ value x - value y := by
  have hr := sub_rounds usable_f64 x y hx hy
  have hn : value e.negate = -value e := value_negate e
  have hpos : 0 ≤ value e * (1 + 1 / 2 ^ 52) := by positivity
  rcases finite_or_inf hr.not_nan with hf | hi
  · have h1 : -value e ≤ value (x.sub y) := by
      rw [← hn, ← not_lt, ← lt_iff usable_f64 _ _ hf (negate_finite he), h]
      simp
    have h2 := rounds_error_units usable_f64 hr hf (k := x.sunits - y.sunits) (by
      rw [Pasture.value_eq usable_f64, Pasture.value_eq usable_f64]
      push_cast
      ring)
    change |value x - value y - value (x.sub y)| ≤ |value x - value y| / 2 ^ 53 at h2
    generalize value x - value y = d at *
    by_cases hd : 0 ≤ d
    · linarith
    · have ha : |d| = -d := abs_of_neg (by linarith)
      rw [ha, abs_le] at h2
      generalize value (x.sub y) = v at *
      generalize value e = w at *
      have h3 := h2.2
      have h4 := h2.1
      linarith
  · by_cases hd : 0 ≤ value x - value y
    · linarith
    · exfalso
      have hs : (x.sub y).neg = true := (hr.sign (by linarith)).2 (by linarith)
      have h1 : e.mag < FloatFormat.f64.infMag := of_decide_eq_true he
      have h2 : (x.sub y).mag = FloatFormat.f64.infMag := of_decide_eq_true hi
      have h3 : (x.sub y).rank < e.negate.rank := by
        unfold Flt.rank Flt.negate
        rw [hs]
        dsimp only
        cases e.neg <;> simp <;> omega
      unfold Flt.lt at h
      rw [hr.not_nan, (finite_cases (negate_finite he)).1] at h
      simp [h3] at h

theorem difference_le {x y e : F64} (hx : x.isFinite = true) (hy : y.isFinite = true) (he : e.isFinite = true)
    (h0 : 0 ≤ value e) (h : Flt.lt e (x.sub y) = false) : value x - value y ≤ value e * (1 + 1 / 2 ^ 52) := by
  have hr := sub_rounds usable_f64 x y hx hy
  have hpos : 0 ≤ value e * (1 + 1 / 2 ^ 52) := by positivity
  rcases finite_or_inf hr.not_nan with hf | hi
  · have h1 : value (x.sub y) ≤ value e := by
      rw [← not_lt, ← lt_iff usable_f64 _ _ he hf, h]
      simp
    have h2 := rounds_error_units usable_f64 hr hf (k := x.sunits - y.sunits) (by
      rw [Pasture.value_eq usable_f64, Pasture.value_eq usable_f64]
      push_cast
      ring)
    change |value x - value y - value (x.sub y)| ≤ |value x - value y| / 2 ^ 53 at h2
    generalize value x - value y = d at *
    by_cases hd : d ≤ 0
    · linarith
    · have ha : |d| = d := abs_of_pos (by linarith)
      rw [ha, abs_le] at h2
      generalize value (x.sub y) = v at *
      generalize value e = w at *
      have h3 := h2.2
      have h4 := h2.1
      linarith
  · by_cases hd : value x - value y ≤ 0
    · linarith
    · exfalso
      have hs : (x.sub y).neg = false := by
        by_contra hc
        rw [Bool.not_eq_false] at hc
        have := (hr.sign (by linarith)).1 hc
        linarith
      have h1 : e.mag < FloatFormat.f64.infMag := of_decide_eq_true he
      have h2 : (x.sub y).mag = FloatFormat.f64.infMag := of_decide_eq_true hi
      have h3 : e.rank < (x.sub y).rank := by
        unfold Flt.rank
        rw [hs]
        cases e.neg <;> simp <;> omega
      unfold Flt.lt at h
      rw [hr.not_nan, (finite_cases he).1] at h
      simp [h3] at h

/-- A number that is not smaller, infinite or not, does not have a negative difference. -/
theorem not_below {x y e : F64} (h : Flt.le y x = true) (he : Flt.le (Flt.zero .f64) e = true) :
    Flt.lt (x.sub y) e.negate = false := by
  unfold Flt.le at h he
  simp only [Bool.and_eq_true, Bool.not_eq_true', decide_eq_true_eq] at h he
  obtain ⟨⟨hy, hx⟩, hr⟩ := h
  have he2 : e.negate.rank ≤ 0 := by
    have h1 : e.negate.rank = -e.rank := by
      unfold Flt.rank Flt.negate
      cases e.neg <;> simp
    have h2 : (Flt.zero .f64).rank = 0 := by decide
    rw [h1]
    have := he.2
    omega
  suffices hs : (x.sub y).isNaN = true ∨ 0 ≤ (x.sub y).rank by
    unfold Flt.lt
    rcases hs with hs | hs
    · simp [hs]
    · simp only [Bool.and_eq_false_iff]
      right
      exact decide_eq_false (by omega)
  rcases finite_or_inf hy with hf | hi
  · right
    have h1 := sub_rank_mono usable_f64 hf hy hx hr
    have h2 : 0 ≤ (y.sub y).rank := by
      have h3 := sub_rounds usable_f64 y y hf hf
      rw [sub_self] at h3
      have hfin := finite_of_small h3 (by simp)
      have := rounds_exact h3 hfin (z := Flt.zero .f64) (by decide) whole_zero.value_eq
      by_contra hc
      have h4 : (y.sub y).rank < (Flt.zero .f64).rank := by
        rw [show (Flt.zero .f64).rank = 0 by decide]
        omega
      rw [rank_lt usable_f64, this, whole_zero.value_eq] at h4
      simp at h4
    omega
  · have h2 : y.mag = FloatFormat.f64.infMag := of_decide_eq_true hi
    rcases finite_or_inf hx with hxf | hxi
    · have h1 : x.mag < FloatFormat.f64.infMag := of_decide_eq_true hxf
      have hneg : y.neg = true := by
        by_contra hc
        unfold Flt.rank at hr
        rw [Bool.not_eq_true] at hc
        rw [hc] at hr
        cases hxn : x.neg <;> rw [hxn] at hr <;> simp at hr <;> omega
      right
      have hxi' : x.isInf = false := (finite_cases hxf).2
      have hyn : y.negate.isNaN = false := hy
      have hyi : y.negate.isInf = true := hi
      unfold Flt.sub Flt.add
      rw [hx, hyn, hxi', hyi]
      simp only [Bool.false_eq_true, if_false, if_true]
      unfold Flt.negate Flt.rank
      rw [hneg]
      simp
    · have h3 : x.mag = FloatFormat.f64.infMag := of_decide_eq_true hxi
      have hyn : y.negate.isNaN = false := hy
      have hyi : y.negate.isInf = true := hi
      cases hxn : x.neg <;> cases hyn' : y.neg
      · left
        unfold Flt.sub Flt.add
        rw [hx, hyn, hxi, hyi]
        simp [Flt.negate, hxn, hyn']
        decide
      · right
        unfold Flt.sub Flt.add
        rw [hx, hyn, hxi, hyi]
        simp [Flt.negate, hxn, hyn', Flt.rank]
      · exfalso
        unfold Flt.rank at hr
        rw [hxn, hyn', h2, h3] at hr
        exact absurd hr (by decide)
      · left
        unfold Flt.sub Flt.add
        rw [hx, hyn, hxi, hyi]
        simp [Flt.negate, hxn, hyn']
        decide

theorem sub_rank_neg {x y : F64} (hx : x.isNaN = false) (hy : y.isNaN = false) (h : y.rank ≤ x.rank) :
    (y.sub x).isNaN = true ∨ (y.sub x).rank ≤ 0 := by
  rcases finite_or_inf hx with hf | hi
  · right
    have h1 := sub_rank_mono usable_f64 hf hy hx h
    have h2 : (x.sub x).rank ≤ 0 := by
      have h3 := sub_rounds usable_f64 x x hf hf
      rw [sub_self] at h3
      have hfin := finite_of_small h3 (by simp)
      have := rounds_exact h3 hfin (z := Flt.zero .f64) (by decide) whole_zero.value_eq
      by_contra hc
      have h4 : (Flt.zero .f64).rank < (x.sub x).rank := by
        rw [show (Flt.zero .f64).rank = 0 by decide]
        omega
      rw [rank_lt usable_f64, this, whole_zero.value_eq] at h4
      simp at h4
    omega
  · have h2 : x.mag = FloatFormat.f64.infMag := of_decide_eq_true hi
    have hxn : x.negate.isNaN = false := hx
    have hxi : x.negate.isInf = true := hi
    rcases finite_or_inf hy with hyf | hyi
    · have h1 : y.mag < FloatFormat.f64.infMag := of_decide_eq_true hyf
      have hneg : x.neg = false := by
        by_contra hc
        unfold Flt.rank at h
        rw [Bool.not_eq_false] at hc
        rw [hc] at h
        cases hyn : y.neg <;> rw [hyn] at h <;> simp at h <;> omega
      right
      have hyi' : y.isInf = false := (finite_cases hyf).2
      unfold Flt.sub Flt.add
      rw [hy, hxn, hyi', hxi]
      simp only [Bool.false_eq_true, if_false, if_true]
      unfold Flt.negate Flt.rank
      rw [hneg]
      simp
    · have h3 : y.mag = FloatFormat.f64.infMag := of_decide_eq_true hyi
      cases hxn' : x.neg <;> cases hyn' : y.neg
      · left
        unfold Flt.sub Flt.add
        rw [hy, hxn, hyi, hxi]
        simp [Flt.negate, hxn', hyn']
        decide
      · right
        unfold Flt.sub Flt.add
        rw [hy, hxn, hyi, hxi]
        simp [Flt.negate, hxn', hyn', Flt.rank]
      · exfalso
        unfold Flt.rank at h
        rw [hxn', hyn', h2, h3] at h
        exact absurd h (by decide)
      · left
        unfold Flt.sub Flt.add
        rw [hy, hxn, hyi, hxi]
        simp [Flt.negate, hxn', hyn']
        decide

theorem not_above {x y e : F64} (h : Flt.le y x = true) (he : Flt.le (Flt.zero .f64) e = true) :
    Flt.lt e (y.sub x) = false := by
  unfold Flt.le at h he
  simp only [Bool.and_eq_true, Bool.not_eq_true', decide_eq_true_eq] at h he
  have he2 : 0 ≤ e.rank := by
    have h2 : (Flt.zero .f64).rank = 0 := by decide
    have := he.2
    omega
  unfold Flt.lt
  rcases sub_rank_neg h.1.2 h.1.1 h.2 with hs | hs
  · simp [hs]
  · simp only [Bool.and_eq_false_iff]
    right
    exact decide_eq_false (by omega)

/-- One coordinate of a cube: `t` is the longest side. -/
theorem cube_error {t : F64} (hl : lo.isFinite = true) (hh : hi.isFinite = true) (hl' : |value lo| ≤ M) (hh' : |value hi| ≤ M)
    (hM : M ≤ 2 ^ 997) (ht : t.isFinite = true) (ht1 : value (hi.sub lo) ≤ value t) (ht2 : |value t| ≤ 2 * M + 2 * M / 2 ^ 53)
    (hp : Between lo hi p) :
    NearInterval (M / 2 ^ 49 + 1 / 2 ^ 1073) (((lo.add hi).div (Flt.ofInt .f64 2)).sub (t.div (Flt.ofInt .f64 2)))
      (((lo.add hi).div (Flt.ofInt .f64 2)).add (t.div (Flt.ofInt .f64 2))) p := by
  have h0 : 0 ≤ M := (abs_nonneg _).trans hl'
  have h8 : (8 : ℚ) * 2 ^ 997 = 2 ^ 1000 := by rw [show (1000 : Nat) = 997 + 3 from rfl, pow_add]; ring
  have hone : (1 : ℚ) ≤ 2 ^ 997 := one_le_pow₀ (by norm_num)
  have hM8 : M ≤ 2 ^ 998 := hM.trans (pow_le_pow_right₀ (by norm_num) (by norm_num))
  have hτ0 : (0 : ℚ) ≤ 1 / 2 ^ 1075 := by positivity
  have hτ1 : (1 : ℚ) / 2 ^ 1075 ≤ 1 := div_le_self (by norm_num) (one_le_pow₀ (by norm_num))
  obtain ⟨c1, c2⟩ := center_error hl hh hl' hh' hM8
  obtain ⟨s1, s2⟩ := extent_error hl hh hl' hh' hM8
  have hside := side_bound hl' hh'
  have hy := div_two ht
  have hyq : |value t / 2| ≤ M + M / 2 ^ 53 := by
    rw [abs_div, abs_of_pos (by norm_num : (0 : ℚ) < 2)]
    linarith
  have h53 : M / 2 ^ 53 ≤ M := div_le_self h0 (by norm_num)
  obtain ⟨y1, y2⟩ := rounds_close hy (by
    generalize (2 : ℚ) ^ 997 = a at *
    generalize (2 : ℚ) ^ 1000 = b at *
    linarith)
  have hr1 := sub_rounds usable_f64 _ _ c1 y1
  have hr2 := add_rounds usable_f64 _ _ c1 y1
  have hmid : |(value lo + value hi) / 2| ≤ M := by
    rw [abs_div, abs_of_pos (by norm_num : (0 : ℚ) < 2)]
    have := abs_add_le (value lo) (value hi)
    linarith
  have e53 : M / 2 ^ 51 = 4 * (M / 2 ^ 53) := by ring
  have e49 : M / 2 ^ 49 = 16 * (M / 2 ^ 53) := by ring
  have eM : M = 2 ^ 53 * (M / 2 ^ 53) := by ring
  have e1073 : (1 : ℚ) / 2 ^ 1073 = 4 * (1 / 2 ^ 1075) := by
    have h : (2 : ℚ) ^ 1075 = 2 ^ 1073 * 4 := by rw [show (1075 : Nat) = 1073 + 2 from rfl, pow_add]; ring
    rw [h]
    have h0 : (2 : ℚ) ^ 1073 ≠ 0 := by positivity
    generalize (2 : ℚ) ^ 1073 = t at h0 ⊢
    field_simp
  rw [e49, e1073]
  rw [e53] at c2
  have hs3 : |value hi - value lo| / 2 ^ 53 ≤ 2 * (M / 2 ^ 53) := by
    rw [← mul_div_assoc]
    gcongr
  have hy3 : |value t / 2| / 2 ^ 53 ≤ 2 * (M / 2 ^ 53) := by
    rw [← mul_div_assoc]
    gcongr
    linarith
  have hs4 := abs_le.1 (s2.trans hs3)
  have hy4 := abs_le.1 (y2.trans (add_le_add_left hy3 _))
  have hc4 := abs_le.1 c2
  have hm4 := abs_le.1 hmid
  have hq4 := abs_le.1 hyq
  obtain ⟨p1, p2⟩ := hp
  generalize value ((lo.add hi).div (Flt.ofInt .f64 2)) = c at *
  generalize value (t.div (Flt.ofInt .f64 2)) = y at *
  have hd1 : |c - y| ≤ 3 * M + 2 * (1 / 2 ^ 1075) := by
    generalize (1 : ℚ) / 2 ^ 1075 = τ at *
    generalize M / 2 ^ 53 = ε at *
    rw [abs_le]
    constructor <;> linarith [hc4.1, hc4.2, hy4.1, hy4.2, hm4.1, hm4.2, hq4.1, hq4.2]
  have hd2 : |c + y| ≤ 3 * M + 2 * (1 / 2 ^ 1075) := by
    generalize (1 : ℚ) / 2 ^ 1075 = τ at *
    generalize M / 2 ^ 53 = ε at *
    rw [abs_le]
    constructor <;> linarith [hc4.1, hc4.2, hy4.1, hy4.2, hm4.1, hm4.2, hq4.1, hq4.2]
  have hbound : 3 * M + 2 * (1 / 2 ^ 1075) ≤ (2 : ℚ) ^ 1000 := by
    generalize (1 : ℚ) / 2 ^ 1075 = τ at *
    generalize (2 : ℚ) ^ 997 = a at *
    generalize (2 : ℚ) ^ 1000 = b at *
    linarith
  obtain ⟨_, g1⟩ := rounds_close hr1 (hd1.trans hbound)
  obtain ⟨_, g2⟩ := rounds_close hr2 (hd2.trans hbound)
  have k1 : |c - y| / 2 ^ 53 ≤ 3 * (M / 2 ^ 53) + 1 / 2 ^ 1075 := by
    have : (3 * M + 2 * (1 / 2 ^ 1075)) / 2 ^ 53 ≤ 3 * (M / 2 ^ 53) + 1 / 2 ^ 1075 := by
      generalize (1 : ℚ) / 2 ^ 1075 = τ at *
      linarith
    exact (div_le_div_of_nonneg_right hd1 (by positivity)).trans this
  have k2 : |c + y| / 2 ^ 53 ≤ 3 * (M / 2 ^ 53) + 1 / 2 ^ 1075 := by
    have : (3 * M + 2 * (1 / 2 ^ 1075)) / 2 ^ 53 ≤ 3 * (M / 2 ^ 53) + 1 / 2 ^ 1075 := by
      generalize (1 : ℚ) / 2 ^ 1075 = τ at *
      linarith
    exact (div_le_div_of_nonneg_right hd2 (by positivity)).trans this
  have g1' := abs_le.1 (g1.trans (add_le_add_left k1 _))
  have g2' := abs_le.1 (g2.trans (add_le_add_left k2 _))
  unfold NearInterval
  have hε : 0 ≤ M / 2 ^ 53 := by positivity
  generalize (1 : ℚ) / 2 ^ 1075 = τ at *
  generalize M / 2 ^ 53 = ε at *
  constructor <;> linarith [g1'.1, g1'.2, g2'.1, g2'.2, hc4.1, hc4.2, hy4.1, hy4.2, hs4.1, hs4.2]

end Pasture.Boxes
