import Mathlib.Algebra.BigOperators.Group.List.Basic
import Verif.Lemmas.FloatWhole
import Verif.Model.Normals
import Verif.Spec.Normals

/-!
# The rounding error of a mean
-/

namespace Pasture

open Spec Flt

/-- Numbers up to `2^1000` do not overflow. -/
theorem finite_of_bounded {q : ℚ} {y : F64} (h : RoundsTo q y) (hq : |q| ≤ 2 ^ 1000) : y.isFinite = true := by
  have hF := usable_f64
  rcases finite_or_inf h.not_nan with hf | hi
  · exact hf
  · exfalso
    have h1 := h.overflow.1 hi
    have h2 := threshold_units hF
    have hone : (0 : ℚ) < FloatFormat.f64.one := by exact_mod_cast FloatFormat.one_pos (F := .f64)
    have h3 : 2 * (2 ^ 1000 * FloatFormat.f64.one) < FloatFormat.f64.units FloatFormat.f64.infMag := by decide +kernel
    have h3' : (2 : ℚ) * (2 ^ 1000 * FloatFormat.f64.one) < FloatFormat.f64.units FloatFormat.f64.infMag := by
      exact_mod_cast h3
    have h4 : (0 : ℚ) ≤ FloatFormat.f64.units (FloatFormat.f64.infMag - 1) := Nat.cast_nonneg _
    have h5 : overflowThreshold .f64 * FloatFormat.f64.one ≤ 2 ^ 1000 * FloatFormat.f64.one :=
      mul_le_mul_of_nonneg_right (h1.trans hq) hone.le
    revert h2 h3' h4 h5
    clear h3 hone h1 hi h hq
    generalize (FloatFormat.f64.one : ℚ) = o
    generalize (FloatFormat.f64.units FloatFormat.f64.infMag : ℚ) = u
    generalize (FloatFormat.f64.units (FloatFormat.f64.infMag - 1) : ℚ) = w
    generalize overflowThreshold .f64 = t
    generalize (2 : ℚ) ^ 1000 = B
    intro h2 h3 h4 h5
    linarith

/-- The error of one addition. -/
theorem add_error {x y : F64} (hx : x.isFinite = true) (hy : y.isFinite = true)
    (h : |value x + value y| ≤ 2 ^ 1000) :
    (Flt.add x y).isFinite = true ∧ |value (Flt.add x y) - (value x + value y)| ≤ |value x + value y| / 2 ^ 53 := by
  have hr := add_rounds usable_f64 x y hx hy
  have hf := finite_of_bounded hr h
  refine ⟨hf, ?_⟩
  have := rounds_error_units usable_f64 hr hf (k := x.sunits + y.sunits) (by
    rw [value_eq usable_f64, value_eq usable_f64, ← add_div]; push_cast; rfl)
  rw [abs_sub_comm]
  exact this

/-- The error of a sum of `N` numbers up to `M`. -/
theorem sum_error {M : ℚ} {N : Nat} (hM : 0 ≤ M) (hN : N ≤ 2 ^ 52) (hB : 2 * N * M ≤ 2 ^ 1000) :
    ∀ (xs : List F64) (s : F64) (k : Nat) (E : ℚ), (∀ x ∈ xs, x.isFinite = true ∧ |value x| ≤ M) → k + xs.length ≤ N →
      s.isFinite = true → |E| ≤ k * M → |value s - E| ≤ k * (2 * N * M / 2 ^ 53) →
      (xs.foldl Flt.add s).isFinite = true ∧
        |value (xs.foldl Flt.add s) - (E + (xs.map value).sum)| ≤ (k + xs.length) * (2 * N * M / 2 ^ 53) := by
  generalize hBB : (2 : ℚ) ^ 1000 = B at hB
  have hN' : (N : ℚ) ≤ 2 ^ 52 := by exact_mod_cast hN
  intro xs
  induction xs with
  | nil => intro s k E _ _ hs _ he; simpa using ⟨hs, he⟩
  | cons x xs ih =>
    intro s k E hxs hk hs hE he
    obtain ⟨hx, hxM⟩ := hxs x (by simp)
    have hk' : (k : ℚ) + 1 ≤ N := by
      have : k + 1 ≤ N := by simp only [List.length_cons] at hk; omega
      exact_mod_cast this
    have hk0 : (0 : ℚ) ≤ k := Nat.cast_nonneg _
    have hNM : (0 : ℚ) ≤ N * M := mul_nonneg (by linarith) hM
    have hstep : |value s + value x| ≤ 2 * N * M := by
      have h1 : |value s + value x| ≤ |value s - E| + |E| + |value x| := by
        have : value s + value x = (value s - E) + E + value x := by ring
        rw [this]
        exact (abs_add_le _ _).trans (add_le_add_left (abs_add_le _ _) _)
      have h2 : k * (2 * N * M / 2 ^ 53) ≤ N * M := by
        have : k * (2 * N * M / 2 ^ 53) = (k / 2 ^ 52) * (N * M) := by ring
        rw [this]
        have h3 : (k : ℚ) / 2 ^ 52 ≤ 1 := by
          rw [div_le_one (by norm_num)]
          linarith
        calc (k / 2 ^ 52) * (N * M) ≤ 1 * (N * M) := mul_le_mul_of_nonneg_right h3 hNM
          _ = N * M := one_mul _
      have h4 : (k + 1) * M ≤ N * M := mul_le_mul_of_nonneg_right hk' hM
      linarith
    obtain ⟨f1, f2⟩ := add_error hs hx (by rw [hBB]; exact hstep.trans hB)
    have hstep' : |value s + value x| / 2 ^ 53 ≤ 2 * N * M / 2 ^ 53 := div_le_div_of_nonneg_right hstep (by positivity)
    obtain ⟨r1, r2⟩ := ih (Flt.add s x) (k + 1) (E + value x) (fun y hy => hxs y (by simp [hy]))
      (by simp only [List.length_cons] at hk; omega) f1 (by
        push_cast
        exact (abs_add_le _ _).trans (by linarith)) (by
        have e : value (Flt.add s x) - (E + value x) = (value (Flt.add s x) - (value s + value x)) + (value s - E) := by
          ring
        rw [e]
        push_cast
        exact (abs_add_le _ _).trans (by linarith))
    refine ⟨r1, ?_⟩
    rw [List.foldl_cons, List.map_cons, List.sum_cons, ← add_assoc]
    refine r2.trans (le_of_eq ?_)
    push_cast [List.length_cons]
    ring

theorem double_power (n : Nat) : (2 : ℚ) * ((2 ^ n : Nat) : ℚ) = 2 ^ (n + 1) := by
  push_cast
  rw [pow_succ']

/-- The error of a mean. -/
theorem mean_error {M : ℚ} {xs : List F64} (hM : 0 ≤ M) (hne : xs ≠ []) (hN : xs.length ≤ 2 ^ 52)
    (hB : 2 * xs.length * M ≤ 2 ^ 1000) (hxs : ∀ x ∈ xs, x.isFinite = true ∧ |value x| ≤ M) :
    (Flt.div (xs.foldl Flt.add (Flt.zero .f64)) (Flt.ofInt .f64 xs.length)).isFinite = true ∧
    |value (Flt.div (xs.foldl Flt.add (Flt.zero .f64)) (Flt.ofInt .f64 xs.length)) - exactMean xs| ≤
      (xs.length + 1) * M / 2 ^ 52 + 1 / 2 ^ 1075 := by
  obtain ⟨s1, s2⟩ := sum_error hM hN hB xs (Flt.zero .f64) 0 0 hxs (by omega) (by decide) (by simp) (by
    rw [whole_zero.value_eq]; simp)
  have hw := whole_of_int (z := xs.length) (by
    rw [abs_of_nonneg (by omega)]
    exact_mod_cast hN.trans (by norm_num))
  have hv : value (Flt.ofInt .f64 (xs.length : Int)) = (xs.length : ℚ) := by rw [hw.value_eq]; simp
  have hpos : 0 < xs.length := List.length_pos_iff.2 hne
  have hp : (1 : ℚ) ≤ xs.length := by exact_mod_cast hpos
  have hN' : (xs.length : ℚ) ≤ 2 ^ 52 := by exact_mod_cast hN
  have hr := div_rounds usable_f64 (xs.foldl Flt.add (Flt.zero .f64)) (Flt.ofInt .f64 xs.length) s1 hw.finite (by
    rw [hv]; linarith)
  rw [hv] at hr
  generalize xs.foldl Flt.add (Flt.zero .f64) = s at *
  generalize Flt.div s (Flt.ofInt .f64 xs.length) = d at *
  have habs : |(xs.map value).sum| ≤ xs.length * M := by
    have : ∀ ys : List F64, (∀ x ∈ ys, |value x| ≤ M) → |(ys.map value).sum| ≤ ys.length * M := by
      intro ys
      induction ys with
      | nil => simp
      | cons y ys ih =>
        intro hy
        have h1 := ih fun x hx => hy x (by simp [hx])
        have h2 := hy y (by simp)
        rw [List.map_cons, List.sum_cons]
        push_cast [List.length_cons]
        exact (abs_add_le _ _).trans (by linarith)
    exact this xs fun x hx => (hxs x hx).2
  rw [zero_add] at s2
  push_cast at s2
  rw [zero_add] at s2
  have hq : |value s / xs.length - exactMean xs| ≤ xs.length * M / 2 ^ 52 := by
    unfold exactMean
    rw [← sub_div, abs_div, abs_of_pos (by linarith : (0 : ℚ) < xs.length), div_le_iff₀ (by linarith)]
    refine s2.trans (le_of_eq ?_)
    ring
  have hmean : |exactMean xs| ≤ M := by
    unfold exactMean
    rw [abs_div, abs_of_pos (by linarith : (0 : ℚ) < xs.length), div_le_iff₀ (by linarith), mul_comm]
    exact habs
  have hsmall : xs.length * M / 2 ^ 52 ≤ M := by
    rw [div_le_iff₀ (by positivity), mul_comm]
    exact mul_le_mul_of_nonneg_left hN' hM
  have hquot : |value s / xs.length| ≤ 2 * M := by
    have e : value s / xs.length = (value s / xs.length - exactMean xs) + exactMean xs := by ring
    rw [e]
    exact (abs_add_le _ _).trans (by linarith)
  have hf : d.isFinite = true := by
    apply finite_of_bounded hr
    refine hquot.trans (le_trans ?_ hB)
    calc 2 * M = 1 * (2 * M) := by ring
      _ ≤ xs.length * (2 * M) := mul_le_mul_of_nonneg_right hp (by linarith)
      _ = 2 * xs.length * M := by ring
  refine ⟨hf, ?_⟩
  have e : value d - exactMean xs = (value s / xs.length - exactMean xs) - (value s / xs.length - value d) := by ring
  have hone : (1 : ℚ) / (2 * FloatFormat.f64.one) = 1 / 2 ^ 1075 := by
    have : FloatFormat.f64.one = 2 ^ 1074 := by decide +kernel
    rw [this, double_power 1074]
  have hround : |value s / xs.length - value d| ≤ M / 2 ^ 52 + 1 / 2 ^ 1075 := by
    have hz : (0 : ℚ) ≤ 1 / 2 ^ 1075 := by positivity
    rcases rounds_error usable_f64 hr hf with h | h
    · refine h.trans ?_
      have h1 : |value s / xs.length| / 2 ^ (FloatFormat.f64.mantBits + 1) ≤ M / 2 ^ 52 := by
        show |value s / xs.length| / 2 ^ 53 ≤ _
        rw [div_le_div_iff₀ (by positivity) (by positivity)]
        linarith
      clear hone e hB
      generalize (1 : ℚ) / 2 ^ 1075 = w at *
      linarith
    · rw [hone] at h
      have : 0 ≤ M / 2 ^ 52 := div_nonneg hM (by norm_num)
      clear hone e hz hB
      generalize (1 : ℚ) / 2 ^ 1075 = w at *
      linarith
  rw [e]
  refine (abs_sub _ _).trans ?_
  have e2 : (xs.length + 1) * M / 2 ^ 52 = xs.length * M / 2 ^ 52 + M / 2 ^ 52 := by ring
  rw [e2]
  clear hone hB
  generalize (1 : ℚ) / 2 ^ 1075 = w at *
  linarith

/-- Sums of whole numbers are exact. -/
theorem whole_sum {B : Int} (hB : B ≤ 2 ^ 53) : ∀ (xs : List (F64 × Int)) (s : F64) (z : Int), (∀ x ∈ xs, Whole x.1 x.2) →
    Whole s z → |z| + (xs.map fun x => |x.2|).sum ≤ B →
    Whole ((xs.map Prod.fst).foldl Flt.add s) (z + (xs.map Prod.snd).sum)
  | [], s, z, _, hs, _ => by simpa using hs
  | x :: xs, s, z, hxs, hs, hb => by
    rw [List.map_cons, List.sum_cons] at hb
    have hnn : 0 ≤ (xs.map fun x => |x.2|).sum := List.sum_nonneg (by
      intro y hy
      obtain ⟨p, _, rfl⟩ := List.mem_map.1 hy
      exact abs_nonneg _)
    have hz := abs_add_le z x.2
    have h1 := hs.add (hxs x (by simp)) (by omega)
    have := whole_sum hB xs _ _ (fun y hy => hxs y (by simp [hy])) h1 (by omega)
    rw [List.map_cons, List.map_cons, List.foldl_cons, List.sum_cons, ← add_assoc]
    exact this

end Pasture
