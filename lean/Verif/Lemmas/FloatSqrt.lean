import Mathlib.Analysis.Real.Sqrt
import Mathlib.Tactic.Linarith
import Mathlib.Tactic.FieldSimp
import Verif.Model.Vec3
import Verif.Lemmas.FloatExact

/-!
# The model of `f64::sqrt` is the correctly rounded square root
-/

namespace Pasture

open Spec Flt

variable {F : FloatFormat}

/-- Comparing distances from `q` to two integers: a question about twice `q`. -/
theorem near_iff {q : ℝ} {a b : ℝ} : |q - a| ≤ |q - b| ↔ (a ≤ b → a = b ∨ 2 * q ≤ a + b) ∧ (b ≤ a → a = b ∨ a + b ≤ 2 * q) := by
  rw [← sq_le_sq]
  have e : (q - b) ^ 2 - (q - a) ^ 2 = (b - a) * (a + b - 2 * q) := by ring
  constructor
  · intro h
    have h : 0 ≤ (b - a) * (a + b - 2 * q) := by linarith
    constructor
    · intro hab
      rcases hab.eq_or_lt with hab | hab
      · exact .inl hab
      · right
        have := nonneg_of_mul_nonneg_right h (by linarith)
        linarith
    · intro hab
      rcases hab.eq_or_lt with hab | hab
      · exact .inl hab.symm
      · right
        have : 0 ≤ (a - b) * (2 * q - (a + b)) := by linarith [h, (by ring : (b - a) * (a + b - 2 * q) = (a - b) * (2 * q - (a + b)))]
        have := nonneg_of_mul_nonneg_right this (by linarith)
        linarith
  · rintro ⟨h1, h2⟩
    have : 0 ≤ (b - a) * (a + b - 2 * q) := by
      rcases le_total a b with hab | hab
      · rcases h1 hab with rfl | h
        · simp
        · exact mul_nonneg (by linarith) (by linarith)
      · rcases h2 hab with rfl | h
        · simp
        · exact mul_nonneg_of_nonpos_of_nonpos (by linarith) (by linarith)
    linarith

/-- The numerator that stands for four times the root. -/
def rootNum (N : Nat) : Nat := if (4 * N).sqrt * (4 * N).sqrt = 4 * N then 2 * (4 * N).sqrt else 2 * (4 * N).sqrt + 1

/-- Rounding it is rounding the root. -/
theorem root_near (hF : 1 ≤ F.mantBits) (N k : Nat) :
    |√(N : ℝ) - F.units (roundFree F (rootNum N) 4)| ≤ |√(N : ℝ) - F.units k| := by
  have hnear := (roundFree_nearest (F := F) (num := rootNum N) (den := 4) (by decide) hF k).1
  generalize roundFree F (rootNum N) 4 = m at hnear
  have hs0 : 0 ≤ √(N : ℝ) := Real.sqrt_nonneg _
  have hsq : √(N : ℝ) ^ 2 = N := Real.sq_sqrt (by positivity)
  have hr1 : (4 * N).sqrt * (4 * N).sqrt ≤ 4 * N := Nat.sqrt_le _
  have hr2 : 4 * N < ((4 * N).sqrt + 1) * ((4 * N).sqrt + 1) := Nat.lt_succ_sqrt _
  unfold rootNum at hnear
  generalize (4 * N).sqrt = r at *
  generalize F.units m = a at *
  generalize F.units k = b at *
  have hnear : |((if r * r = 4 * N then 2 * r else 2 * r + 1 : Nat) : ℝ) - 4 * a| ≤ |((if r * r = 4 * N then 2 * r else 2 * r + 1 : Nat) : ℝ) - 4 * b| := by
    have : |((if r * r = 4 * N then 2 * r else 2 * r + 1 : Nat) : Int) - (a : Int) * 4| ≤ |((if r * r = 4 * N then 2 * r else 2 * r + 1 : Nat) : Int) - (b : Int) * 4| := by
      simpa using hnear
    have h2 : ((|((if r * r = 4 * N then 2 * r else 2 * r + 1 : Nat) : Int) - (a : Int) * 4| : Int) : ℝ) ≤ ((|((if r * r = 4 * N then 2 * r else 2 * r + 1 : Nat) : Int) - (b : Int) * 4| : Int) : ℝ) := by
      exact_mod_cast this
    push_cast at h2 ⊢
    rw [mul_comm (4 : ℝ), mul_comm (4 : ℝ)]
    exact h2
  rw [near_iff] at hnear ⊢
  have up : r * r ≠ 4 * N → (r : ℝ) < 2 * √(N : ℝ) ∧ 2 * √(N : ℝ) < r + 1 := by
    intro hne
    have h1 : ((r * r : Nat) : ℝ) < ((4 * N : Nat) : ℝ) := by exact_mod_cast lt_of_le_of_ne hr1 hne
    have h2 : ((4 * N : Nat) : ℝ) < (((r + 1) * (r + 1) : Nat) : ℝ) := by exact_mod_cast hr2
    push_cast at h1 h2
    have hr0 : (0 : ℝ) ≤ r := by positivity
    constructor <;> nlinarith
  by_cases he : r * r = 4 * N
  · rw [if_pos he] at hnear
    have hs : 2 * √(N : ℝ) = r := by
      have h1 : ((r * r : Nat) : ℝ) = ((4 * N : Nat) : ℝ) := by exact_mod_cast he
      push_cast at h1
      have hr0 : (0 : ℝ) ≤ r := by positivity
      nlinarith
    push_cast at hnear
    constructor
    · intro hab
      rcases hnear.1 (by linarith) with h | h
      · left; linarith
      · right; linarith
    · intro hab
      rcases hnear.2 (by linarith) with h | h
      · left; linarith
      · right; linarith
  · rw [if_neg he] at hnear
    obtain ⟨u1, u2⟩ := up he
    constructor
    · intro hab
      rcases hnear.1 (by linarith) with h | h
      · left; linarith
      · right
        have : 2 * (2 * r + 1) ≤ 4 * a + 4 * b := by exact_mod_cast h
        have : r + 1 ≤ a + b := by omega
        have : (r : ℝ) + 1 ≤ a + b := by exact_mod_cast this
        linarith
    · intro hab
      rcases hnear.2 (by linarith) with h | h
      · left; linarith
      · right
        have : 4 * a + 4 * b ≤ 2 * (2 * r + 1) := by exact_mod_cast h
        have : a + b ≤ r := by omega
        have : (a : ℝ) + b ≤ r := by exact_mod_cast this
        linarith

/-- The root of a finite number is finite. -/
theorem root_finite (hF : Usable F) {u : Nat} (hu : u < F.infMag) : roundFree F (rootNum (F.units u * F.one)) 4 < F.infMag := by
  obtain ⟨o, ho⟩ := exists_units F (2 ^ (F.expBits - 1) - 2 + F.mantBits) 1 (Nat.one_le_two_pow)
  have ho : F.units o = F.one := by rw [ho, Nat.one_mul]; rfl
  have hoi : o < F.infMag := by
    apply units_lt_inf
    rw [ho, (units_inf hF).1]
    unfold FloatFormat.one
    rw [← Nat.pow_add]
    apply Nat.pow_lt_pow_right (by decide)
    obtain ⟨e, he⟩ : ∃ e, F.expBits = e + 1 := ⟨F.expBits - 1, by have := hF.2.1; omega⟩
    rw [he, Nat.add_sub_cancel, Nat.pow_succ]
    have := Nat.one_le_two_pow (n := e)
    have h1 := hF.2.1
    have : 2 ≤ 2 ^ e := by
      calc 2 = 2 ^ 1 := rfl
        _ ≤ 2 ^ e := Nat.pow_le_pow_right (by decide) (by omega)
    omega
  -- the root is at most the greater of the number and 1
  have key : ∀ w, F.units w ≥ F.units u → F.units w ≥ F.one → roundFree F (rootNum (F.units u * F.one)) 4 ≤ w := by
    intro w h1 h2
    have h3 : roundFree F (F.units w * 4) 4 = w := roundFree_exact (by decide) hF.1
    rw [← h3]
    apply roundFree_mono (by decide) (by decide) hF.1
    apply Nat.mul_le_mul_right
    generalize F.units w = x at *
    generalize F.units u = y at *
    generalize F.one = z at *
    have hyz : y * z ≤ x * x := Nat.mul_le_mul h1 h2
    unfold rootNum
    have hr1 : (4 * (y * z)).sqrt * (4 * (y * z)).sqrt ≤ 4 * (y * z) := Nat.sqrt_le _
    generalize (4 * (y * z)).sqrt = r at *
    have hle : r ≤ 2 * x := by
      by_contra hc
      have : (2 * x + 1) * (2 * x + 1) ≤ r * r := Nat.mul_le_mul (by omega) (by omega)
      nlinarith
    split
    · omega
    · rename_i hne
      rcases Nat.lt_or_eq_of_le hle with h | h
      · omega
      · exfalso
        apply hne
        subst h
        nlinarith
  rcases Nat.le_total (F.units u) F.one with h | h
  · exact lt_of_le_of_lt (key o (by rw [ho]; exact h) ho.ge) hoi
  · exact lt_of_le_of_lt (key u (Nat.le_refl _) h) hu

/-- The square root of a positive number is the nearest float. -/
theorem sqrt_nearest (hF : Usable F) (x : Flt F) (hx : x.isFinite = true) (hn : x.neg = false) (h0 : x.mag ≠ 0) :
    (sqrt x).isFinite = true ∧ (sqrt x).neg = false ∧ ∀ z : Flt F, z.isFinite = true →
      |√((value x : ℚ) : ℝ) - (value (sqrt x) : ℚ)| ≤ |√((value x : ℚ) : ℝ) - (value z : ℚ)| := by
  have hm : x.mag < F.infMag := of_decide_eq_true hx
  have hfin := root_finite hF hm
  have hs : sqrt x = ⟨false, roundFree F (rootNum (F.units x.mag * F.one)) 4⟩ := by
    unfold sqrt
    rw [if_neg (by unfold isNaN; simp; omega), if_neg h0, hn, if_neg (by decide), if_neg (by unfold isInf; simp; omega)]
    show (⟨false, roundMag F (rootNum (F.units x.mag * F.one)) 4⟩ : Flt F) = _
    rw [roundMag_eq, Nat.min_eq_left hfin.le]
  rw [hs]
  refine ⟨decide_eq_true hfin, rfl, ?_⟩
  intro z hz
  have hone : (0 : ℝ) < F.one := by exact_mod_cast F.one_pos
  have hx' : ((value x : ℚ) : ℝ) = F.units x.mag / F.one := by
    rw [value_eq hF]
    unfold sunits
    rw [hn]
    push_cast
    rfl
  have hroot : √((value x : ℚ) : ℝ) = √((F.units x.mag * F.one : Nat) : ℝ) / F.one := by
    rw [hx', eq_div_iff hone.ne']
    have e : (F.one : ℝ) = √((F.one : ℝ) ^ 2) := (Real.sqrt_sq hone.le).symm
    have e2 : √((F.units x.mag : ℝ) / F.one) * F.one = √((F.units x.mag : ℝ) / F.one) * √((F.one : ℝ) ^ 2) := by rw [← e]
    rw [e2, ← Real.sqrt_mul (by positivity)]
    congr 1
    push_cast
    field_simp
  have hy : ((value (⟨false, roundFree F (rootNum (F.units x.mag * F.one)) 4⟩ : Flt F) : ℚ) : ℝ) =
      F.units (roundFree F (rootNum (F.units x.mag * F.one)) 4) / F.one := by
    rw [value_eq hF]
    unfold sunits
    push_cast
    rfl
  rw [hroot, hy]
  generalize F.units x.mag * F.one = N at *
  have hnear := root_near (F := F) hF.1 N
  cases hzn : z.neg with
  | false =>
    have hz' : ((value z : ℚ) : ℝ) = F.units z.mag / F.one := by
      rw [value_eq hF]
      unfold sunits
      rw [hzn]
      push_cast
      rfl
    rw [hz', ← sub_div, ← sub_div, abs_div, abs_div]
    exact div_le_div_of_nonneg_right (hnear z.mag) (abs_nonneg _)
  | true =>
    have hz' : ((value z : ℚ) : ℝ) = -(F.units z.mag : ℝ) / F.one := by
      rw [value_eq hF]
      unfold sunits
      rw [hzn, if_pos rfl]
      push_cast
      rfl
    rw [hz', ← sub_div, ← sub_div, abs_div, abs_div]
    refine div_le_div_of_nonneg_right ((hnear 0).trans ?_) (abs_nonneg _)
    rw [F.units_zero]
    have : (0 : ℝ) ≤ F.units z.mag := by positivity
    have h1 := Real.sqrt_nonneg (N : ℝ)
    rw [abs_of_nonneg (by simp), abs_of_nonneg (by linarith)]
    push_cast
    linarith

end Pasture
