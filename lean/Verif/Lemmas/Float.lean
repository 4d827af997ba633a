import Verif.Model.Float
import Mathlib.Tactic.Ring
import Mathlib.Tactic.Linarith
import Mathlib.Tactic.Zify
import Mathlib.Data.Nat.Log
import Mathlib.Algebra.Order.Ring.Abs

/-! # Rounding to nearest -/

namespace Pasture

variable {F : FloatFormat}

theorem roundDiv_cases {a b : Nat} :
    (roundDiv a b = a / b ∧ 2 * (a % b) ≤ b ∧ (2 * (a % b) = b → a / b % 2 = 0)) ∨
    (roundDiv a b = a / b + 1 ∧ b ≤ 2 * (a % b) ∧ (2 * (a % b) = b → (a / b + 1) % 2 = 0)) := by
  unfold roundDiv
  by_cases h1 : 2 * (a % b) < b
  · rw [if_pos h1]; left; omega
  · rw [if_neg h1]
    by_cases h2 : b < 2 * (a % b)
    · rw [if_pos h2]; right; omega
    · rw [if_neg h2]
      by_cases h3 : a / b % 2 = 0
      · rw [if_pos h3]; left; omega
      · rw [if_neg h3]; right; omega

theorem roundDiv_exact {a b : Nat} (hb : 0 < b) : roundDiv (a * b) b = a := by
  unfold roundDiv
  rw [Nat.mul_mod_left, if_pos (by omega), Nat.mul_div_cancel _ hb]

namespace FloatFormat

theorem units_enc {e m : Nat} (h1 : e = 0 ∨ 2 ^ F.mantBits ≤ m) (h2 : m ≤ 2 ^ (F.mantBits + 1)) :
    F.units (e * 2 ^ F.mantBits + m) = m * 2 ^ e := by
  unfold units
  have hp : 0 < 2 ^ F.mantBits := Nat.two_pow_pos _
  have hs : 2 ^ (F.mantBits + 1) = 2 * 2 ^ F.mantBits := by rw [Nat.pow_succ]; ring
  rw [hs] at h2
  generalize 2 ^ F.mantBits = P at *
  have hdiv : (e * P + m) / P = e + m / P := by
    rw [Nat.add_comm, Nat.add_mul_div_right _ _ hp, Nat.add_comm]
  have hmod : (e * P + m) % P = m % P := by
    rw [Nat.add_comm, Nat.add_mul_mod_self_right]
  rw [hdiv, hmod]
  by_cases hm0 : m < P
  · have he : e = 0 := by omega
    subst he
    rw [Nat.div_eq_of_lt hm0, if_pos rfl, Nat.mod_eq_of_lt hm0]
    simp
  · by_cases hm1 : m < 2 * P
    · have e1 : m / P = 1 := by
        apply Nat.div_eq_of_lt_le <;> omega
      have e2 : m % P = m - P := by
        have := Nat.div_add_mod m P
        rw [e1] at this
        omega
      rw [e1, if_neg (by omega), e2]
      congr 1
      omega
    · have e0 : m = 2 * P := by omega
      subst e0
      rw [Nat.mul_div_cancel _ hp, Nat.mul_mod_left, if_neg (by omega)]
      rw [show e + 2 - 1 = e + 1 by omega, Nat.pow_succ]
      ring

/-- Every magnitude is `e * 2 ^ mantBits + m` in the normal form of `units_enc`. -/
theorem exists_enc (F : FloatFormat) (k : Nat) : ∃ e m, k = e * 2 ^ F.mantBits + m ∧
    (e = 0 ∨ 2 ^ F.mantBits ≤ m) ∧ m < 2 ^ (F.mantBits + 1) := by
  have hp : 0 < 2 ^ F.mantBits := Nat.two_pow_pos _
  have hs : 2 ^ (F.mantBits + 1) = 2 * 2 ^ F.mantBits := by rw [Nat.pow_succ]; ring
  rw [hs]
  generalize 2 ^ F.mantBits = P at *
  have h1 := Nat.div_add_mod k P
  have h2 := Nat.mod_lt k hp
  by_cases h : k < 2 * P
  · exact ⟨0, k, by simp, by simp, h⟩
  · have h3 : 2 ≤ k / P := (Nat.le_div_iff_mul_le hp).2 (by omega)
    refine ⟨k / P - 1, k % P + P, ?_, by omega, by omega⟩
    obtain ⟨q, hq⟩ : ∃ q, k / P = q + 1 := ⟨k / P - 1, by omega⟩
    rw [hq] at h1 ⊢
    have e1 : P * (q + 1) = P * q + P := by ring
    have e2 : q * P = P * q := by ring
    rw [show q + 1 - 1 = q by omega, e2]
    omega

theorem units_lt_succ (k : Nat) : F.units k < F.units (k + 1) := by
  obtain ⟨e, m, rfl, h1, h2⟩ := exists_enc F k
  rw [units_enc h1 (by omega), Nat.add_assoc, units_enc (by omega) (by omega)]
  have : 0 < 2 ^ e := Nat.two_pow_pos _
  nlinarith

theorem units_strictMono (F : FloatFormat) : StrictMono F.units := strictMono_nat_of_lt_succ units_lt_succ

theorem units_zero : F.units 0 = 0 := by
  unfold units; simp

theorem units_pos {k : Nat} (h : 0 < k) : 0 < F.units k := by
  have := (units_strictMono F) h
  rw [units_zero] at this
  exact this

theorem one_pos : 0 < F.one := Nat.two_pow_pos _

end FloatFormat

/-- The rounded magnitude before the overflow check. -/
def roundFree (F : FloatFormat) (num den : Nat) : Nat :=
  ((num / den).log2 - F.mantBits) * 2 ^ F.mantBits +
    roundDiv num (den * 2 ^ ((num / den).log2 - F.mantBits))

theorem roundMag_eq (num den : Nat) : roundMag F num den = min (roundFree F num den) F.infMag := rfl

/-- The two floats around `num / den`. -/
theorem round_floor {num den : Nat} :
    ∃ e m, (num / den).log2 - F.mantBits = e ∧ num / (den * 2 ^ e) = m ∧
      (e = 0 ∨ 2 ^ F.mantBits ≤ m) ∧ m < 2 ^ (F.mantBits + 1) := by
  refine ⟨_, _, rfl, rfl, ?_, ?_⟩
  · rw [← Nat.div_div_eq_div_mul]
    generalize num / den = n
    by_cases h : n.log2 ≤ F.mantBits
    · left; omega
    · right
      have hn : n ≠ 0 := by rintro rfl; simp at h
      rw [Nat.le_div_iff_mul_le (Nat.two_pow_pos _), ← Nat.pow_add]
      rw [show F.mantBits + (n.log2 - F.mantBits) = n.log2 by omega]
      exact Nat.log2_self_le hn
  · rw [← Nat.div_div_eq_div_mul]
    generalize num / den = n
    rw [Nat.div_lt_iff_lt_mul (Nat.two_pow_pos _), ← Nat.pow_add]
    refine Nat.lt_of_lt_of_le (Nat.lt_log2_self (n := n)) ?_
    exact Nat.pow_le_pow_right (by omega) (by omega)

/-- Rounding gives a nearest float, and the even one of two nearest. -/
theorem roundFree_nearest {num den : Nat} (hd : 0 < den) (hF : 1 ≤ F.mantBits) (k : Nat) :
    |(num : Int) - F.units (roundFree F num den) * den| ≤ |(num : Int) - F.units k * den| ∧
    (|(num : Int) - F.units (roundFree F num den) * den| = |(num : Int) - F.units k * den| →
      k = roundFree F num den ∨ roundFree F num den % 2 = 0) := by
  obtain ⟨e, m, he, hm, h1, h2⟩ := round_floor (F := F) (num := num) (den := den)
  unfold roundFree
  rw [he]
  have hs : 0 < den * 2 ^ e := Nat.mul_pos hd (Nat.two_pow_pos _)
  have hdm := Nat.div_add_mod num (den * 2 ^ e)
  have hlt := Nat.mod_lt num hs
  have hr := roundDiv_cases (a := num) (b := den * 2 ^ e)
  rw [hm] at hr hdm
  generalize num % (den * 2 ^ e) = r at *
  have hu0 : F.units (e * 2 ^ F.mantBits + m) = m * 2 ^ e := F.units_enc h1 (by omega)
  have hu1 : F.units (e * 2 ^ F.mantBits + (m + 1)) = (m + 1) * 2 ^ e := F.units_enc (by omega) (by omega)
  have hpar : ∀ x, (e * 2 ^ F.mantBits + x) % 2 = x % 2 := by
    intro x
    obtain ⟨j, hj⟩ : ∃ j, F.mantBits = j + 1 := ⟨F.mantBits - 1, by omega⟩
    rw [hj, Nat.pow_succ, ← Nat.mul_assoc]
    omega
  have hmono := F.units_strictMono
  have key0 : ((m * 2 ^ e : Nat) : Int) * den = (num : Int) - r := by
    have : (num : Int) = (den * 2 ^ e : Nat) * m + r := by rw [← hdm]; push_cast; ring
    rw [this]; push_cast; ring
  have key1 : (((m + 1) * 2 ^ e : Nat) : Int) * den = (num : Int) - r + (den * 2 ^ e : Nat) := by
    have : (((m + 1) * 2 ^ e : Nat) : Int) * den = ((m * 2 ^ e : Nat) : Int) * den + (den * 2 ^ e : Nat) := by
      push_cast; ring
    rw [this, key0]
  generalize den * 2 ^ e = S at *
  have hk : k ≤ e * 2 ^ F.mantBits + m ∨ e * 2 ^ F.mantBits + (m + 1) ≤ k := by omega
  have hlow : ∀ k, k ≤ e * 2 ^ F.mantBits + m → (F.units k : Int) * den ≤ num - r ∧
      ((F.units k : Int) * den = num - r → k = e * 2 ^ F.mantBits + m) := by
    intro k hk
    have hle := hmono.monotone hk
    rw [hu0] at hle
    constructor
    · rw [← key0]; exact_mod_cast Nat.mul_le_mul_right den hle
    · intro heq
      rw [← key0] at heq
      have : F.units k = m * 2 ^ e := Nat.eq_of_mul_eq_mul_right hd (by exact_mod_cast heq)
      exact hmono.injective (by rw [this, hu0])
  have hhigh : ∀ k, e * 2 ^ F.mantBits + (m + 1) ≤ k → (num : Int) - r + S ≤ (F.units k : Int) * den ∧
      ((F.units k : Int) * den = num - r + S → k = e * 2 ^ F.mantBits + (m + 1)) := by
    intro k hk
    have hle := hmono.monotone hk
    rw [hu1] at hle
    constructor
    · rw [← key1]; exact_mod_cast Nat.mul_le_mul_right den hle
    · intro heq
      rw [← key1] at heq
      have : F.units k = (m + 1) * 2 ^ e := Nat.eq_of_mul_eq_mul_right hd (by exact_mod_cast heq)
      exact hmono.injective (by rw [this, hu1])
  rcases hr with ⟨hr, ha, hb⟩ | ⟨hr, ha, hb⟩
  · rw [hr, hu0, key0, hpar]
    rw [show (num : Int) - (num - r) = r by ring, abs_of_nonneg (by omega)]
    rcases hk with hk | hk
    · obtain ⟨l1, l2⟩ := hlow k hk
      rw [abs_of_nonneg (by omega)]
      exact ⟨by omega, fun h => .inl (l2 (by omega))⟩
    · obtain ⟨l1, l2⟩ := hhigh k hk
      rw [abs_of_nonpos (by omega)]
      exact ⟨by omega, fun h => .inr (hb (by omega))⟩
  · rw [hr, hu1, key1, hpar]
    rw [show (num : Int) - (num - r + S) = -(S - r : Int) by ring, abs_neg, abs_of_nonneg (by omega)]
    rcases hk with hk | hk
    · obtain ⟨l1, l2⟩ := hlow k hk
      rw [abs_of_nonneg (by omega)]
      exact ⟨by omega, fun h => .inr (hb (by omega))⟩
    · obtain ⟨l1, l2⟩ := hhigh k hk
      rw [abs_of_nonpos (by omega)]
      exact ⟨by omega, fun h => .inl (l2 (by omega))⟩

/-- Rounding a float gives that float. -/
theorem roundMag_exact {k den : Nat} (hd : 0 < den) (hF : 1 ≤ F.mantBits) (hk : k ≤ F.infMag) :
    roundMag F (F.units k * den) den = k := by
  have h := (roundFree_nearest (num := F.units k * den) hd hF k).1
  have e1 : ((F.units k * den : Nat) : Int) - F.units k * den = 0 := by push_cast; ring
  rw [e1, abs_zero] at h
  have h2 := abs_nonpos_iff.1 h
  have h3 : F.units (roundFree F (F.units k * den) den) = F.units k := by
    apply Nat.eq_of_mul_eq_mul_right hd
    have : ((F.units k * den : Nat) : Int) = F.units (roundFree F (F.units k * den) den) * den := by omega
    exact_mod_cast this.symm
  rw [roundMag_eq, F.units_strictMono.injective h3]
  omega

theorem closer_right {a x y b : Int} (hxy : y < x) (hb : 0 < b) (h : |a - x * b| ≤ |a - y * b|) :
    (x + y) * b ≤ 2 * a := by
  have h1 := sq_le_sq.2 h
  have h2 : (x - y) * b * ((x + y) * b - 2 * a) ≤ 0 := by nlinarith
  by_contra hc
  have h3 : 0 < (x + y) * b - 2 * a := by omega
  have h4 : 0 < (x - y) * b := Int.mul_pos (by omega) hb
  have := Int.mul_pos h4 h3
  omega

theorem closer_left {a x y b : Int} (hxy : y < x) (hb : 0 < b) (h : |a - y * b| ≤ |a - x * b|) :
    2 * a ≤ (x + y) * b := by
  have h1 := sq_le_sq.2 h
  have h2 : (x - y) * b * (2 * a - (x + y) * b) ≤ 0 := by nlinarith
  by_contra hc
  have h3 : 0 < 2 * a - (x + y) * b := by omega
  have h4 : 0 < (x - y) * b := Int.mul_pos (by omega) hb
  have := Int.mul_pos h4 h3
  omega

theorem roundFree_mono {a b c d : Nat} (hb : 0 < b) (hd : 0 < d) (hF : 1 ≤ F.mantBits) (h : a * d ≤ c * b) :
    roundFree F a b ≤ roundFree F c d := by
  by_contra hlt
  have n1 := fun k => roundFree_nearest (F := F) (num := a) hb hF k
  have n2 := fun k => roundFree_nearest (F := F) (num := c) hd hF k
  generalize roundFree F a b = x at *
  generalize roundFree F c d = y at *
  have hlt : y < x := by omega
  have hbd : (0 : Int) < b := by exact_mod_cast hb
  have hdd : (0 : Int) < d := by exact_mod_cast hd
  have hu : (F.units y : Int) < F.units x := by exact_mod_cast F.units_strictMono hlt
  have h' : (a : Int) * d ≤ c * b := by exact_mod_cast h
  have s1 := closer_right hu hbd (n1 y).1
  have s2 := closer_left hu hdd (n2 x).1
  have e1 : ((F.units x : Int) + F.units y) * b * d ≤ 2 * a * d := Int.mul_le_mul_of_nonneg_right s1 (by omega)
  have e2 : 2 * (c : Int) * b ≤ (F.units x + F.units y) * d * b := Int.mul_le_mul_of_nonneg_right s2 (by omega)
  have e3 : ((F.units x : Int) + F.units y) * b * d = (F.units x + F.units y) * d * b := by ring
  have t1 : ((F.units x : Int) + F.units y) * b * d = 2 * a * d := by linarith
  have t1' : ((F.units x : Int) + F.units y) * b = 2 * a := Int.eq_of_mul_eq_mul_right (by omega) t1
  have t2 : ((F.units x : Int) + F.units y) * d * b = 2 * c * b := by linarith
  have t2' : ((F.units x : Int) + F.units y) * d = 2 * c := Int.eq_of_mul_eq_mul_right (by omega) t2
  have p1 : x % 2 = 0 := by
    rcases (n1 y).2 (by
      rw [show (a : Int) - F.units x * b = -(a - F.units y * b) by linarith, abs_neg]) with h | h
    · omega
    · exact h
  have p2 : y % 2 = 0 := by
    rcases (n2 x).2 (by
      rw [show (c : Int) - F.units y * d = -(c - F.units x * d) by linarith, abs_neg]) with h | h
    · omega
    · exact h
  have hz : y + 1 < x := by omega
  have hu1 : (F.units y : Int) < F.units (y + 1) := by exact_mod_cast F.units_strictMono (Nat.lt_succ_self y)
  have hu2 : (F.units (y + 1) : Int) < F.units x := by exact_mod_cast F.units_strictMono hz
  have s3 := closer_right hu2 hbd (n1 (y + 1)).1
  nlinarith

/-- Rounding is monotone. -/
theorem roundMag_mono {a b c d : Nat} (hb : 0 < b) (hd : 0 < d) (hF : 1 ≤ F.mantBits) (h : a * d ≤ c * b) :
    roundMag F a b ≤ roundMag F c d := by
  rw [roundMag_eq, roundMag_eq]
  have := roundFree_mono (F := F) hb hd hF h
  omega

end Pasture
