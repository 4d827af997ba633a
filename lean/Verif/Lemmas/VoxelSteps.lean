import Mathlib.Tactic.Linarith
import Verif.Lemmas.Voxel

/-!
# When the marker loops end
-/

namespace Pasture

open Spec

namespace FloatFormat

/-- The distance of neighbouring floats. -/
theorem units_gap (F : FloatFormat) (k : Nat) :
    F.units (k + 1) * 2 ^ F.mantBits ≤ F.units k * 2 ^ F.mantBits + max (2 ^ F.mantBits) (F.units k) := by
  have hp : 0 < 2 ^ F.mantBits := Nat.two_pow_pos _
  generalize hP : 2 ^ F.mantBits = P at hp
  have hk := Nat.div_add_mod k P
  have hf := Nat.mod_lt k hp
  generalize he : k / P = e at hk
  generalize hm : k % P = f at hk hf
  have hu : F.units k = if e = 0 then f else (f + P) * 2 ^ (e - 1) := by
    unfold units
    rw [hP, he, hm]
  by_cases hlast : f + 1 < P
  · have h1 : (k + 1) / P = e := by
      rw [← hk, show P * e + f + 1 = (f + 1) + P * e by omega, Nat.add_mul_div_left _ _ hp, Nat.div_eq_of_lt hlast]
      omega
    have h2 : (k + 1) % P = f + 1 := by
      rw [← hk, show P * e + f + 1 = (f + 1) + P * e by omega, Nat.add_mul_mod_self_left, Nat.mod_eq_of_lt hlast]
    have hu' : F.units (k + 1) = if e = 0 then f + 1 else (f + 1 + P) * 2 ^ (e - 1) := by
      unfold units
      rw [hP, h1, h2]
    rw [hu', hu]
    by_cases h0 : e = 0
    · rw [if_pos h0, if_pos h0, Nat.add_mul, Nat.one_mul]
      exact Nat.add_le_add_left (Nat.le_max_left _ _) _
    · rw [if_neg h0, if_neg h0]
      refine Nat.le_trans ?_ (Nat.add_le_add_left (Nat.le_max_right _ _) _)
      have : 0 ≤ f * 2 ^ (e - 1) := Nat.zero_le _
      nlinarith
  · have hf' : f + 1 = P := by omega
    have hk1 : k + 1 = P * (e + 1) := by rw [← hk, Nat.mul_add]; omega
    have hu' : F.units (k + 1) = P * 2 ^ e := by
      unfold units
      rw [hP, hk1, Nat.mul_div_cancel_left _ hp, Nat.mul_mod_right, if_neg (by omega)]
      simp
    rw [hu', hu]
    by_cases h0 : e = 0
    · subst h0
      rw [if_pos rfl]
      refine Nat.le_trans ?_ (Nat.add_le_add_left (Nat.le_max_left _ _) _)
      have : P * 2 ^ 0 * P = f * P + P := by rw [← hf']; ring
      omega
    · rw [if_neg h0]
      refine Nat.le_trans ?_ (Nat.add_le_add_left (Nat.le_max_right _ _) _)
      obtain ⟨e', rfl⟩ : ∃ e', e = e' + 1 := ⟨e - 1, by omega⟩
      rw [Nat.add_sub_cancel, ← hf', pow_succ]
      generalize 2 ^ e' = t
      nlinarith

end FloatFormat

namespace Voxel

open Flt

/-- The next float above a finite one. -/
def nextUp {F : FloatFormat} (x : Flt F) : Flt F :=
  if x.rank < 0 then ⟨true, x.mag - 1⟩ else ⟨false, x.mag + 1⟩

theorem nextUp_rank {F : FloatFormat} (x : Flt F) : (nextUp x).rank = x.rank + 1 := by
  unfold nextUp
  by_cases h : x.rank < 0
  · rw [if_pos h]
    unfold rank at h ⊢
    dsimp only
    rw [if_pos rfl]
    split_ifs at h ⊢ <;> omega
  · rw [if_neg h]
    unfold rank at h ⊢
    dsimp only
    rw [if_neg Bool.false_ne_true]
    split_ifs at h ⊢ <;> omega

theorem nextUp_gap {F : FloatFormat} (x : Flt F) :
    ((nextUp x).sunits - x.sunits) * 2 ^ F.mantBits ≤ max (2 ^ F.mantBits) (F.units x.mag : Int) := by
  unfold nextUp
  by_cases h : x.rank < 0
  · rw [if_pos h]
    have hneg : x.neg = true ∧ 0 < x.mag := by
      unfold rank at h
      split_ifs at h with hx
      · exact ⟨hx, by omega⟩
      · omega
    unfold sunits
    dsimp only
    rw [if_pos rfl, if_pos hneg.1]
    obtain ⟨k, hk⟩ : ∃ k, x.mag = k + 1 := ⟨x.mag - 1, by omega⟩
    rw [hk, Nat.add_sub_cancel]
    have := FloatFormat.units_gap F k
    have hm := (FloatFormat.units_lt_succ (F := F) k).le
    have g : (F.units (k + 1) : Int) * 2 ^ F.mantBits ≤ F.units k * 2 ^ F.mantBits + max (2 ^ F.mantBits) (F.units k : Int) := by
      exact_mod_cast this
    have g2 : (F.units k : Int) ≤ F.units (k + 1) := by exact_mod_cast hm
    have g3 : max (2 ^ F.mantBits) (F.units k : Int) ≤ max (2 ^ F.mantBits) (F.units (k + 1) : Int) :=
      max_le_max_left _ g2
    linarith
  · rw [if_neg h]
    have hx : x.sunits = F.units x.mag := by
      unfold sunits
      unfold rank at h
      split_ifs at h ⊢
      · have : x.mag = 0 := by omega
        rw [this, FloatFormat.units_zero]
        rfl
      · rfl
    rw [hx]
    unfold sunits
    dsimp only
    rw [if_neg Bool.false_ne_true]
    have g : (F.units (x.mag + 1) : Int) * 2 ^ F.mantBits ≤ F.units x.mag * 2 ^ F.mantBits +
        max (2 ^ F.mantBits) (F.units x.mag : Int) := by
      exact_mod_cast FloatFormat.units_gap F x.mag
    linarith

/-- Adding something that is not too small gives a greater float. -/
theorem add_progress {F : FloatFormat} (hF : Usable F) {x hi leaf : Flt F} (hx : x.isFinite = true)
    (hhi : hi.isFinite = true) (hlt : x.rank < hi.rank) (hl : leaf.isFinite = true) (hpos : 0 < leaf.sunits)
    (hbig : (F.units x.mag : Int) ≤ 2 ^ F.mantBits * leaf.sunits) : x.rank < (x.add leaf).rank := by
  have hnext : (nextUp x).isFinite = true := by
    have h1 : x.mag < F.infMag := of_decide_eq_true hx
    have h2 : hi.mag < F.infMag := of_decide_eq_true hhi
    have hr := nextUp_rank x
    apply decide_eq_true
    unfold rank at hr hlt
    split_ifs at hr hlt <;> omega
  have hgap := nextUp_gap x
  have hP : (0 : Int) < 2 ^ F.mantBits := by positivity
  have hle : (nextUp x).sunits ≤ x.sunits + leaf.sunits := by
    have : max (2 ^ F.mantBits) (F.units x.mag : Int) ≤ leaf.sunits * 2 ^ F.mantBits := by
      apply max_le
      · nlinarith
      · linarith
    have := le_of_mul_le_mul_right (le_trans hgap this) hP
    linarith
  have := ofUnits_rank_mono hF hle (d := 1) (by decide) false (x.neg && leaf.neg)
  rw [ofUnits_rank_self hF hnext, nextUp_rank, ← add_finite hx hl] at this
  omega

/-- If every step moves, the upper end is reached. -/
theorem reaches_of_progress {lo hi leaf : F64} (hlo : lo.isFinite = true) (hhi : hi.isFinite = true)
    (hleaf : leaf.isNaN = false)
    (hstep : ∀ x : F64, x.isFinite = true → lo.rank ≤ x.rank → x.rank < hi.rank → x.rank < (x.add leaf).rank) :
    ∃ k, Reaches lo hi leaf k := by
  have hhn := (finite_cases hhi).1
  have key : ∀ n, (∃ k, Reaches lo hi leaf k) ∨ ((∀ i < n, Flt.lt (marker lo leaf i) hi = true) ∧
      (marker lo leaf n).isNaN = false ∧ lo.rank + n ≤ (marker lo leaf n).rank) := by
    intro n
    induction n with
    | zero => exact .inr ⟨fun i hi => absurd hi (by omega), (finite_cases hlo).1, by simp [marker]⟩
    | succ n ih =>
      rcases ih with ih | ⟨h1, h2, h3⟩
      · exact .inl ih
      cases hlt : Flt.lt (marker lo leaf n) hi with
      | false => exact .inl ⟨n, h1, hlt⟩
      | true =>
        have hr := (lt_rank h2 hhn).1 hlt
        have hfin : (marker lo leaf n).isFinite = true := finite_between hlo hhi (by omega) (by omega)
        have hs := hstep _ hfin (by omega) hr
        refine .inr ⟨?_, add_notNaN hfin hleaf, ?_⟩
        · intro i hi
          by_cases hin : i = n
          · rw [hin]; exact hlt
          · exact h1 i (by omega)
        · show lo.rank + ((n + 1 : Nat) : Int) ≤ ((marker lo leaf n).add leaf).rank
          push_cast
          omega
  rcases key (hi.rank - lo.rank).toNat with h | ⟨h1, h2, h3⟩
  · exact h
  · refine ⟨_, h1, ?_⟩
    rw [Bool.eq_false_iff]
    intro hc
    have := (lt_rank h2 hhn).1 hc
    omega

end Voxel

end Pasture
