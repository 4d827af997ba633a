import Mathlib.Tactic.LinearCombination
import Mathlib.Tactic.Linarith
import Verif.Spec.ConvexHull

/-! # Volumes of tetrahedra -/

namespace Pasture.Hull

open Spec

theorem volume_rotate (p q r s : P3 ℝ) : volume q r p s = volume p q r s := by unfold volume; ring
theorem volume_swap (p q r s : P3 ℝ) : volume q p r s = -volume p q r s := by unfold volume; ring
theorem volume_swap_last (p q r s : P3 ℝ) : volume p q s r = -volume p q r s := by unfold volume; ring
theorem volume_swap_ends (p q r s : P3 ℝ) : volume s q r p = -volume p q r s := by unfold volume; ring
theorem volume_first (p q r : P3 ℝ) : volume p q r p = 0 := by unfold volume; ring
theorem volume_second (p q r : P3 ℝ) : volume p q r q = 0 := by unfold volume; ring
theorem volume_third (p q r : P3 ℝ) : volume p q r r = 0 := by unfold volume; ring

/-- The relation between the volumes of six tetrahedra with a common edge. -/
theorem volume_common_edge (a b c d p x : P3 ℝ) :
    volume a b c d * volume a b p x = volume a b c p * volume a b d x + volume a b c x * volume a b p d := by
  unfold volume; ring

/-- The planes through a horizon edge `ab` and a new point `p`: all points that are on the inner side of both triangles at
    this edge are on the inner side of the new triangle. -/
theorem new_triangle {a b c d p x : P3 ℝ} (hFx : volume a b c x ≤ 0) (hGx : volume b a d x ≤ 0)
    (hFp : 0 < volume a b c p) (hGp : volume b a d p < 0) (hFd : volume a b c d < 0) : volume a b p x ≤ 0 := by
  have h := volume_common_edge a b c d p x
  rw [volume_swap] at hGx hGp
  rw [volume_swap_last a b d p] at h
  by_contra hc
  have h1 : volume a b c d * volume a b p x < 0 := mul_neg_of_neg_of_pos hFd (not_le.1 hc)
  have h2 : 0 ≤ volume a b c p * volume a b d x := mul_nonneg hFp.le (by linarith)
  have h3 : 0 ≤ volume a b c x * -volume a b d p := mul_nonneg_of_nonpos_of_nonpos hFx (by linarith)
  linarith

end Pasture.Hull
