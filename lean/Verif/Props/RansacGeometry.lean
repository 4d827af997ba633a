import Mathlib.Tactic.Linarith
import Mathlib.Tactic.FieldSimp
import Mathlib.Tactic.LinearCombination
import Verif.Spec.Geometry
import Verif.Model.Ransac

/-!
# The formulas for distances: C70
-/

namespace Pasture.Props

open Spec Ransac

/-- C70: with exact numbers, `distance_point_line` is the distance to the line. -/
theorem C70_line (a b p : P3 ℝ) (k : Nat) (hab : a ≠ b) :
    IsDistance (lineThrough a b) p (distancePointLine p ⟨a, b, k⟩) := by
  obtain ⟨ax, ay, az⟩ := a
  obtain ⟨bx, by', bz⟩ := b
  obtain ⟨px, py, pz⟩ := p
  obtain ⟨u, hu⟩ : ∃ u, u = bx - ax := ⟨_, rfl⟩
  obtain ⟨v, hv⟩ : ∃ v, v = by' - ay := ⟨_, rfl⟩
  obtain ⟨w, hw⟩ : ∃ w, w = bz - az := ⟨_, rfl⟩
  have hpos : 0 < u ^ 2 + v ^ 2 + w ^ 2 := by
    by_contra hc
    apply hab
    have h0 : u = 0 := by nlinarith [sq_nonneg u, sq_nonneg v, sq_nonneg w]
    have h1 : v = 0 := by nlinarith [sq_nonneg u, sq_nonneg v, sq_nonneg w]
    have h2 : w = 0 := by nlinarith [sq_nonneg u, sq_nonneg v, sq_nonneg w]
    congr 1 <;> linarith
  have hd : distancePointLine (⟨px, py, pz⟩ : P3 ℝ) ⟨⟨ax, ay, az⟩, ⟨bx, by', bz⟩, k⟩ =
      √(((v * (az - pz) - w * (ay - py)) ^ 2 + (w * (ax - px) - u * (az - pz)) ^ 2 + (u * (ay - py) - v * (ax - px)) ^ 2) /
        (u ^ 2 + v ^ 2 + w ^ 2)) := by
    rw [Real.sqrt_div (by positivity)]
    rw [hu, hv, hw]
    show Real.sqrt (0 + (_ + _ + _)) / Real.sqrt (0 + (_ + _ + _)) = _
    congr 2 <;> simp only [Vec3.sub, Vec3.cross, Arith.sub, Arith.mul] <;> ring
  have hq : ∀ t : ℝ, (px - (ax + t * u)) ^ 2 + (py - (ay + t * v)) ^ 2 + (pz - (az + t * w)) ^ 2 =
      ((v * (az - pz) - w * (ay - py)) ^ 2 + (w * (ax - px) - u * (az - pz)) ^ 2 + (u * (ay - py) - v * (ax - px)) ^ 2 +
        (u * (ax - px) + v * (ay - py) + w * (az - pz) + t * (u ^ 2 + v ^ 2 + w ^ 2)) ^ 2) / (u ^ 2 + v ^ 2 + w ^ 2) := by
    intro t
    rw [eq_div_iff hpos.ne']
    ring
  rw [hd]
  constructor
  · obtain ⟨t, ht⟩ : ∃ t, t = -(u * (ax - px) + v * (ay - py) + w * (az - pz)) / (u ^ 2 + v ^ 2 + w ^ 2) := ⟨_, rfl⟩
    refine ⟨_, ⟨t, rfl⟩, ?_⟩
    show √((px - (ax + t * (bx - ax))) ^ 2 + (py - (ay + t * (by' - ay))) ^ 2 + (pz - (az + t * (bz - az))) ^ 2) = _
    rw [← hu, ← hv, ← hw, hq]
    have : u * (ax - px) + v * (ay - py) + w * (az - pz) + t * (u ^ 2 + v ^ 2 + w ^ 2) = 0 := by
      rw [ht]
      field_simp
      ring
    rw [this]
    congr 2
    ring
  · rintro q ⟨t, rfl⟩
    show _ ≤ √((px - (ax + t * (bx - ax))) ^ 2 + (py - (ay + t * (by' - ay))) ^ 2 + (pz - (az + t * (bz - az))) ^ 2)
    rw [← hu, ← hv, ← hw, hq]
    apply Real.sqrt_le_sqrt
    refine div_le_div_of_nonneg_right ?_ hpos.le
    nlinarith [sq_nonneg (u * (ax - px) + v * (ay - py) + w * (az - pz) + t * (u ^ 2 + v ^ 2 + w ^ 2))]

theorem sum_sq_pos {x y z : ℝ} (h : ¬ (x = 0 ∧ y = 0 ∧ z = 0)) : 0 < x ^ 2 + y ^ 2 + z ^ 2 := by
  by_contra hc
  apply h
  have h0 : x ^ 2 = 0 := by linarith [sq_nonneg x, sq_nonneg y, sq_nonneg z]
  have h1 : y ^ 2 = 0 := by linarith [sq_nonneg x, sq_nonneg y, sq_nonneg z]
  have h2 : z ^ 2 = 0 := by linarith [sq_nonneg x, sq_nonneg y, sq_nonneg z]
  exact ⟨pow_eq_zero_iff (two_ne_zero) |>.1 h0, pow_eq_zero_iff (two_ne_zero) |>.1 h1, pow_eq_zero_iff (two_ne_zero) |>.1 h2⟩

/-- Vectors whose cross product vanishes are parallel. -/
theorem parallel {u1 u2 u3 v1 v2 v3 : ℝ} (hu : 0 < u1 ^ 2 + u2 ^ 2 + u3 ^ 2) (h0 : u2 * v3 - u3 * v2 = 0)
    (h1 : u3 * v1 - u1 * v3 = 0) (h2 : u1 * v2 - u2 * v1 = 0) : ∃ t, v1 = t * u1 ∧ v2 = t * u2 ∧ v3 = t * u3 := by
  refine ⟨(u1 * v1 + u2 * v2 + u3 * v3) / (u1 ^ 2 + u2 ^ 2 + u3 ^ 2), ?_, ?_, ?_⟩
  · rw [div_mul_eq_mul_div, eq_div_iff hu.ne']
    linear_combination u3 * h1 - u2 * h2
  · rw [div_mul_eq_mul_div, eq_div_iff hu.ne']
    linear_combination u1 * h2 - u3 * h0
  · rw [div_mul_eq_mul_div, eq_div_iff hu.ne']
    linear_combination u2 * h0 - u1 * h1

/-- The distance to the plane, in terms of the normal vector. -/
theorem plane_formula (ax ay az bx by' bz cx cy cz px py pz : ℝ) :
    distancePointPlane (⟨px, py, pz⟩ : P3 ℝ) (planeThrough ⟨ax, ay, az⟩ ⟨bx, by', bz⟩ ⟨cx, cy, cz⟩) =
      |((by' - ay) * (cz - az) - (bz - az) * (cy - ay)) * (px - ax) +
        ((bz - az) * (cx - ax) - (bx - ax) * (cz - az)) * (py - ay) +
        ((bx - ax) * (cy - ay) - (by' - ay) * (cx - ax)) * (pz - az)| /
      √(((by' - ay) * (cz - az) - (bz - az) * (cy - ay)) ^ 2 + ((bz - az) * (cx - ax) - (bx - ax) * (cz - az)) ^ 2 +
        ((bx - ax) * (cy - ay) - (by' - ay) * (cx - ax)) ^ 2) := by
  show |_ + _ + _ + _| / √(_ + _ + _) = _
  simp only [planeThrough, Vec3.sub, Vec3.cross, Vec3.dot, Arith.sub, Arith.mul, Arith.add, Arith.neg]
  generalize (by' - ay) * (cz - az) - (bz - az) * (cy - ay) = n1
  generalize (bz - az) * (cx - ax) - (bx - ax) * (cz - az) = n2
  generalize (bx - ax) * (cy - ay) - (by' - ay) * (cx - ax) = n3
  congr 2 <;> ring

/-- The distance from `r` to the plane spanned by `u` and `v`. -/
theorem plane_distance (u1 u2 u3 v1 v2 v3 r1 r2 r3 n1 n2 n3 : ℝ) (hn1 : n1 = u2 * v3 - u3 * v2)
    (hn2 : n2 = u3 * v1 - u1 * v3) (hn3 : n3 = u1 * v2 - u2 * v1) (hpos : 0 < n1 ^ 2 + n2 ^ 2 + n3 ^ 2) :
    (∃ s t, √((r1 - s * u1 - t * v1) ^ 2 + (r2 - s * u2 - t * v2) ^ 2 + (r3 - s * u3 - t * v3) ^ 2) =
      |n1 * r1 + n2 * r2 + n3 * r3| / √(n1 ^ 2 + n2 ^ 2 + n3 ^ 2)) ∧
    ∀ s t, |n1 * r1 + n2 * r2 + n3 * r3| / √(n1 ^ 2 + n2 ^ 2 + n3 ^ 2) ≤
      √((r1 - s * u1 - t * v1) ^ 2 + (r2 - s * u2 - t * v2) ^ 2 + (r3 - s * u3 - t * v3) ^ 2) := by
  rw [← Real.sqrt_sq_eq_abs, ← Real.sqrt_div (by positivity)]
  constructor
  · refine ⟨((r2 * v3 - r3 * v2) * n1 + (r3 * v1 - r1 * v3) * n2 + (r1 * v2 - r2 * v1) * n3) / (n1 ^ 2 + n2 ^ 2 + n3 ^ 2),
      ((u2 * r3 - u3 * r2) * n1 + (u3 * r1 - u1 * r3) * n2 + (u1 * r2 - u2 * r1) * n3) / (n1 ^ 2 + n2 ^ 2 + n3 ^ 2), ?_⟩
    have key : ∀ r u v n : ℝ, (n1 ^ 2 + n2 ^ 2 + n3 ^ 2) * r -
        ((r2 * v3 - r3 * v2) * n1 + (r3 * v1 - r1 * v3) * n2 + (r1 * v2 - r2 * v1) * n3) * u -
        ((u2 * r3 - u3 * r2) * n1 + (u3 * r1 - u1 * r3) * n2 + (u1 * r2 - u2 * r1) * n3) * v =
          (n1 * r1 + n2 * r2 + n3 * r3) * n →
        r - ((r2 * v3 - r3 * v2) * n1 + (r3 * v1 - r1 * v3) * n2 + (r1 * v2 - r2 * v1) * n3) / (n1 ^ 2 + n2 ^ 2 + n3 ^ 2) * u -
          ((u2 * r3 - u3 * r2) * n1 + (u3 * r1 - u1 * r3) * n2 + (u1 * r2 - u2 * r1) * n3) / (n1 ^ 2 + n2 ^ 2 + n3 ^ 2) * v =
          (n1 * r1 + n2 * r2 + n3 * r3) / (n1 ^ 2 + n2 ^ 2 + n3 ^ 2) * n := by
      intro r u v n h
      rw [div_mul_eq_mul_div, div_mul_eq_mul_div, div_mul_eq_mul_div, eq_div_iff hpos.ne', sub_mul, sub_mul,
        div_mul_cancel₀ _ hpos.ne', div_mul_cancel₀ _ hpos.ne', mul_comm r]
      exact h
    rw [key r1 u1 v1 n1 (by rw [hn1, hn2, hn3]; ring), key r2 u2 v2 n2 (by rw [hn1, hn2, hn3]; ring),
      key r3 u3 v3 n3 (by rw [hn1, hn2, hn3]; ring)]
    congr 1
    generalize n1 * r1 + n2 * r2 + n3 * r3 = d
    field_simp
  · intro s t
    apply Real.sqrt_le_sqrt
    have hn : n1 * r1 + n2 * r2 + n3 * r3 =
        n1 * (r1 - s * u1 - t * v1) + n2 * (r2 - s * u2 - t * v2) + n3 * (r3 - s * u3 - t * v3) := by
      rw [hn1, hn2, hn3]
      ring
    rw [hn, div_le_iff₀ hpos]
    generalize r1 - s * u1 - t * v1 = x
    generalize r2 - s * u2 - t * v2 = y
    generalize r3 - s * u3 - t * v3 = z
    clear * -
    nlinarith [sq_nonneg (n1 * y - n2 * x), sq_nonneg (n1 * z - n3 * x), sq_nonneg (n2 * z - n3 * y)]

/-- C70: with exact numbers, `distance_point_plane` is the distance to the plane through the three points the plane was
    made from, unless these are on a line. -/
theorem C70_plane (a b c p : P3 ℝ) (hab : a ≠ b) (hc : c ∉ lineThrough a b) :
    IsDistance (planeSet a b c) p (distancePointPlane p (planeThrough a b c)) := by
  obtain ⟨ax, ay, az⟩ := a
  obtain ⟨bx, by', bz⟩ := b
  obtain ⟨cx, cy, cz⟩ := c
  obtain ⟨px, py, pz⟩ := p
  have hupos : 0 < (bx - ax) ^ 2 + (by' - ay) ^ 2 + (bz - az) ^ 2 := by
    apply sum_sq_pos
    rintro ⟨h0, h1, h2⟩
    apply hab
    congr 1 <;> linarith
  have hpos := sum_sq_pos (x := (by' - ay) * (cz - az) - (bz - az) * (cy - ay)) (y := (bz - az) * (cx - ax) - (bx - ax) * (cz - az))
    (z := (bx - ax) * (cy - ay) - (by' - ay) * (cx - ax)) (by
      rintro ⟨h0, h1, h2⟩
      obtain ⟨t, t1, t2, t3⟩ := parallel hupos h0 h1 h2
      apply hc
      refine ⟨t, ?_⟩
      rw [← t1, ← t2, ← t3]
      congr 1 <;> ring)
  rw [plane_formula]
  obtain ⟨⟨s, t, h1⟩, h2⟩ := plane_distance (bx - ax) (by' - ay) (bz - az) (cx - ax) (cy - ay) (cz - az) (px - ax) (py - ay)
    (pz - az) _ _ _ rfl rfl rfl hpos
  have he : ∀ s t : ℝ, euclidean ⟨px, py, pz⟩ ⟨ax + s * (bx - ax) + t * (cx - ax), ay + s * (by' - ay) + t * (cy - ay),
      az + s * (bz - az) + t * (cz - az)⟩ =
      √((px - ax - s * (bx - ax) - t * (cx - ax)) ^ 2 + (py - ay - s * (by' - ay) - t * (cy - ay)) ^ 2 +
        (pz - az - s * (bz - az) - t * (cz - az)) ^ 2) := by
    intro s t
    unfold euclidean
    have hh : ∀ p a u v : ℝ, p - (a + s * u + t * v) = p - a - s * u - t * v := by intro p a u v; ring
    dsimp only
    rw [hh, hh, hh]
  constructor
  · exact ⟨_, ⟨s, t, rfl⟩, by rw [he, h1]⟩
  · rintro q ⟨s, t, rfl⟩
    rw [he]
    exact h2 s t

/-- Three points that are not on a line, and a point at distance 2. -/
example : IsDistance (planeSet ⟨0, 0, 0⟩ ⟨1, 0, 0⟩ ⟨0, 3, 0⟩) ⟨5, 6, 2⟩
    (distancePointPlane (⟨5, 6, 2⟩ : P3 ℝ) (planeThrough ⟨0, 0, 0⟩ ⟨1, 0, 0⟩ ⟨0, 3, 0⟩)) := by
  apply C70_plane
  · intro h
    have := congrArg P3.x h
    norm_num at this
  · rintro ⟨t, h⟩
    have := congrArg P3.y h
    norm_num at this

end Pasture.Props
