import Verif.Lemmas.Eigenvalues

/-!
# How good the estimated normal is
-/

namespace Pasture.Normals

open Spec

theorem scatter_symmetric (c : P3 ℝ) (ps : List (P3 ℝ)) : Symmetric (scatter c ps) := ⟨rfl, rfl, rfl⟩

theorem spread_nonneg (ps : List (P3 ℝ)) (v : P3 ℝ) : 0 ≤ spread ps v :=
  total_nonneg fun _ _ => sq_nonneg _

theorem scalar_times (k : ℝ) (v : P3 ℝ) : scalar (times k v) (times k v) = k ^ 2 * scalar v v := by
  simp only [scalar, times]; ring

theorem spread_times (ps : List (P3 ℝ)) (k : ℝ) (v : P3 ℝ) : spread ps (times k v) = k ^ 2 * spread ps v := by
  rw [spread_eq, spread_eq]
  simp only [scalar, times, apply]; ring

theorem scalar_times_right (k : ℝ) (v : P3 ℝ) : scalar v (times k v) = k * scalar v v := by
  simp only [scalar, times]; ring

theorem least_nonneg {ps : List (P3 ℝ)} {l : P3 ℝ} (hl : SortedRoots (chi (scatter (meanPoint ps) ps)) l) :
    0 ≤ l.x := by
  obtain ⟨v, hv, he⟩ := eigenvector (scatter_symmetric _ _) hl
  have h := spread_nonneg ps v
  rw [spread_eq, he, scalar_times_right] at h
  exact nonneg_of_mul_nonneg_left h (scalar_pos hv)

/-- The eigenvectors of the least eigenvalue are the best normals. -/
theorem best_of_least {ps : List (P3 ℝ)} {l v : P3 ℝ} (hl : SortedRoots (chi (scatter (meanPoint ps) ps)) l)
    (hv : v ≠ ⟨0, 0, 0⟩) (he : apply (scatter (meanPoint ps) ps) v = times l.x v) : BestNormal ps v := by
  refine ⟨hv, fun m => ?_⟩
  have h := rayleigh (scatter_symmetric _ _) hl m
  rw [← spread_eq] at h
  rw [spread_eq ps v, he, scalar_times_right]
  nlinarith [scalar_self v]

theorem variation_of_least {ps : List (P3 ℝ)} {l : P3 ℝ} (hl : SortedRoots (chi (scatter (meanPoint ps) ps)) l)
    {c : ℝ} (hc : c * totalSpread ps = l.x) : SurfaceVariation ps c := by
  obtain ⟨v, hv, he⟩ := eigenvector (scatter_symmetric _ _) hl
  refine ⟨v, best_of_least hl hv he, ?_⟩
  rw [spread_eq ps v, he, scalar_times_right, ← hc]
  ring

theorem variation_unique {ps : List (P3 ℝ)} {c : ℝ} (h0 : totalSpread ps ≠ 0) {c' : ℝ} (h : SurfaceVariation ps c)
    (h' : SurfaceVariation ps c') : c = c' := by
  obtain ⟨n, ⟨hn, hb⟩, e⟩ := h
  obtain ⟨n', ⟨hn', hb'⟩, e'⟩ := h'
  have h1 := hb n'
  have h2 := hb' n
  have p := scalar_pos hn
  have p' := scalar_pos hn'
  rw [← e, ← e'] at h1 h2
  have : c * (totalSpread ps * (scalar n n * scalar n' n')) = c' * (totalSpread ps * (scalar n n * scalar n' n')) := by
    apply le_antisymm <;> linarith
  exact mul_right_cancel₀ (mul_ne_zero h0 (mul_pos p p').ne') this

/-! ## The rows of the adjugate -/

/-- A cross product of two rows is mapped to a multiple of an axis. -/
theorem apply_crosses {a : Mat3 ℝ} (h : Symmetric a) :
    apply a (Vec3.cross a.row0 a.row1) = ⟨0, 0, coefficient0 a⟩ ∧
    apply a (Vec3.cross a.row0 a.row2) = ⟨0, -coefficient0 a, 0⟩ ∧
    apply a (Vec3.cross a.row1 a.row2) = ⟨coefficient0 a, 0, 0⟩ := by
  obtain ⟨h1, h2, h3⟩ := h
  simp only [apply, scalar, Vec3.cross, coefficient0, Arith.add, Arith.sub, Arith.mul, Number.ofInt, P3.mk.injEq, h1, h2,
    h3]
  push_cast
  refine ⟨⟨?_, ?_, ?_⟩, ⟨?_, ?_, ?_⟩, ⟨?_, ?_, ?_⟩⟩ <;> ring

theorem form_crosses {a : Mat3 ℝ} (h : Symmetric a) {r : P3 ℝ} (hr : r ∈ crosses a) :
    scalar r (apply a r) ^ 2 ≤ coefficient0 a ^ 2 * scalar r r := by
  obtain ⟨h1, h2, h3⟩ := apply_crosses h
  simp only [crosses, List.mem_cons, List.not_mem_nil, or_false] at hr
  rcases hr with rfl | rfl | rfl
  · rw [h1]
    generalize Vec3.cross a.row0 a.row1 = r
    simp only [scalar]
    nlinarith [sq_nonneg (coefficient0 a * r.x), sq_nonneg (coefficient0 a * r.y)]
  · rw [h2]
    generalize Vec3.cross a.row0 a.row2 = r
    simp only [scalar]
    nlinarith [sq_nonneg (coefficient0 a * r.x), sq_nonneg (coefficient0 a * r.z)]
  · rw [h3]
    generalize Vec3.cross a.row1 a.row2 = r
    simp only [scalar]
    nlinarith [sq_nonneg (coefficient0 a * r.y), sq_nonneg (coefficient0 a * r.z)]

theorem apply_symmetric {a : Mat3 ℝ} (h : Symmetric a) (v w : P3 ℝ) : scalar v (apply a w) = scalar (apply a v) w := by
  obtain ⟨h1, h2, h3⟩ := h
  simp only [scalar, apply, h1, h2, h3]
  ring

theorem cauchy (v w : P3 ℝ) : scalar v w ^ 2 ≤ scalar v v * scalar w w := by
  simp only [scalar]
  nlinarith [sq_nonneg (v.x * w.y - v.y * w.x), sq_nonneg (v.x * w.z - v.z * w.x), sq_nonneg (v.y * w.z - v.z * w.y)]

/-- If no cross product is longer than `n`, then `n` is long. -/
theorem long_crosses {a : Mat3 ℝ} (h : Symmetric a) {n v : P3 ℝ} {k : ℝ} (hn : ∀ r ∈ crosses a, scalar r r ≤ scalar n n)
    (hv : v ≠ ⟨0, 0, 0⟩) (he : apply a v = times k v) : coefficient0 a ^ 2 ≤ 3 * k ^ 2 * scalar n n := by
  obtain ⟨h1, h2, h3⟩ := apply_crosses h
  have hp := scalar_pos hv
  have key : ∀ r ∈ crosses a, scalar (apply a r) v ^ 2 ≤ k ^ 2 * (scalar n n * scalar v v) := by
    intro r hr
    rw [← apply_symmetric h, he]
    have e : scalar r (times k v) = k * scalar r v := by simp only [scalar, times]; ring
    rw [e, mul_pow]
    exact mul_le_mul_of_nonneg_left ((cauchy r v).trans (mul_le_mul_of_nonneg_right (hn r hr) hp.le)) (sq_nonneg k)
  have k1 := key _ (List.mem_cons_self)
  have k2 := key _ (List.mem_cons_of_mem _ List.mem_cons_self)
  have k3 := key _ (List.mem_cons_of_mem _ (List.mem_cons_of_mem _ List.mem_cons_self))
  rw [h1] at k1
  rw [h2] at k2
  rw [h3] at k3
  have : coefficient0 a ^ 2 * scalar v v ≤ 3 * k ^ 2 * scalar n n * scalar v v := by
    simp only [scalar] at *
    nlinarith
  exact le_of_mul_le_mul_right this hp

/-- The plane through the mean that is orthogonal to the longest cross product is at most `√3` times as far from the
    points as the best one. -/
theorem near_best {ps : List (P3 ℝ)} {n : P3 ℝ} (hm : n ∈ crosses (scatter (meanPoint ps) ps))
    (hn : ∀ r ∈ crosses (scatter (meanPoint ps) ps), scalar r r ≤ scalar n n) (m : P3 ℝ) :
    spread ps n * scalar m m ≤ √3 * (spread ps m * scalar n n) := by
  have hs := scatter_symmetric (meanPoint ps) ps
  obtain ⟨l, hl⟩ := sorted_exists hs
  obtain ⟨v, hv, he⟩ := eigenvector hs hl
  have h0 := least_nonneg hl
  have h1 := form_crosses hs hm
  have h2 := long_crosses hs hn hv he
  rw [← spread_eq] at h1
  have hN := scalar_self n
  have h3 : spread ps n ^ 2 ≤ (√3 * l.x * scalar n n) ^ 2 := by
    have e : (√3 * l.x * scalar n n) ^ 2 = 3 * l.x ^ 2 * scalar n n * scalar n n := by
      rw [mul_pow, mul_pow, Real.sq_sqrt (by norm_num)]; ring
    rw [e]
    exact h1.trans (mul_le_mul_of_nonneg_right h2 hN)
  have h4 : spread ps n ≤ √3 * l.x * scalar n n := by
    apply le_of_sq_le_sq h3 (by positivity)
  have h5 := rayleigh hs hl m
  rw [← spread_eq] at h5
  calc spread ps n * scalar m m ≤ √3 * l.x * scalar n n * scalar m m :=
        mul_le_mul_of_nonneg_right h4 (scalar_self m)
    _ = (√3 * scalar n n) * (l.x * scalar m m) := by ring
    _ ≤ (√3 * scalar n n) * spread ps m := mul_le_mul_of_nonneg_left h5 (by positivity)
    _ = √3 * (spread ps m * scalar n n) := by ring

/-! ## The result of the estimation -/

/-- The largest entry of the covariance matrix is on its diagonal. -/
theorem largest_diagonal (ps : List (P3 ℝ)) : largestEntry (scatter (meanPoint ps) ps) =
    Max.max (Max.max (spread ps ⟨1, 0, 0⟩) (spread ps ⟨0, 1, 0⟩)) (spread ps ⟨0, 0, 1⟩) := by
  have hs := scatter_symmetric (meanPoint ps) ps
  have hform : ∀ v, 0 ≤ scalar v (apply (scatter (meanPoint ps) ps) v) := fun v => by
    rw [← spread_eq]; exact spread_nonneg ps v
  rw [spread_eq, spread_eq, spread_eq]
  generalize scatter (meanPoint ps) ps = a at *
  obtain ⟨h1, h2, h3⟩ := hs
  obtain ⟨⟨p, q, r⟩, ⟨q', s, t⟩, ⟨r', t', u⟩⟩ := a
  simp only at h1 h2 h3
  subst h1 h2 h3
  simp only [scalar, apply] at hform ⊢
  have f1 := hform ⟨1, 0, 0⟩
  have f2 := hform ⟨0, 1, 0⟩
  have f3 := hform ⟨0, 0, 1⟩
  have f4 := hform ⟨1, 1, 0⟩
  have f5 := hform ⟨1, -1, 0⟩
  have f6 := hform ⟨1, 0, 1⟩
  have f7 := hform ⟨1, 0, -1⟩
  have f8 := hform ⟨0, 1, 1⟩
  have f9 := hform ⟨0, 1, -1⟩
  simp only [mul_one, mul_zero, zero_mul, one_mul, add_zero, zero_add, mul_neg, neg_mul] at *
  simp only [largestEntry, List.foldl_cons, List.foldl_nil, max_real, abs_real]
  rw [abs_of_nonneg f1, abs_of_nonneg f2, abs_of_nonneg f3]
  apply le_antisymm
  · have m1 : p ≤ Max.max (Max.max p s) u := by simp
    have m2 : s ≤ Max.max (Max.max p s) u := by simp
    have m3 : u ≤ Max.max (Max.max p s) u := by simp
    generalize Max.max (Max.max p s) u = m at *
    have b1 : |q'| ≤ m := abs_le'.2 ⟨by linarith, by linarith⟩
    have b2 : |r'| ≤ m := abs_le'.2 ⟨by linarith, by linarith⟩
    have b3 : |t'| ≤ m := abs_le'.2 ⟨by linarith, by linarith⟩
    simp only [max_le_iff]
    simp only [m1, m2, m3, b1, b2, b3, and_self]
  · refine max_le (max_le ?_ ?_) ?_ <;> simp only [le_max_iff, le_refl, true_or, or_true]

/-- The estimate in exact arithmetic. -/
theorem estimate_real {ps : List (P3 ℝ)} (h3 : 3 ≤ ps.length) : ∃ n c l,
    normalEstimation exactTrig ps = .ok (n, c) ∧ SortedRoots (chi (scatter (meanPoint ps) ps)) l ∧
    n = largestEigenVector (scaled (scatter (meanPoint ps) ps) (largestEntry (scatter (meanPoint ps) ps))) ∧
    c = if totalSpread ps = 0 then 0 else if |coefficient0 (scatter (meanPoint ps) ps)| < 1 / 2 ^ 52 then 0 else
      l.x * largestEntry (scatter (meanPoint ps) ps) / totalSpread ps := by
  obtain ⟨l, hl⟩ := sorted_exists (scatter_symmetric (meanPoint ps) ps)
  have hx := least_nonneg hl
  obtain ⟨v, hv, he⟩ := polynomial_real hl hx
  have ht : 0 ≤ totalSpread ps := total_nonneg fun _ _ => scalar_self _
  have hs := largestEntry_nonneg (scatter (meanPoint ps) ps)
  rw [estimation_real _ h3]
  unfold solvePlaneParameter eigen3x3
  rw [hv]
  refine ⟨_, _, l, rfl, hl, rfl, ?_⟩
  simp only [Arith.add, Arith.mul, Arith.div, Arith.eq, Arith.zero, abs_real, decide_eq_true_eq]
  rw [← total_eq, he]
  split_ifs
  · rfl
  · simp
  · rw [abs_of_nonneg (by positivity)]

end Pasture.Normals
