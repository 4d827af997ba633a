import Mathlib.Tactic.Linarith
import Mathlib.Tactic.LinearCombination
import Mathlib.Tactic.FieldSimp
import Mathlib.Algebra.BigOperators.Group.List.Basic
import Verif.Spec.Normals

/-!
# Normal estimation in exact arithmetic
-/

namespace Pasture.Normals

open Spec

/-! ## Sums over the points -/

/-- The sum of `f` over the points. -/
noncomputable def total (f : P3 ℝ → ℝ) (ps : List (P3 ℝ)) : ℝ := (ps.map f).sum

theorem total_nil (f : P3 ℝ → ℝ) : total f [] = 0 := rfl

theorem total_cons (f : P3 ℝ → ℝ) (p : P3 ℝ) (ps : List (P3 ℝ)) : total f (p :: ps) = f p + total f ps := by
  simp [total]

theorem total_add (f g : P3 ℝ → ℝ) (ps : List (P3 ℝ)) : total (fun p => f p + g p) ps = total f ps + total g ps := by
  induction ps with
  | nil => simp [total_nil]
  | cons p ps ih => rw [total_cons, total_cons, total_cons, ih]; ring

theorem total_mul (c : ℝ) (f : P3 ℝ → ℝ) (ps : List (P3 ℝ)) : total (fun p => c * f p) ps = c * total f ps := by
  induction ps with
  | nil => simp [total_nil]
  | cons p ps ih => rw [total_cons, total_cons, ih]; ring

theorem total_congr {f g : P3 ℝ → ℝ} {ps : List (P3 ℝ)} (h : ∀ p ∈ ps, f p = g p) : total f ps = total g ps := by
  unfold total
  congr 1
  exact List.map_congr_left h

theorem total_nonneg {f : P3 ℝ → ℝ} {ps : List (P3 ℝ)} (h : ∀ p ∈ ps, 0 ≤ f p) : 0 ≤ total f ps := by
  induction ps with
  | nil => simp [total_nil]
  | cons p ps ih =>
    rw [total_cons]
    exact add_nonneg (h p (by simp)) (ih fun q hq => h q (by simp [hq]))

theorem total_zero {f : P3 ℝ → ℝ} {ps : List (P3 ℝ)} (h : ∀ p ∈ ps, 0 ≤ f p) (hz : total f ps = 0) :
    ∀ p ∈ ps, f p = 0 := by
  induction ps with
  | nil => simp
  | cons p ps ih =>
    rw [total_cons] at hz
    have h1 := h p (by simp)
    have h2 := total_nonneg fun q hq => h q (List.mem_cons_of_mem p hq)
    intro q hq
    rcases List.mem_cons.1 hq with e | hq
    · rw [e]; linarith
    · exact ih (fun q hq => h q (by simp [hq])) (by linarith) q hq

/-! ## The centroid -/

theorem dense_real (ps : List (P3 ℝ)) : isDense ps = true := by
  unfold isDense
  simp [Number.isNaN]

theorem fold_addPoint : ∀ (ps : List (P3 ℝ)) (s : P3 ℝ),
    ps.foldl addPoint s = ⟨s.x + (ps.map P3.x).sum, s.y + (ps.map P3.y).sum, s.z + (ps.map P3.z).sum⟩
  | [], s => by simp
  | p :: ps, s => by
    rw [List.foldl_cons, fold_addPoint ps]
    simp only [addPoint, Arith.add, List.map_cons, List.sum_cons, add_assoc]

theorem centroid_real {ps : List (P3 ℝ)} (h : ps ≠ []) : centroid ps = .ok (meanPoint ps) := by
  unfold centroid
  rw [if_neg (by simpa using h)]
  simp only [dense_real, if_true, fold_addPoint]
  simp [meanPoint, meanOf, Arith.zero, Arith.div, Number.ofInt]

/-! ## The covariance matrix -/

/-- The matrix of the sums of the products of the coordinates relative to `c`. -/
noncomputable def scatter (c : P3 ℝ) (ps : List (P3 ℝ)) : Mat3 ℝ :=
  let x := fun p : P3 ℝ => p.x - c.x
  let y := fun p : P3 ℝ => p.y - c.y
  let z := fun p : P3 ℝ => p.z - c.z
  let e := fun f g : P3 ℝ → ℝ => total (fun p => f p * g p) ps
  ⟨⟨e x x, e x y, e x z⟩, ⟨e x y, e y y, e y z⟩, ⟨e x z, e y z, e z z⟩⟩

theorem fold_covariance (c : P3 ℝ) : ∀ (ps : List (P3 ℝ)) (m : Upper ℝ), ps.foldl (covarianceAdd c) m =
    ⟨m.a00 + (scatter c ps).row0.x, m.a01 + (scatter c ps).row0.y, m.a02 + (scatter c ps).row0.z,
     m.a11 + (scatter c ps).row1.y, m.a12 + (scatter c ps).row1.z, m.a22 + (scatter c ps).row2.z⟩
  | [], m => by simp [scatter, total_nil]
  | p :: ps, m => by
    rw [List.foldl_cons, fold_covariance c ps]
    simp only [covarianceAdd, scatter, total_cons, Arith.add, Arith.sub, Arith.mul, Upper.mk.injEq]
    refine ⟨by ring, by ring, by ring, by ring, by ring, by ring⟩

theorem covariance_real {ps : List (P3 ℝ)} (h : 3 ≤ ps.length) :
    covarianceMatrix ps = .ok (scatter (meanPoint ps) ps) := by
  unfold covarianceMatrix
  rw [centroid_real (by rintro rfl; simp at h)]
  simp only [dense_real, if_true, fold_covariance, bind, Except.bind, bailIf]
  rw [if_neg (by simp; omega)]
  simp [Arith.zero, scatter, pure, Except.pure]

/-- The product of a matrix and a vector. -/
noncomputable def apply (a : Mat3 ℝ) (v : P3 ℝ) : P3 ℝ := ⟨scalar a.row0 v, scalar a.row1 v, scalar a.row2 v⟩

theorem scatter_apply (c : P3 ℝ) (ps : List (P3 ℝ)) (v : P3 ℝ) : apply (scatter c ps) v =
    ⟨total (fun p => (p.x - c.x) * scalar v (minus p c)) ps, total (fun p => (p.y - c.y) * scalar v (minus p c)) ps,
     total (fun p => (p.z - c.z) * scalar v (minus p c)) ps⟩ := by
  have key : ∀ f : P3 ℝ → ℝ, total (fun p => f p * scalar v (minus p c)) ps =
      total (fun p => f p * (p.x - c.x)) ps * v.x + total (fun p => f p * (p.y - c.y)) ps * v.y +
        total (fun p => f p * (p.z - c.z)) ps * v.z := by
    intro f
    induction ps with
    | nil => simp [total_nil]
    | cons p ps ih =>
      rw [total_cons, total_cons, total_cons, total_cons, ih]
      have e : scalar v (minus p c) = v.x * (p.x - c.x) + v.y * (p.y - c.y) + v.z * (p.z - c.z) := rfl
      rw [e]
      ring
  rw [key fun p => p.x - c.x, key fun p => p.y - c.y, key fun p => p.z - c.z]
  unfold apply scatter
  simp only [scalar, P3.mk.injEq]
  have sw : ∀ f g : P3 ℝ → ℝ, total (fun p => f p * g p) ps = total (fun p => g p * f p) ps :=
    fun f g => total_congr fun p _ => mul_comm _ _
  refine ⟨trivial, ?_, ?_⟩
  · rw [sw (fun p => p.y - c.y) fun p => p.x - c.x]
  · rw [sw (fun p => p.z - c.z) fun p => p.x - c.x, sw (fun p => p.z - c.z) fun p => p.y - c.y]

theorem scatter_form (c : P3 ℝ) (ps : List (P3 ℝ)) (v : P3 ℝ) :
    scalar v (apply (scatter c ps) v) = total (fun p => scalar v (minus p c) ^ 2) ps := by
  rw [scatter_apply]
  induction ps with
  | nil => simp [total_nil, scalar]
  | cons p ps ih =>
    simp only [total_cons, scalar, minus] at ih ⊢
    linear_combination ih

theorem spread_eq (ps : List (P3 ℝ)) (v : P3 ℝ) :
    spread ps v = scalar v (apply (scatter (meanPoint ps) ps) v) := (scatter_form _ _ _).symm

theorem total_eq (ps : List (P3 ℝ)) : totalSpread ps = (scatter (meanPoint ps) ps).row0.x +
    (scatter (meanPoint ps) ps).row1.y + (scatter (meanPoint ps) ps).row2.z := by
  unfold totalSpread scatter
  simp only
  rw [← total_add, ← total_add]
  rfl

/-! ## The largest entry -/

theorem max_real (x y : ℝ) : Normals.max x y = Max.max x y := by
  unfold Normals.max
  by_cases h : x < y
  · simp [Number.isNaN, Arith.lt, h, h.le]
  · simp [Number.isNaN, Arith.lt, h, not_lt.1 h]

theorem abs_real (x : ℝ) : Arith.abs x = |x| := rfl

theorem largestEntry_real (a : Mat3 ℝ) : (∀ x ∈ [a.row0.x, a.row1.x, a.row2.x, a.row0.y, a.row1.y, a.row2.y, a.row0.z,
    a.row1.z, a.row2.z], |x| ≤ largestEntry a) := by
  intro x hx
  simp only [List.mem_cons, List.not_mem_nil, or_false] at hx
  simp only [largestEntry, List.foldl_cons, List.foldl_nil, max_real, abs_real, le_max_iff]
  rcases hx with rfl | rfl | rfl | rfl | rfl | rfl | rfl | rfl | rfl <;> simp

theorem largestEntry_nonneg (a : Mat3 ℝ) : 0 ≤ largestEntry a :=
  (abs_nonneg _).trans (largestEntry_real a a.row0.x (by simp))

theorem largestEntry_zero {a : Mat3 ℝ} (h : largestEntry a = 0) : a = ⟨⟨0, 0, 0⟩, ⟨0, 0, 0⟩, ⟨0, 0, 0⟩⟩ := by
  have key := largestEntry_real a
  rw [h] at key
  simp only [List.mem_cons, List.not_mem_nil, or_false, abs_nonpos_iff, forall_eq_or_imp, forall_eq] at key
  obtain ⟨h1, h2, h3, h4, h5, h6, h7, h8, h9⟩ := key
  obtain ⟨⟨a1, a2, a3⟩, ⟨b1, b2, b3⟩, ⟨c1, c2, c3⟩⟩ := a
  simp_all

/-! ## The longest cross product -/

/-- The cross products of the rows. -/
noncomputable def crosses (a : Mat3 ℝ) : List (P3 ℝ) :=
  [Vec3.cross a.row0 a.row1, Vec3.cross a.row0 a.row2, Vec3.cross a.row1 a.row2]

theorem norm_real (v : P3 ℝ) : Vec3.norm v = √(scalar v v) := by
  simp [Vec3.norm, Vec3.magnitudeSquared, Vec3.dot, scalar, Arith.sqrt, Arith.add, Arith.mul, Arith.zero]

theorem scalar_self (v : P3 ℝ) : 0 ≤ scalar v v := by
  unfold scalar; nlinarith [mul_self_nonneg v.x, mul_self_nonneg v.y, mul_self_nonneg v.z]

theorem scalar_pos {v : P3 ℝ} (h : v ≠ ⟨0, 0, 0⟩) : 0 < scalar v v := by
  rcases (scalar_self v).lt_or_eq with h1 | h1
  · exact h1
  · exfalso
    apply h
    obtain ⟨x, y, z⟩ := v
    simp only [scalar] at h1
    have hx : x = 0 := by nlinarith [mul_self_nonneg x, mul_self_nonneg y, mul_self_nonneg z]
    have hy : y = 0 := by nlinarith [mul_self_nonneg x, mul_self_nonneg y, mul_self_nonneg z]
    have hz : z = 0 := by nlinarith [mul_self_nonneg x, mul_self_nonneg y, mul_self_nonneg z]
    rw [hx, hy, hz]

theorem longest_fold (rows : List (P3 ℝ)) : ∀ v : P3 ℝ,
    let w := rows.foldl (fun largest row =>
      if Arith.lt (Vec3.norm largest) (Vec3.norm row) then row else largest) v
    (w = v ∨ w ∈ rows) ∧ scalar v v ≤ scalar w w ∧ ∀ r ∈ rows, scalar r r ≤ scalar w w := by
  induction rows with
  | nil => intro v; simp
  | cons r rows ih =>
    intro v
    rw [List.foldl_cons]
    by_cases h : Vec3.norm v < Vec3.norm r
    · rw [if_pos (by simpa [Arith.lt] using h)]
      obtain ⟨h1, h2, h3⟩ := ih r
      have hv : scalar v v ≤ scalar r r := by
        rw [norm_real, norm_real] at h
        exact (Real.sqrt_le_sqrt_iff (scalar_self r)).1 h.le
      refine ⟨?_, hv.trans h2, ?_⟩
      · rcases h1 with h1 | h1
        · exact .inr (by rw [h1]; simp)
        · exact .inr (List.mem_cons_of_mem _ h1)
      · intro q hq
        rcases List.mem_cons.1 hq with rfl | hq
        · exact h2
        · exact h3 q hq
    · rw [if_neg (by simpa [Arith.lt] using h)]
      obtain ⟨h1, h2, h3⟩ := ih v
      have hv : scalar r r ≤ scalar v v := by
        rw [norm_real, norm_real, not_lt] at h
        exact (Real.sqrt_le_sqrt_iff (scalar_self v)).1 h
      refine ⟨?_, h2, ?_⟩
      · rcases h1 with h1 | h1
        · exact .inl h1
        · exact .inr (List.mem_cons_of_mem _ h1)
      · intro q hq
        rcases List.mem_cons.1 hq with rfl | hq
        · exact hv.trans h2
        · exact h3 q hq

theorem largest_real (a : Mat3 ℝ) : largestEigenVector a ∈ crosses a ∧
    ∀ r ∈ crosses a, scalar r r ≤ scalar (largestEigenVector a) (largestEigenVector a) := by
  obtain ⟨h1, h2, h3⟩ := longest_fold (crosses a) (Vec3.cross a.row0 a.row1)
  refine ⟨?_, h3⟩
  rcases h1 with h1 | h1
  · exact List.mem_cons.2 (.inl h1)
  · exact h1

/-- The vector `v` times `k`. -/
noncomputable def times (k : ℝ) (v : P3 ℝ) : P3 ℝ := ⟨k * v.x, k * v.y, k * v.z⟩

theorem crosses_scaled (a : Mat3 ℝ) (s : ℝ) : crosses (scaled a s) = (crosses a).map (times (1 / s ^ 2)) := by
  simp only [crosses, scaled, List.map_cons, List.map_nil, times, Vec3.cross, Arith.mul, Arith.sub, Arith.div,
    List.cons.injEq, P3.mk.injEq, and_true]
  refine ⟨⟨?_, ?_, ?_⟩, ⟨?_, ?_, ?_⟩, ⟨?_, ?_, ?_⟩⟩ <;> ring

/-! ## Points in a plane -/

theorem cross_kernel {r q u : P3 ℝ} (hr : scalar r u = 0) (hq : scalar q u = 0) :
    Vec3.cross (Vec3.cross r q) u = ⟨0, 0, 0⟩ := by
  simp only [Vec3.cross, Arith.mul, Arith.sub, P3.mk.injEq, scalar] at *
  refine ⟨?_, ?_, ?_⟩
  · linear_combination q.x * hr - r.x * hq
  · linear_combination q.y * hr - r.y * hq
  · linear_combination q.z * hr - r.z * hq

theorem parallel_scalar {n u d : P3 ℝ} (h : Vec3.cross n u = ⟨0, 0, 0⟩) :
    scalar u u * scalar n d = scalar n u * scalar u d := by
  simp only [Vec3.cross, Arith.mul, Arith.sub, P3.mk.injEq, scalar] at *
  obtain ⟨h1, h2, h3⟩ := h
  linear_combination (u.z * d.y - u.y * d.z) * h1 + (u.x * d.z - u.z * d.x) * h2 + (u.y * d.x - u.x * d.y) * h3

theorem lagrange (r q w : P3 ℝ) : scalar r r * scalar q w = scalar r q * scalar r w +
    scalar (Vec3.cross r q) (Vec3.cross r w) := by
  simp only [Vec3.cross, Arith.mul, Arith.sub, scalar]
  ring

theorem cross_swap {r q : P3 ℝ} (h : Vec3.cross r q = ⟨0, 0, 0⟩) : Vec3.cross q r = ⟨0, 0, 0⟩ := by
  simp only [Vec3.cross, Arith.mul, Arith.sub, P3.mk.injEq] at *
  obtain ⟨h1, h2, h3⟩ := h
  refine ⟨?_, ?_, ?_⟩ <;> linarith

theorem cross_self (r : P3 ℝ) : Vec3.cross r r = ⟨0, 0, 0⟩ := by
  simp only [Vec3.cross, Arith.mul, Arith.sub, P3.mk.injEq]
  refine ⟨?_, ?_, ?_⟩ <;> ring

theorem scalar_zero (v : P3 ℝ) : scalar ⟨0, 0, 0⟩ v = 0 := by simp [scalar]

/-- If all rows are multiples of one of them, the points are on a line with its direction. -/
theorem line_of_row {c : P3 ℝ} {ps : List (P3 ℝ)} {r : P3 ℝ} (hr : r ≠ ⟨0, 0, 0⟩)
    (h0 : Vec3.cross r (scatter c ps).row0 = ⟨0, 0, 0⟩) (h1 : Vec3.cross r (scatter c ps).row1 = ⟨0, 0, 0⟩)
    (h2 : Vec3.cross r (scatter c ps).row2 = ⟨0, 0, 0⟩) : Collinear ps := by
  have hp := scalar_pos hr
  have kernel : ∀ w, scalar r w = 0 → ∀ p ∈ ps, scalar w (minus p c) = 0 := by
    intro w hw
    have row : ∀ q, Vec3.cross r q = ⟨0, 0, 0⟩ → scalar q w = 0 := by
      intro q hq
      have := lagrange r q w
      rw [hq, scalar_zero, hw] at this
      simp only [mul_zero, add_zero] at this
      rcases mul_eq_zero.1 this with h | h
      · exact absurd h hp.ne'
      · exact h
    have hform := scatter_form c ps w
    rw [apply, row _ h0, row _ h1, row _ h2] at hform
    have hz : total (fun p => scalar w (minus p c) ^ 2) ps = 0 := by rw [← hform]; simp [scalar]
    intro p hp
    have := total_zero (fun p _ => sq_nonneg _) hz p hp
    exact pow_eq_zero_iff (two_ne_zero) |>.1 this
  refine ⟨c, r, fun p hp' => ⟨scalar r (minus p c) / scalar r r, ?_⟩⟩
  have e1 := kernel ⟨0, r.z, -r.y⟩ (by simp only [scalar]; ring) p hp'
  have e2 := kernel ⟨-r.z, 0, r.x⟩ (by simp only [scalar]; ring) p hp'
  have e3 := kernel ⟨r.y, -r.x, 0⟩ (by simp only [scalar]; ring) p hp'
  obtain ⟨x, y, z⟩ := p
  simp only [scalar, minus, P3.mk.injEq] at *
  refine ⟨?_, ?_, ?_⟩
  · rw [div_mul_eq_mul_div, ← sub_eq_iff_eq_add', eq_div_iff hp.ne']
    linear_combination r.z * -e2 + r.y * -(-e3)
  · rw [div_mul_eq_mul_div, ← sub_eq_iff_eq_add', eq_div_iff hp.ne']
    linear_combination r.z * e1 - r.x * e3
  · rw [div_mul_eq_mul_div, ← sub_eq_iff_eq_add', eq_div_iff hp.ne']
    linear_combination r.x * e2 - r.y * e1

theorem collinear_of_crosses {c : P3 ℝ} {ps : List (P3 ℝ)} (h : ∀ r ∈ crosses (scatter c ps), r = ⟨0, 0, 0⟩) :
    Collinear ps := by
  simp only [crosses, List.mem_cons, List.not_mem_nil, or_false, forall_eq_or_imp, forall_eq] at h
  obtain ⟨h01, h02, h12⟩ := h
  by_cases r0 : (scatter c ps).row0 = ⟨0, 0, 0⟩
  · by_cases r1 : (scatter c ps).row1 = ⟨0, 0, 0⟩
    · by_cases r2 : (scatter c ps).row2 = ⟨0, 0, 0⟩
      · refine ⟨c, ⟨0, 0, 0⟩, fun p hp => ⟨0, ?_⟩⟩
        have hx : total (fun p : P3 ℝ => (p.x - c.x) * (p.x - c.x)) ps = 0 := congrArg P3.x r0
        have hy : total (fun p : P3 ℝ => (p.y - c.y) * (p.y - c.y)) ps = 0 := congrArg P3.y r1
        have hz : total (fun p : P3 ℝ => (p.z - c.z) * (p.z - c.z)) ps = 0 := congrArg P3.z r2
        have ex := mul_self_eq_zero.1 (total_zero (fun p _ => mul_self_nonneg _) hx p hp)
        have ey := mul_self_eq_zero.1 (total_zero (fun p _ => mul_self_nonneg _) hy p hp)
        have ez := mul_self_eq_zero.1 (total_zero (fun p _ => mul_self_nonneg _) hz p hp)
        obtain ⟨x, y, z⟩ := p
        simp only [P3.mk.injEq] at *
        refine ⟨by linarith, by linarith, by linarith⟩
      · exact line_of_row r2 (cross_swap h02) (cross_swap h12) (cross_self _)
    · exact line_of_row r1 (cross_swap h01) (cross_self _) h12
  · exact line_of_row r0 (cross_self _) h01 h02

theorem mean_plane {ps : List (P3 ℝ)} {u : P3 ℝ} {h : ℝ} (hne : ps ≠ []) (hp : ∀ p ∈ ps, scalar u p = h) :
    scalar u (meanPoint ps) = h := by
  have hl : (0 : ℝ) < ps.length := by exact_mod_cast List.length_pos_iff.2 hne
  have e : ∀ qs : List (P3 ℝ), (∀ p ∈ qs, scalar u p = h) →
      u.x * (qs.map P3.x).sum + u.y * (qs.map P3.y).sum + u.z * (qs.map P3.z).sum = qs.length * h := by
    intro qs
    induction qs with
    | nil => simp
    | cons q qs ih =>
      intro hq
      have h1 := ih fun p hp => hq p (by simp [hp])
      have h2 := hq q (by simp)
      simp only [scalar] at h2
      simp only [List.map_cons, List.sum_cons, List.length_cons]
      push_cast
      linear_combination h1 + h2
  have := e ps hp
  simp only [scalar, meanPoint, meanOf, List.length_map]
  field_simp
  linear_combination this

theorem det_kernel {a : Mat3 ℝ} {u : P3 ℝ} (hs1 : a.row1.x = a.row0.y) (hs2 : a.row2.x = a.row0.z)
    (hs3 : a.row2.y = a.row1.z) (hu : u ≠ ⟨0, 0, 0⟩) (h : apply a u = ⟨0, 0, 0⟩) : coefficient0 a = 0 := by
  simp only [apply, scalar, P3.mk.injEq, hs1, hs2, hs3] at h
  obtain ⟨h1, h2, h3⟩ := h
  simp only [coefficient0, Arith.add, Arith.sub, Arith.mul, Number.ofInt]
  push_cast
  set A := a.row0.x
  set B := a.row0.y
  set C := a.row0.z
  set D := a.row1.y
  set E := a.row1.z
  set G := a.row2.z
  have kx : (A * D * G + 2 * B * C * E - A * E * E - D * C * C - G * B * B) * u.x = 0 := by
    linear_combination (D * G - E * E) * h1 + (C * E - B * G) * h2 + (B * E - C * D) * h3
  have ky : (A * D * G + 2 * B * C * E - A * E * E - D * C * C - G * B * B) * u.y = 0 := by
    linear_combination (C * E - B * G) * h1 + (A * G - C * C) * h2 + (B * C - A * E) * h3
  have kz : (A * D * G + 2 * B * C * E - A * E * E - D * C * C - G * B * B) * u.z = 0 := by
    linear_combination (B * E - C * D) * h1 + (B * C - A * E) * h2 + (A * D - B * B) * h3
  by_contra hc
  apply hu
  obtain ⟨x, y, z⟩ := u
  rw [mul_eq_zero] at kx ky kz
  simp only [P3.mk.injEq]
  exact ⟨kx.resolve_left hc, ky.resolve_left hc, kz.resolve_left hc⟩

/-- The estimate in exact arithmetic. -/
theorem estimation_real (trig : Trig ℝ) {ps : List (P3 ℝ)} (h : 3 ≤ ps.length) :
    normalEstimation trig ps = solvePlaneParameter trig (scatter (meanPoint ps) ps) := by
  unfold normalEstimation
  rw [covariance_real h]
  rfl

theorem solve_flat (trig : Trig ℝ) {a : Mat3 ℝ} (h : |coefficient0 a| < 1 / 2 ^ 52) :
    solvePlaneParameter trig a = .ok (largestEigenVector (scaled a (largestEntry a)), 0) := by
  unfold solvePlaneParameter eigen3x3 solvePolynomial
  rw [if_pos (by simpa [Arith.lt, Number.epsilon, abs_real] using h)]
  simp [bind, Except.bind, pure, Except.pure, solveQuadratic, Arith.zero, Arith.mul, Arith.div, abs_real]

theorem plane_estimate (trig : Trig ℝ) {ps : List (P3 ℝ)} (h3 : 3 ≤ ps.length) (hp : Coplanar ps)
    (hl : ¬Collinear ps) : ∃ n, normalEstimation trig ps = .ok (n, 0) ∧ n ≠ ⟨0, 0, 0⟩ ∧
      (∀ p ∈ ps, ∀ q ∈ ps, scalar n (minus p q) = 0) ∧ spread ps n = 0 := by
  obtain ⟨u, h, hu, hp⟩ := hp
  have hne : ps ≠ [] := by rintro rfl; simp at h3
  have hm := mean_plane hne hp
  have hd : ∀ p ∈ ps, scalar u (minus p (meanPoint ps)) = 0 := by
    intro p hpm
    have := hp p hpm
    simp only [scalar, minus] at *
    linear_combination this - hm
  set A := scatter (meanPoint ps) ps with hA
  have hk : apply A u = ⟨0, 0, 0⟩ := by
    rw [hA, scatter_apply]
    have : ∀ f : P3 ℝ → ℝ, total (fun p => f p * scalar u (minus p (meanPoint ps))) ps = 0 := by
      intro f
      rw [total_congr (g := fun _ => 0) fun p hp => by rw [hd p hp, mul_zero]]
      simp [total]
    rw [this fun p => p.x - _, this fun p => p.y - _, this fun p => p.z - _]
  have hrows : scalar A.row0 u = 0 ∧ scalar A.row1 u = 0 ∧ scalar A.row2 u = 0 := by
    simpa [apply, P3.mk.injEq] using hk
  have hc0 := det_kernel (a := A) rfl rfl rfl hu hk
  rw [estimation_real trig h3, ← hA, solve_flat trig (by rw [hc0]; norm_num)]
  have hcr : ∀ r ∈ crosses A, Vec3.cross r u = ⟨0, 0, 0⟩ := by
    simp only [crosses, List.mem_cons, List.not_mem_nil, or_false, forall_eq_or_imp, forall_eq]
    exact ⟨cross_kernel hrows.1 hrows.2.1, cross_kernel hrows.1 hrows.2.2, cross_kernel hrows.2.1 hrows.2.2⟩
  have hs : largestEntry A ≠ 0 := by
    intro hz
    apply hl
    apply collinear_of_crosses (c := meanPoint ps)
    rw [← hA, largestEntry_zero hz]
    simp [crosses, Vec3.cross, Arith.mul, Arith.sub]
  obtain ⟨hmem, hmax⟩ := largest_real (scaled A (largestEntry A))
  generalize hn : largestEigenVector (scaled A (largestEntry A)) = n at *
  rw [crosses_scaled] at hmem hmax
  have hk' : (1 / largestEntry A ^ 2) ≠ 0 := by positivity
  have hpar : Vec3.cross n u = ⟨0, 0, 0⟩ := by
    obtain ⟨r, hr, rfl⟩ := List.mem_map.1 hmem
    have := hcr r hr
    simp only [times, Vec3.cross, Arith.mul, Arith.sub, P3.mk.injEq] at *
    obtain ⟨e1, e2, e3⟩ := this
    refine ⟨?_, ?_, ?_⟩
    · linear_combination (1 / largestEntry A ^ 2) * e1
    · linear_combination (1 / largestEntry A ^ 2) * e2
    · linear_combination (1 / largestEntry A ^ 2) * e3
  have horth : ∀ d, scalar u d = 0 → scalar n d = 0 := by
    intro d hd
    have := parallel_scalar (d := d) hpar
    rw [hd, mul_zero] at this
    exact (mul_eq_zero.1 this).resolve_left (scalar_pos hu).ne'
  refine ⟨n, rfl, ?_, ?_, ?_⟩
  · rintro rfl
    apply hl
    apply collinear_of_crosses (c := meanPoint ps)
    rw [← hA]
    intro r hr
    by_contra hr0
    have h1 := hmax _ (List.mem_map_of_mem hr)
    rw [scalar_zero] at h1
    have h2 : times (1 / largestEntry A ^ 2) r ≠ ⟨0, 0, 0⟩ := by
      intro hc
      apply hr0
      obtain ⟨x, y, z⟩ := r
      simp only [times, P3.mk.injEq, mul_eq_zero, hk', false_or] at hc ⊢
      exact hc
    exact absurd (scalar_pos h2) (not_lt.2 h1)
  · intro p hpm q hqm
    apply horth
    have h1 := hp p hpm
    have h2 := hp q hqm
    simp only [scalar, minus] at *
    linear_combination h1 - h2
  · show total (fun p => scalar n (minus p (meanPoint ps)) ^ 2) ps = 0
    rw [total_congr (g := fun _ => 0) fun p hp => by rw [horth _ (hd p hp)]; simp]
    simp [total]

end Pasture.Normals
