import Mathlib.Analysis.Matrix.Spectrum
import Mathlib.Analysis.Matrix.PosDef
import Mathlib.Tactic.NormNum
import Verif.Lemmas.NormalGeometry

/-!
# The eigenvalues of a symmetric 3x3 matrix
-/

namespace Pasture.Normals

open Spec

/-- The matrix is symmetric. -/
def Symmetric (a : Mat3 ℝ) : Prop := a.row1.x = a.row0.y ∧ a.row2.x = a.row0.z ∧ a.row2.y = a.row1.z

/-- The characteristic polynomial. -/
noncomputable def chi (a : Mat3 ℝ) (x : ℝ) : ℝ := x ^ 3 - coefficient2 a * x ^ 2 + coefficient1 a * x - coefficient0 a

/-- The matrix as one of Mathlib. -/
def matrix (a : Mat3 ℝ) : Matrix (Fin 3) (Fin 3) ℝ :=
  !![a.row0.x, a.row0.y, a.row0.z; a.row1.x, a.row1.y, a.row1.z; a.row2.x, a.row2.y, a.row2.z]

theorem hermitian {a : Mat3 ℝ} (h : Symmetric a) : (matrix a).IsHermitian := by
  obtain ⟨h1, h2, h3⟩ := h
  apply Matrix.IsHermitian.ext
  intro i j
  fin_cases i <;> fin_cases j <;> simp [matrix, h1, h2, h3]

theorem chi_det {a : Mat3 ℝ} (h : Symmetric a) (x : ℝ) : (Matrix.scalar (Fin 3) x - matrix a).det = chi a x := by
  obtain ⟨h1, h2, h3⟩ := h
  rw [Matrix.det_fin_three]
  simp [matrix, chi, coefficient0, coefficient1, coefficient2, Arith.add, Arith.sub, Arith.mul, Number.ofInt, h1, h2, h3]
  ring

theorem chi_eigenvalues {a : Mat3 ℝ} (h : Symmetric a) (x : ℝ) : chi a x = ((x - (hermitian h).eigenvalues 0) *
    (x - (hermitian h).eigenvalues 1)) * (x - (hermitian h).eigenvalues 2) := by
  rw [← chi_det h, ← Matrix.eval_charpoly, (hermitian h).charpoly_eq, Fin.prod_univ_three]
  simp

/-- `l.x`, `l.y`, `l.z` are the roots in ascending order. -/
structure SortedRoots (f : ℝ → ℝ) (l : P3 ℝ) : Prop where
  le1 : l.x ≤ l.y
  le2 : l.y ≤ l.z
  roots : ∀ x, f x = (x - l.x) * (x - l.y) * (x - l.z)

theorem sorted_of_roots {f : ℝ → ℝ} {a b c : ℝ} (h : ∀ x, f x = (x - a) * (x - b) * (x - c)) :
    ∃ l, SortedRoots f l := by
  rcases le_total a b with h1 | h1 <;> rcases le_total b c with h2 | h2 <;> rcases le_total a c with h3 | h3
  · exact ⟨⟨a, b, c⟩, h1, h2, fun x => by rw [h]⟩
  · exact ⟨⟨a, b, c⟩, h1, h2, fun x => by rw [h]⟩
  · exact ⟨⟨a, c, b⟩, h3, h2, fun x => by rw [h]; ring⟩
  · exact ⟨⟨c, a, b⟩, h3, h1, fun x => by rw [h]; ring⟩
  · exact ⟨⟨b, a, c⟩, h1, h3, fun x => by rw [h]; ring⟩
  · exact ⟨⟨b, c, a⟩, h2, h3, fun x => by rw [h]; ring⟩
  · exact ⟨⟨c, b, a⟩, h2, h1, fun x => by rw [h]; ring⟩
  · exact ⟨⟨c, b, a⟩, h2, h1, fun x => by rw [h]; ring⟩

theorem sorted_exists {a : Mat3 ℝ} (h : Symmetric a) : ∃ l, SortedRoots (chi a) l :=
  sorted_of_roots (chi_eigenvalues h)

theorem SortedRoots.least {f : ℝ → ℝ} {l : P3 ℝ} (h : SortedRoots f l) {x : ℝ} (hx : f x = 0) : l.x ≤ x := by
  rw [h.roots, mul_eq_zero, mul_eq_zero] at hx
  have h1 := h.le1
  have h2 := h.le2
  rcases hx with (hx | hx) | hx <;> linarith

theorem SortedRoots.root {f : ℝ → ℝ} {l : P3 ℝ} (h : SortedRoots f l) : f l.x = 0 := by rw [h.roots]; simp

theorem SortedRoots.unique {f : ℝ → ℝ} {l m : P3 ℝ} (h : SortedRoots f l) (h' : SortedRoots f m) : l.x = m.x :=
  le_antisymm (h.least h'.root) (h'.least h.root)

/-- The coefficients are the elementary symmetric polynomials of the roots. -/
theorem vieta {c0 c1 c2 : ℝ} {l : P3 ℝ} (h : SortedRoots (fun x => x ^ 3 - c2 * x ^ 2 + c1 * x - c0) l) :
    c2 = l.x + l.y + l.z ∧ c1 = l.x * l.y + l.x * l.z + l.y * l.z ∧ c0 = l.x * l.y * l.z := by
  have h0 := h.roots 0
  have h1 := h.roots 1
  have h2 := h.roots (-1)
  refine ⟨?_, ?_, ?_⟩
  · linear_combination -(h1 + h2) / 2 + h0
  · linear_combination (h1 - h2) / 2
  · linear_combination -h0

/-! ## The least eigenvalue -/

/-- The matrix minus a multiple of the identity. -/
noncomputable def shifted (a : Mat3 ℝ) (k : ℝ) : Mat3 ℝ :=
  ⟨⟨a.row0.x - k, a.row0.y, a.row0.z⟩, ⟨a.row1.x, a.row1.y - k, a.row1.z⟩, ⟨a.row2.x, a.row2.y, a.row2.z - k⟩⟩

theorem chi_shifted (a : Mat3 ℝ) (k x : ℝ) : chi (shifted a k) x = chi a (x + k) := by
  simp only [chi, shifted, coefficient0, coefficient1, coefficient2, Arith.add, Arith.sub, Arith.mul, Number.ofInt]
  push_cast
  ring

theorem form_nonneg {a : Mat3 ℝ} (h : Symmetric a) (hr : ∀ x, chi a x = 0 → 0 ≤ x) (v : P3 ℝ) :
    0 ≤ Spec.scalar v (apply a v) := by
  have hp : (matrix a).PosSemidef := by
    rw [(hermitian h).posSemidef_iff_eigenvalues_nonneg]
    intro i
    apply hr
    rw [chi_eigenvalues h]
    fin_cases i <;> simp
  have := hp.dotProduct_mulVec_nonneg ![v.x, v.y, v.z]
  have e : star ![v.x, v.y, v.z] ⬝ᵥ (matrix a).mulVec ![v.x, v.y, v.z] = Spec.scalar v (apply a v) := by
    simp [matrix, dotProduct, Matrix.mulVec, Fin.sum_univ_three, Spec.scalar, apply]
  rw [e] at this
  exact this

theorem rayleigh {a : Mat3 ℝ} {l : P3 ℝ} (h : Symmetric a) (hl : SortedRoots (chi a) l) (v : P3 ℝ) :
    l.x * Spec.scalar v v ≤ Spec.scalar v (apply a v) := by
  have := form_nonneg (a := shifted a l.x) h (fun x hx => by
    rw [chi_shifted] at hx
    linarith [hl.least hx]) v
  have e : Spec.scalar v (apply (shifted a l.x) v) = Spec.scalar v (apply a v) - l.x * Spec.scalar v v := by
    simp only [Spec.scalar, apply, shifted]
    ring
  rw [e] at this
  linarith

theorem eigenvector {a : Mat3 ℝ} {l : P3 ℝ} (h : Symmetric a) (hl : SortedRoots (chi a) l) :
    ∃ v, v ≠ ⟨0, 0, 0⟩ ∧ apply a v = times l.x v := by
  have hd := chi_det h l.x
  rw [hl.root] at hd
  obtain ⟨v, hv, he⟩ := Matrix.exists_mulVec_eq_zero_iff.2 hd
  refine ⟨⟨v 0, v 1, v 2⟩, ?_, ?_⟩
  · intro hz
    apply hv
    simp only [P3.mk.injEq] at hz
    funext i
    fin_cases i
    · exact hz.1
    · exact hz.2.1
    · exact hz.2.2
  · have e0 := congrFun he 0
    have e1 := congrFun he 1
    have e2 := congrFun he 2
    simp [matrix, Matrix.mulVec, dotProduct, Fin.sum_univ_three] at e0 e1 e2
    simp only [apply, Spec.scalar, times, P3.mk.injEq]
    refine ⟨by linarith, by linarith, by linarith⟩

/-! ## The trigonometric solution -/

theorem sort3_real (v : P3 ℝ) (f : ℝ → ℝ) (h : ∀ x, f x = (x - v.x) * (x - v.y) * (x - v.z)) :
    ∃ l, sort3 v = .ok l ∧ SortedRoots f l := by
  unfold sort3
  simp only [Number.isNaN, Bool.or_self, Bool.false_eq_true, if_false, Arith.lt, decide_eq_true_eq]
  by_cases h1 : v.y < v.x
  · simp only [h1, if_true]
    by_cases h2 : v.z < v.y
    · exact ⟨_, if_pos h2, h2.le, h1.le, fun x => by rw [h]; ring⟩
    · rw [if_neg h2]
      by_cases h3 : v.z < v.x
      · exact ⟨_, if_pos h3, not_lt.1 h2, h3.le, fun x => by rw [h]; ring⟩
      · exact ⟨_, if_neg h3, h1.le, not_lt.1 h3, fun x => by rw [h]; ring⟩
  · simp only [h1, if_false]
    by_cases h2 : v.z < v.x
    · exact ⟨_, if_pos h2, h2.le, not_lt.1 h1, fun x => by rw [h]; ring⟩
    · rw [if_neg h2]
      by_cases h3 : v.z < v.y
      · exact ⟨_, if_pos h3, not_lt.1 h2, h3.le, fun x => by rw [h]; ring⟩
      · exact ⟨_, if_neg h3, not_lt.1 h1, not_lt.1 h3, fun x => by rw [h]⟩

theorem three_angle {h q a : ℝ} (ha : a ≤ 0) (hq : q ≤ 0) (e : q = h * h + a * a * a) :
    √(-a) ^ 3 * Real.cos (Complex.arg ⟨h, √(-q)⟩) = h := by
  have hn : ‖(⟨h, √(-q)⟩ : ℂ)‖ = √(-a) ^ 3 := by
    rw [Complex.norm_eq_sqrt_sq_add_sq]
    simp only
    rw [Real.sq_sqrt (by linarith)]
    have : h ^ 2 + -q = (√(-a) ^ 3) ^ 2 := by
      rw [← pow_mul, show 3 * 2 = 2 * 3 from rfl, pow_mul, Real.sq_sqrt (by linarith), e]
      ring
    rw [this, Real.sqrt_sq (by positivity)]
  rw [← hn, Complex.norm_mul_cos_arg]

theorem cubic_real {c0 c1 c2 : ℝ} {l : P3 ℝ} (hl : SortedRoots (fun x => x ^ 3 - c2 * x ^ 2 + c1 * x - c0) l) (x : ℝ) :
    x ^ 3 - c2 * x ^ 2 + c1 * x - c0 = (x - (cubicRoots exactTrig c0 c1 c2).x) *
      (x - (cubicRoots exactTrig c0 c1 c2).y) * (x - (cubicRoots exactTrig c0 c1 c2).z) := by
  obtain ⟨v2, v1, v0⟩ := vieta hl
  obtain ⟨l1, l2, l3⟩ := l
  simp only at v2 v1 v0
  simp only [cubicRoots, Arith.add, Arith.sub, Arith.mul, Arith.div, Arith.neg, Arith.sqrt, Arith.lt, Arith.zero,
    Number.ofInt, Number.half, exactTrig, decide_eq_true_eq, Int.cast_one, Int.cast_ofNat]
  generalize hm : c2 * (1 / 3) = m
  generalize ha : (c1 - c2 * m) * (1 / 3) = a
  have ha0 : a ≤ 0 := by
    have : a = -((l1 - l2) ^ 2 + (l1 - l3) ^ 2 + (l2 - l3) ^ 2) / 18 := by rw [← ha, ← hm, v1, v2]; ring
    rw [this]
    have := sq_nonneg (l1 - l2)
    have := sq_nonneg (l1 - l3)
    have := sq_nonneg (l2 - l3)
    linarith
  rw [if_neg (not_lt.2 ha0)]
  generalize hh : (1 / 2 : ℝ) * (c0 + m * (2 * m * m - c1)) = h
  generalize hq : h * h + a * a * a = q
  have hq0 : q ≤ 0 := by
    have : q = -((l1 - l2) * (l1 - l3) * (l2 - l3)) ^ 2 / 108 := by
      rw [← hq, ← hh, ← ha, ← hm, v0, v1, v2]; ring
    rw [this]
    have := sq_nonneg ((l1 - l2) * (l1 - l3) * (l2 - l3))
    linarith
  rw [if_neg (not_lt.2 hq0)]
  have key := three_angle ha0 hq0 hq.symm
  generalize hθ : Complex.arg ⟨h, √(-q)⟩ * (1 / 3) = θ
  have hθ' : Complex.arg ⟨h, √(-q)⟩ = 3 * θ := by rw [← hθ]; ring
  rw [hθ', Real.cos_three_mul] at key
  have hρ : √(-a) ^ 2 = -a := Real.sq_sqrt (by linarith)
  have h3 : √(3 : ℝ) ^ 2 = 3 := Real.sq_sqrt (by norm_num)
  have hcs := Real.sin_sq_add_cos_sq θ
  generalize √(-a) = ρ at *
  generalize √(3 : ℝ) = w at *
  generalize Real.cos θ = c at *
  generalize Real.sin θ = s at *
  have e2 : c2 = 3 * m := by rw [← hm]; ring
  have e1 : c1 = 3 * m ^ 2 + 3 * a := by rw [← ha, e2]; ring
  have e0 : c0 = 2 * h + m ^ 3 + 3 * m * a := by rw [← hh, e1]; ring
  have es : s ^ 2 = 1 - c ^ 2 := by linarith
  have eprod : (x - (m - ρ * (c + w * s))) * (x - (m - ρ * (c - w * s))) =
      (x - m) ^ 2 + 2 * ρ * c * (x - m) + ρ ^ 2 * (c ^ 2 - 3 * (1 - c ^ 2)) := by
    rw [← es]
    linear_combination -(ρ ^ 2 * s ^ 2) * h3
  rw [mul_assoc, eprod, e2, e1, e0, ← key]
  have ea : a = -ρ ^ 2 := by linarith
  rw [ea]
  ring

/-- What `solve_polynomial` finds in exact arithmetic. -/
theorem polynomial_real {a : Mat3 ℝ} {l : P3 ℝ} (hl : SortedRoots (chi a) l) (hx : 0 ≤ l.x) :
    ∃ v, solvePolynomial exactTrig a = .ok v ∧ v.x = if |coefficient0 a| < 1 / 2 ^ 52 then 0 else l.x := by
  unfold solvePolynomial
  by_cases h : |coefficient0 a| < 1 / 2 ^ 52
  · rw [if_pos (by simpa [Arith.lt, Number.epsilon, abs_real] using h), if_pos h]
    exact ⟨_, rfl, rfl⟩
  · rw [if_neg (by simpa [Arith.lt, Number.epsilon, abs_real] using h), if_neg h]
    obtain ⟨w, hw, hs⟩ := sort3_real (cubicRoots exactTrig (coefficient0 a) (coefficient1 a) (coefficient2 a)) (chi a)
      (cubic_real hl)
    rw [hw]
    simp only [bind, Except.bind, Arith.le, Arith.zero, decide_eq_true_eq]
    have e := hs.unique hl
    by_cases h0 : w.x ≤ 0
    · rw [if_pos h0]
      exact ⟨_, rfl, by simp only [solveQuadratic, Arith.zero]; linarith⟩
    · rw [if_neg h0]
      exact ⟨_, rfl, e⟩

end Pasture.Normals
